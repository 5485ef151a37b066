import Verif.Spec.Race
import Verif.Lemmas.Finder
/-!
# Lemmas: searches among other processes
-/
namespace Verif
open Spec FileFinder

/-- A body run over a flat list. -/
def foldFlow {ρ σ : Type} (body : σ → OsStr → String → Outcome BakuninError (Flow ρ σ)) (st : σ) :
    List (OsStr × String) → Outcome BakuninError (Flow ρ σ)
  | [] => .ok (.cont st)
  | c :: cs => body st c.1 c.2 >>= fun
      | .ret r => .ok (.ret r)
      | .cont st => foldFlow body st cs

theorem foldFlow_append {ρ σ : Type} (body : σ → OsStr → String → Outcome BakuninError (Flow ρ σ))
    (cs ds : List (OsStr × String)) : ∀ st, foldFlow body st (cs ++ ds) = (foldFlow body st cs >>= fun
      | .ret r => .ok (.ret r)
      | .cont st => foldFlow body st ds) := by
  induction cs with
  | nil => intro st; rfl
  | cons c cs ih =>
    intro st
    simp only [List.cons_append, foldFlow]
    cases body st c.1 c.2 with
    | ok x => cases x with
      | ret r => rfl
      | cont s => exact ih s
    | err e => rfl
    | panic => rfl

theorem eachExt_eq {ρ σ : Type} (body : σ → OsStr → String → Outcome BakuninError (Flow ρ σ)) (base : OsStr)
    (exts : List String) (h : ∀ e ∈ exts, '/' ∉ e.toList) :
    ∀ st, eachExt body base st exts = foldFlow body st (row base exts) := by
  induction exts with
  | nil => intro st; rfl
  | cons e exts ih =>
    intro st
    rw [eachExt, withExt_ok (h e (by simp))]
    simp only [Outcome.bind_ok, row, List.map_cons, foldFlow]
    congr 1; funext x
    cases x with
    | ret r => rfl
    | cont s => exact ih (fun e' he => h e' (by simp [he])) s

theorem eachFolder_eq {ρ σ : Type} (body : σ → OsStr → String → Outcome BakuninError (Flow ρ σ)) (name : String)
    (exts : List String) (h : ∀ e ∈ exts, '/' ∉ e.toList) (folders : List OsStr) :
    ∀ st, eachFolder body name exts st folders =
      foldFlow body st (folders.flatMap fun d => row (pathJoin d (os name)) exts) := by
  induction folders with
  | nil => intro st; rfl
  | cons d folders ih =>
    intro st
    rw [eachFolder, eachExt_eq body _ exts h, List.flatMap_cons, foldFlow_append]
    congr 1; funext x
    cases x with
    | ret r => rfl
    | cont s => exact ih s

/-! ### Observations -/

/-- A candidate with what a search saw: whether it existed at the look, and the flag. -/
abbrev Obs := (OsStr × String) × Bool × Bool

/-- What is seen with the given moments. -/
def observe (ws : Moments) (look flag : Nat → Nat) : List (OsStr × String) → List Obs
  | [] => []
  | c :: cs => (c, (ws (look 0)).pathExists c.1, (ws (flag 0)).pathExists c.1) ::
      observe ws (fun i => look (i + 1)) (fun i => flag (i + 1)) cs

theorem observe_get (ws : Moments) (cs : List (OsStr × String)) : ∀ (look flag : Nat → Nat) (i : Nat),
    (observe ws look flag cs)[i]? =
      cs[i]?.map fun c => (c, (ws (look i)).pathExists c.1, (ws (flag i)).pathExists c.1) := by
  induction cs with
  | nil => intro look flag i; simp [observe]
  | cons c cs ih =>
    intro look flag i
    cases i with
    | zero => simp [observe]
    | succ i => simp [observe, ih]

theorem observe_length (ws : Moments) (cs : List (OsStr × String)) : ∀ (look flag : Nat → Nat),
    (observe ws look flag cs).length = cs.length := by
  induction cs with
  | nil => intro _ _; rfl
  | cons c cs ih => intro _ _; simp [observe, ih]

theorem observe_const (ws : Moments) (w : World) (cs : List (OsStr × String))
    (h : ∀ t, ∀ c ∈ cs, (ws t).pathExists c.1 = w.pathExists c.1) : ∀ (look flag : Nat → Nat),
    observe ws look flag cs = cs.map fun c => (c, w.pathExists c.1, w.pathExists c.1) := by
  induction cs with
  | nil => intro _ _; rfl
  | cons c cs ih =>
    intro look flag
    simp only [observe, List.map_cons]
    rw [ih (fun t d hd => h t d (by simp [hd])), h _ c (by simp), h _ c (by simp)]

/-- The first look, followed by later ones. -/
def cons0 (t : Nat) (f : Nat → Nat) : Nat → Nat
  | 0 => t
  | i + 1 => f i

theorem inOrder_cons {look flag : Nat → Nat} (h : InOrder look flag) {t u : Nat} (h1 : t ≤ u) (h2 : u < look 0) :
    InOrder (cons0 t look) (cons0 u flag) := by
  intro i
  cases i with
  | zero => exact ⟨h1, h2⟩
  | succ i => exact h i

theorem inOrder_after (t : Nat) : InOrder (fun i => t + 2 * i) (fun i => t + 2 * i + 1) := by
  intro i; constructor <;> simp only [] <;> omega

theorem observe_cons0 (ws : Moments) (t u : Nat) (look flag : Nat → Nat) (c : OsStr × String) (cs : List (OsStr × String)) :
    observe ws (cons0 t look) (cons0 u flag) (c :: cs) =
      (c, (ws t).pathExists c.1, (ws u).pathExists c.1) :: observe ws look flag cs := rfl

/-- The result for an observation. -/
def resO (b : Build) (o : Obs) : FindResult :=
  { path := o.1.1, extension := FileExtension.ofStr b o.1.2, index := 0, exists' := o.2.2 }

theorem resO_describes (b : Build) (o : Obs) : Describes b o.1 0 o.2.2 (resO b o) := ⟨rfl, rfl, rfl, rfl⟩

theorem newO (b : Build) (w : World) (c : OsStr × String) (s : Bool) :
    FindResult.new b w c.1 c.2 = resO b (c, s, w.pathExists c.1) := rfl

/-! ### find_first -/

/-- The loop of find_first over observations. -/
def firstO (b : Build) (am : Bool) (first : Option FindResult) : List Obs → Flow FindResult (Option FindResult)
  | [] => .cont first
  | o :: os =>
    if o.2.1 then .ret (resO b o)
    else if am && first.isNone then firstO b am (some (resO b o)) os
    else firstO b am first os

theorem first_observed (b : Build) (ws : Moments) (am : Bool) (cs : List (OsStr × String)) : ∀ (t : Nat) (first : Option FindResult),
    ∃ look flag, InOrder look flag ∧ look 0 = t ∧
      match firstO b am first (observe ws look flag cs) with
      | .ret r => foldFlow (firstBody b ws am) (t, first) cs = .ok (.ret r)
      | .cont first' => ∃ t', foldFlow (firstBody b ws am) (t, first) cs = .ok (.cont (t', first')) := by
  induction cs with
  | nil => intro t first; exact ⟨_, _, inOrder_after t, rfl, t, rfl⟩
  | cons c cs ih =>
    intro t first
    simp only [foldFlow, firstBody]
    by_cases hc : (ws t).pathExists c.1 = true
    · refine ⟨_, _, inOrder_after t, rfl, ?_⟩
      simp only [observe, firstO, hc, Nat.mul_zero, Nat.add_zero, if_true]
      rfl
    · by_cases hm : (am && first.isNone) = true
      · obtain ⟨look, flag, h1, h2, h3⟩ := ih (t + 2) (some (resO b (c, false, (ws (t + 1)).pathExists c.1)))
        refine ⟨cons0 t look, cons0 (t + 1) flag, inOrder_cons h1 (by omega) (by omega), rfl, ?_⟩
        rw [observe_cons0]
        simp only [firstO, hc, hm, if_true, Bool.false_eq_true, if_false, Outcome.bind_ok, newO b _ c false]
        simpa using h3
      · obtain ⟨look, flag, h1, h2, h3⟩ := ih (t + 1) first
        refine ⟨cons0 t look, cons0 t flag, inOrder_cons h1 (by omega) (by omega), rfl, ?_⟩
        rw [observe_cons0]
        simp only [firstO, hc, hm, Bool.false_eq_true, if_false, Outcome.bind_ok]
        simpa using h3

theorem firstO_hit {b : Build} {am : Bool} {cs : List Obs} {c ds} (hn : ∀ x ∈ cs, x.2.1 = false) (hc : c.2.1 = true) :
    ∀ first, firstO b am first (cs ++ c :: ds) = .ret (resO b c) := by
  induction cs with
  | nil => intro first; simp [firstO, hc]
  | cons x cs ih =>
    intro first
    have := hn x (by simp)
    simp only [List.cons_append, firstO, this]
    split
    · contradiction
    · split <;> exact ih (fun y hy => hn y (by simp [hy])) _

theorem firstO_miss {b : Build} {am : Bool} {cs : List Obs} (hn : ∀ x ∈ cs, x.2.1 = false) :
    ∀ first, firstO b am first cs = .cont (if am = true ∧ first = none then cs.head?.map (resO b) else first) := by
  induction cs with
  | nil => intro first; cases first <;> simp [firstO]
  | cons x cs ih =>
    intro first
    have := hn x (by simp)
    have ih := ih (fun y hy => hn y (by simp [hy]))
    simp only [firstO, this]
    cases am <;> cases first <;> simp [ih]

theorem firstO_const (b : Build) (w : World) (am : Bool) (cs : List (OsStr × String)) : ∀ first,
    firstO b am first (cs.map fun c => (c, w.pathExists c.1, w.pathExists c.1)) = firstFlat b w am first cs := by
  induction cs with
  | nil => intro first; rfl
  | cons c cs ih =>
    intro first
    simp only [List.map_cons, firstO, firstFlat, ih]
    rfl

/-! ### find_last -/

/-- The loop of find_last over observations. -/
def lastO (b : Build) (am : Bool) (st : Option FindResult × Option FindResult) :
    List Obs → Option FindResult × Option FindResult
  | [] => st
  | o :: os =>
    if o.2.1 then lastO b am (some (resO b o), st.2) os
    else if am && st.1.isNone then lastO b am (st.1, some (resO b o)) os
    else lastO b am st os

theorem last_observed (b : Build) (ws : Moments) (am : Bool) (cs : List (OsStr × String)) :
    ∀ (t : Nat) (st : Option FindResult × Option FindResult), ∃ look flag, InOrder look flag ∧ look 0 = t ∧
      ∃ t', foldFlow (lastBody b ws am) (t, st) cs = .ok (.cont (t', lastO b am st (observe ws look flag cs))) := by
  induction cs with
  | nil => intro t st; exact ⟨_, _, inOrder_after t, rfl, t, rfl⟩
  | cons c cs ih =>
    intro t st
    simp only [foldFlow, lastBody]
    by_cases hc : (ws t).pathExists c.1 = true
    · obtain ⟨look, flag, h1, h2, h3⟩ := ih (t + 2) (some (resO b (c, true, (ws (t + 1)).pathExists c.1)), st.2)
      refine ⟨cons0 t look, cons0 (t + 1) flag, inOrder_cons h1 (by omega) (by omega), rfl, ?_⟩
      rw [observe_cons0]
      simp only [lastO, hc, if_true, Outcome.bind_ok, newO b _ c true]
      simpa using h3
    · by_cases hm : (am && st.1.isNone) = true
      · obtain ⟨look, flag, h1, h2, h3⟩ := ih (t + 2) (st.1, some (resO b (c, false, (ws (t + 1)).pathExists c.1)))
        refine ⟨cons0 t look, cons0 (t + 1) flag, inOrder_cons h1 (by omega) (by omega), rfl, ?_⟩
        rw [observe_cons0]
        simp only [lastO, hc, hm, if_true, Bool.false_eq_true, if_false, Outcome.bind_ok, newO b _ c false]
        simpa using h3
      · obtain ⟨look, flag, h1, h2, h3⟩ := ih (t + 1) st
        refine ⟨cons0 t look, cons0 t flag, inOrder_cons h1 (by omega) (by omega), rfl, ?_⟩
        rw [observe_cons0]
        simp only [lastO, hc, hm, Bool.false_eq_true, if_false, Outcome.bind_ok]
        simpa using h3

theorem lastO_append (b : Build) (am : Bool) (cs ds : List Obs) :
    ∀ st, lastO b am st (cs ++ ds) = lastO b am (lastO b am st cs) ds := by
  induction cs with
  | nil => intro; rfl
  | cons c cs ih =>
    intro st
    simp only [List.cons_append, lastO]
    split
    · exact ih _
    · split <;> exact ih _

theorem lastO_keep {b : Build} {am : Bool} {ds : List Obs} {r y} (hn : ∀ x ∈ ds, x.2.1 = false) :
    lastO b am (some r, y) ds = (some r, y) := by
  induction ds with
  | nil => rfl
  | cons x ds ih =>
    have := hn x (by simp)
    simp only [lastO, this]
    simpa using ih (fun y hy => hn y (by simp [hy]))

theorem lastO_hit {b : Build} {am : Bool} {cs ds : List Obs} {c st} (hn : ∀ x ∈ ds, x.2.1 = false) (hc : c.2.1 = true) :
    (lastO b am st (cs ++ c :: ds)).1 = some (resO b c) := by
  rw [lastO_append, lastO, if_pos hc, lastO_keep hn]

theorem lastO_miss {b : Build} {am : Bool} {cs : List Obs} (hn : ∀ x ∈ cs, x.2.1 = false) :
    ∀ y, lastO b am (none, y) cs = (none, if am = true ∧ cs ≠ [] then cs.getLast?.map (resO b) else y) := by
  induction cs with
  | nil => intro y; simp [lastO]
  | cons x cs ih =>
    intro y
    have := hn x (by simp)
    have ih := ih (fun y hy => hn y (by simp [hy]))
    simp only [lastO, this]
    cases am with
    | false => simp [ih]
    | true =>
      cases cs with
      | nil => simp [lastO]
      | cons z cs => simp [ih, List.getLast?_cons_cons]

theorem lastO_const (b : Build) (w : World) (am : Bool) (cs : List (OsStr × String)) : ∀ st,
    lastO b am st (cs.map fun c => (c, w.pathExists c.1, w.pathExists c.1)) = lastFlat b w am st cs := by
  induction cs with
  | nil => intro st; rfl
  | cons c cs ih =>
    intro st
    simp only [List.map_cons, lastO, lastFlat, ih]
    rfl

/-! ### find_all -/

/-- Numbering a list of observations. -/
def numberO (b : Build) (st : List FindResult × Nat) : List Obs → Outcome BakuninError (List FindResult × Nat)
  | [] => .ok st
  | o :: os => incIndex b st.2 >>= fun i => numberO b (st.1 ++ [(resO b o).withIndex st.2], i) os

/-- Whether find_all lists an observed candidate. -/
def hitO (am : Bool) (o : Obs) : Bool := am || o.2.1

theorem all_observed (b : Build) (ws : Moments) (am : Bool) (cs : List (OsStr × String)) :
    ∀ (t : Nat) (st : List FindResult × Nat), ∃ look flag, InOrder look flag ∧ look 0 = t ∧
      match numberO b st ((observe ws look flag cs).filter (hitO am)) with
      | .ok st' => ∃ t', foldFlow (allBody b ws am) (t, st) cs = .ok (.cont (t', st'))
      | .err e => foldFlow (allBody b ws am) (t, st) cs = .err e
      | .panic => foldFlow (allBody b ws am) (t, st) cs = .panic := by
  induction cs with
  | nil => intro t st; exact ⟨_, _, inOrder_after t, rfl, t, rfl⟩
  | cons c cs ih =>
    intro t st
    by_cases hm : am = true
    · subst hm
      cases hi : incIndex b st.2 with
      | ok i =>
        obtain ⟨look, flag, h1, h2, h3⟩ :=
          ih (t + 1) (st.1 ++ [(resO b (c, (ws t).pathExists c.1, (ws t).pathExists c.1)).withIndex st.2], i)
        refine ⟨cons0 t look, cons0 t flag, inOrder_cons h1 (by omega) (by omega), rfl, ?_⟩
        rw [observe_cons0, List.filter_cons_of_pos (by simp [hitO])]
        simp only [foldFlow, allBody, numberO, hi, Outcome.bind_ok, if_true]
        exact h3
      | err e =>
        refine ⟨_, _, inOrder_after t, rfl, ?_⟩
        rw [observe, List.filter_cons_of_pos (by simp [hitO])]
        simp [foldFlow, allBody, numberO, hi]
      | panic =>
        refine ⟨_, _, inOrder_after t, rfl, ?_⟩
        rw [observe, List.filter_cons_of_pos (by simp [hitO])]
        simp [foldFlow, allBody, numberO, hi]
    · have hm : am = false := by simpa using hm
      subst hm
      by_cases hc : (ws t).pathExists c.1 = true
      · cases hi : incIndex b st.2 with
        | ok i =>
          obtain ⟨look, flag, h1, h2, h3⟩ :=
            ih (t + 2) (st.1 ++ [(resO b (c, (ws t).pathExists c.1, (ws (t + 1)).pathExists c.1)).withIndex st.2], i)
          refine ⟨cons0 t look, cons0 (t + 1) flag, inOrder_cons h1 (by omega) (by omega), rfl, ?_⟩
          rw [observe_cons0, List.filter_cons_of_pos (by simp [hitO, hc])]
          simp only [foldFlow, allBody, numberO, hi, hc, Outcome.bind_ok, if_true, Bool.false_eq_true, if_false]
          rw [hc] at h3
          exact h3
        | err e =>
          refine ⟨_, _, inOrder_after t, rfl, ?_⟩
          rw [observe, List.filter_cons_of_pos (by simp [hitO, hc])]
          simp [foldFlow, allBody, numberO, hi, hc]
        | panic =>
          refine ⟨_, _, inOrder_after t, rfl, ?_⟩
          rw [observe, List.filter_cons_of_pos (by simp [hitO, hc])]
          simp [foldFlow, allBody, numberO, hi, hc]
      · obtain ⟨look, flag, h1, h2, h3⟩ := ih (t + 1) st
        refine ⟨cons0 t look, cons0 t flag, inOrder_cons h1 (by omega) (by omega), rfl, ?_⟩
        rw [observe_cons0, List.filter_cons_of_neg (by simpa [hitO] using hc)]
        simp only [foldFlow, allBody, hc, Outcome.bind_ok, Bool.false_eq_true, if_false]
        exact h3

theorem numberO_cases (b : Build) (cs : List Obs) :
    ∀ (fs : List FindResult) (i : Nat), i < 65536 →
      (b.overflowChecks = false ∨ i + cs.length < 65536 →
        ∃ j, numberO b (fs, i) cs =
          .ok (fs ++ cs.zipIdx.map (fun x => (resO b x.1).withIndex ((i + x.2) % 65536)), j)) ∧
      (b.overflowChecks = true → 65536 ≤ i + cs.length → numberO b (fs, i) cs = .panic) := by
  induction cs with
  | nil =>
    intro fs i hi
    exact ⟨fun _ => ⟨i, by simp [numberO]⟩, fun _ h => by simp at h; omega⟩
  | cons c cs ih =>
    intro fs i hi
    have hz : ∀ i', (∀ k : Nat, (i' + k) % 65536 = (i + (k + 1)) % 65536) →
        cs.zipIdx.map (fun x => (resO b x.1).withIndex ((i' + x.2) % 65536)) =
        (cs.zipIdx 1).map (fun x => (resO b x.1).withIndex ((i + x.2) % 65536)) := by
      intro i' hh
      rw [List.zipIdx_succ, List.map_map]
      apply List.map_congr_left
      intro x _
      simp [hh]
    by_cases hlt : i + 1 < 65536
    · have hinc : incIndex b i = .ok (i + 1) := by simp [incIndex, hlt]
      obtain ⟨h1, h2⟩ := ih (fs ++ [(resO b c).withIndex i]) (i + 1) hlt
      constructor
      · intro ho
        obtain ⟨j, hj⟩ := h1 (ho.imp id (fun h => by simp at h; omega))
        refine ⟨j, ?_⟩
        rw [numberO, hinc, Outcome.bind_ok, hj, hz (i + 1) (fun k => by congr 1; omega)]
        simp [Nat.mod_eq_of_lt hi]
      · intro ho hl
        rw [numberO, hinc, Outcome.bind_ok]
        exact h2 ho (by simp at hl; omega)
    · have hi' : i = 65535 := by omega
      subst hi'
      constructor
      · intro ho
        have hb : b.overflowChecks = false := by
          rcases ho with h | h
          · exact h
          · simp at h; omega
        have hinc : incIndex b 65535 = .ok 0 := by simp [incIndex, hb]
        obtain ⟨j, hj⟩ := (ih (fs ++ [(resO b c).withIndex 65535]) 0 (by decide)).1 (Or.inl hb)
        refine ⟨j, ?_⟩
        rw [numberO, hinc, Outcome.bind_ok, hj, hz 0 (fun k => by omega)]
        simp
      · intro ho _
        rw [numberO]
        simp [incIndex, ho]

theorem numberO_const (b : Build) (w : World) (am : Bool) (cs : List (OsStr × String)) : ∀ st,
    numberO b st ((cs.map fun c => (c, w.pathExists c.1, w.pathExists c.1)).filter (hitO am)) =
      numberFlat b w st (cs.filter (hit w am)) := by
  induction cs with
  | nil => intro st; rfl
  | cons c cs ih =>
    intro st
    by_cases hc : (am || w.pathExists c.1) = true
    · rw [List.map_cons, List.filter_cons_of_pos (by exact hc), List.filter_cons_of_pos (by exact hc), numberO, numberFlat]
      congr 1; funext i
      exact ih _
    · rw [List.map_cons, List.filter_cons_of_neg (by exact hc), List.filter_cons_of_neg (by exact hc)]
      exact ih _

/-! ### find_all_or_first -/

/-- The loop of find_all_or_first over observations. -/
def aofO (b : Build) (st : AllOrFirst) : List Obs → Outcome BakuninError AllOrFirst
  | [] => .ok st
  | o :: os =>
    if o.2.1 then
      incIndex b st.index >>= fun i =>
        aofO b { st with files := st.files ++ [(resO b o).withIndex st.index], index := i } os
    else if st.first.isNone then aofO b { st with first := some (resO b o) } os
    else aofO b st os

theorem aof_observed (b : Build) (ws : Moments) (cs : List (OsStr × String)) :
    ∀ (t : Nat) (st : AllOrFirst), ∃ look flag, InOrder look flag ∧ look 0 = t ∧
      match aofO b st (observe ws look flag cs) with
      | .ok st' => ∃ t', foldFlow (allOrFirstBody b ws) (t, st) cs = .ok (.cont (t', st'))
      | .err e => foldFlow (allOrFirstBody b ws) (t, st) cs = .err e
      | .panic => foldFlow (allOrFirstBody b ws) (t, st) cs = .panic := by
  induction cs with
  | nil => intro t st; exact ⟨_, _, inOrder_after t, rfl, t, rfl⟩
  | cons c cs ih =>
    intro t st
    by_cases hc : (ws t).pathExists c.1 = true
    · cases hi : incIndex b st.index with
      | ok i =>
        obtain ⟨look, flag, h1, h2, h3⟩ := ih (t + 2)
          { st with files := st.files ++ [(resO b (c, true, (ws (t + 1)).pathExists c.1)).withIndex st.index], index := i }
        refine ⟨cons0 t look, cons0 (t + 1) flag, inOrder_cons h1 (by omega) (by omega), rfl, ?_⟩
        rw [observe_cons0]
        simp only [foldFlow, allOrFirstBody, aofO, hi, hc, Outcome.bind_ok, if_true]
        exact h3
      | err e =>
        refine ⟨_, _, inOrder_after t, rfl, ?_⟩
        simp [observe, foldFlow, allOrFirstBody, aofO, hi, hc]
      | panic =>
        refine ⟨_, _, inOrder_after t, rfl, ?_⟩
        simp [observe, foldFlow, allOrFirstBody, aofO, hi, hc]
    · by_cases hm : st.first.isNone = true
      · obtain ⟨look, flag, h1, h2, h3⟩ := ih (t + 2) { st with first := some (resO b (c, false, (ws (t + 1)).pathExists c.1)) }
        refine ⟨cons0 t look, cons0 (t + 1) flag, inOrder_cons h1 (by omega) (by omega), rfl, ?_⟩
        rw [observe_cons0]
        simp only [foldFlow, allOrFirstBody, aofO, hc, hm, Outcome.bind_ok, if_true, Bool.false_eq_true, if_false, newO b _ c false]
        simpa using h3
      · obtain ⟨look, flag, h1, h2, h3⟩ := ih (t + 1) st
        refine ⟨cons0 t look, cons0 t flag, inOrder_cons h1 (by omega) (by omega), rfl, ?_⟩
        rw [observe_cons0]
        simp only [foldFlow, allOrFirstBody, aofO, hc, hm, Outcome.bind_ok, Bool.false_eq_true, if_false]
        simpa using h3

theorem aofO_const (b : Build) (w : World) (cs : List (OsStr × String)) : ∀ st,
    aofO b st (cs.map fun c => (c, w.pathExists c.1, w.pathExists c.1)) = aofFlat b w st cs := by
  induction cs with
  | nil => intro st; rfl
  | cons c cs ih =>
    intro st
    simp only [List.map_cons, aofO, aofFlat, ih]
    rfl

theorem aofO_keep {b : Build} {cs : List Obs} {st : AllOrFirst} (h : ∀ c ∈ cs, c.2.1 = false) (hs : st.first ≠ none) :
    aofO b st cs = .ok st := by
  induction cs with
  | nil => rfl
  | cons x cs ih =>
    simp only [aofO, h x (by simp)]
    have : st.first.isNone = false := by cases hst : st.first <;> simp_all
    simp only [this]
    exact ih (fun y hy => h y (by simp [hy]))

theorem aofO_miss {b : Build} {cs : List Obs} {st : AllOrFirst} (h : ∀ c ∈ cs, c.2.1 = false) (hs : st.first = none) :
    aofO b st cs = .ok { st with first := cs.head?.map (resO b) } := by
  cases cs with
  | nil => cases st; simp_all [aofO]
  | cons x cs =>
    simp only [aofO, h x (by simp), hs]
    exact aofO_keep (fun y hy => h y (by simp [hy])) (by simp)

theorem aofO_files (b : Build) (cs : List Obs) : ∀ st : AllOrFirst,
    (∃ fi : Option FindResult, aofO b st cs =
      (numberO b (st.files, st.index) (cs.filter (hitO false)) >>= fun x => .ok ⟨x.1, fi, x.2⟩)) := by
  induction cs with
  | nil => intro st; exact ⟨st.first, rfl⟩
  | cons c cs ih =>
    intro st
    simp only [aofO, List.filter_cons, hitO, Bool.false_or]
    split
    · cases hi : incIndex b st.index with
      | ok i =>
        obtain ⟨fi, h1⟩ := ih { st with files := st.files ++ [(resO b c).withIndex st.index], index := i }
        exact ⟨fi, by rw [numberO, hi, Outcome.bind_ok, Outcome.bind_ok]; exact h1⟩
      | err e => exact ⟨none, by rw [numberO, hi]; rfl⟩
      | panic => exact ⟨none, by rw [numberO, hi]; rfl⟩
    · split <;> exact ih _

end Verif
