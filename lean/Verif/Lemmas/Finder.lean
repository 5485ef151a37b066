import Verif.Spec.Finder
/-! # Lemmas: the nested loops of the finder are loops over the candidate list -/
namespace Verif
open Spec FileFinder

/-- The result for a candidate. -/
def res (b : Build) (w : World) (c : OsStr × String) : FindResult := FindResult.new b w c.1 c.2

theorem sep_mem_os (e : String) : sep ∈ os e ↔ '/' ∈ e.toList := by
  simp [sep, os]

theorem withExt_ok {base : OsStr} {e : String} (h : '/' ∉ e.toList) :
    withExt base e = .ok (replaceExtension base (os e)) := by
  simp [withExt, pathWithExtension, sep_mem_os, h]

theorem validate_ready {f : FileFinder} (h : Ready f) : f.validate = .ok () := by
  have h1 := h.folders; have h2 := h.extensions
  simp [validate, h1, h2]

theorem candidates_ne_nil {f : FileFinder} (h : Ready f) : candidates f ≠ [] := by
  have h1 := h.folders; have h2 := h.extensions
  obtain ⟨a, l, e⟩ := List.exists_cons_of_ne_nil h1
  obtain ⟨a', l', e'⟩ := List.exists_cons_of_ne_nil h2
  simp [candidates, e, e']

/-- The candidates of one folder. -/
def row (base : OsStr) (exts : List String) : List (OsStr × String) :=
  exts.map fun e => (replaceExtension base (os e), e)

theorem candidates_eq (f : FileFinder) :
    candidates f = f.folders.flatMap fun d => row (pathJoin d (os f.fileName)) f.extensions := rfl

/-! ### find_first -/

/-- The loop of find_first over a flat list. -/
def firstFlat (b : Build) (w : World) (am : Bool) (first : Option FindResult) :
    List (OsStr × String) → Flow FindResult (Option FindResult)
  | [] => .cont first
  | c :: cs =>
    if w.pathExists c.1 then .ret (res b w c)
    else if am && first.isNone then firstFlat b w am (some (res b w c)) cs
    else firstFlat b w am first cs

theorem firstFlat_append (b : Build) (w : World) (am : Bool) (cs ds : List (OsStr × String)) :
    ∀ first, firstFlat b w am first (cs ++ ds) =
      match firstFlat b w am first cs with
      | .ret r => .ret r
      | .cont first => firstFlat b w am first ds := by
  induction cs with
  | nil => intro; rfl
  | cons c cs ih =>
    intro first
    simp only [List.cons_append, firstFlat]
    split
    · rfl
    · split <;> exact ih _

theorem findFirstExts_eq (b : Build) (w : World) (am : Bool) (base : OsStr) (exts : List String)
    (h : ∀ e ∈ exts, '/' ∉ e.toList) :
    ∀ first, findFirstExts b w am base first exts = .ok (firstFlat b w am first (row base exts)) := by
  induction exts with
  | nil => intro; rfl
  | cons e exts ih =>
    intro first
    rw [findFirstExts, withExt_ok (h e (by simp))]
    simp only [Outcome.bind_ok, row, List.map_cons, firstFlat, res]
    have ih := ih (fun e' he => h e' (by simp [he]))
    split
    · rfl
    · split <;> exact ih _

theorem findFirstFolders_eq (b : Build) (w : World) (am : Bool) (name : String) (exts : List String)
    (h : ∀ e ∈ exts, '/' ∉ e.toList) (folders : List OsStr) :
    ∀ first, findFirstFolders b w am name exts first folders =
      .ok (firstFlat b w am first (folders.flatMap fun d => row (pathJoin d (os name)) exts)) := by
  induction folders with
  | nil => intro; rfl
  | cons d folders ih =>
    intro first
    rw [findFirstFolders, findFirstExts_eq b w am _ exts h, List.flatMap_cons, firstFlat_append, Outcome.bind_ok]
    cases firstFlat b w am first (row (pathJoin d (os name)) exts) with
    | ret r => rfl
    | cont first => exact ih _

theorem firstFlat_hit {b : Build} {w : World} {am : Bool} {cs : List (OsStr × String)} {c ds}
    (hn : ∀ x ∈ cs, w.pathExists x.1 = false) (hc : w.pathExists c.1 = true) :
    ∀ first, firstFlat b w am first (cs ++ c :: ds) = .ret (res b w c) := by
  induction cs with
  | nil => intro first; simp [firstFlat, hc]
  | cons x cs ih =>
    intro first
    have := hn x (by simp)
    simp only [List.cons_append, firstFlat, this]
    split
    · contradiction
    · split <;> exact ih (fun y hy => hn y (by simp [hy])) _

theorem firstFlat_miss {b : Build} {w : World} {am : Bool} {cs : List (OsStr × String)}
    (hn : ∀ x ∈ cs, w.pathExists x.1 = false) :
    ∀ first, firstFlat b w am first cs =
      .cont (if am = true ∧ first = none then cs.head?.map (res b w) else first) := by
  induction cs with
  | nil => intro first; cases first <;> simp [firstFlat]
  | cons x cs ih =>
    intro first
    have := hn x (by simp)
    have ih := ih (fun y hy => hn y (by simp [hy]))
    simp only [firstFlat, this]
    cases am <;> cases first <;> simp [ih]

/-! ### find_last -/

/-- The loop of find_last over a flat list. -/
def lastFlat (b : Build) (w : World) (am : Bool) (st : Option FindResult × Option FindResult) :
    List (OsStr × String) → Option FindResult × Option FindResult
  | [] => st
  | c :: cs =>
    if w.pathExists c.1 then lastFlat b w am (some (res b w c), st.2) cs
    else if am && st.1.isNone then lastFlat b w am (st.1, some (res b w c)) cs
    else lastFlat b w am st cs

theorem lastFlat_append (b : Build) (w : World) (am : Bool) (cs ds : List (OsStr × String)) :
    ∀ st, lastFlat b w am st (cs ++ ds) = lastFlat b w am (lastFlat b w am st cs) ds := by
  induction cs with
  | nil => intro; rfl
  | cons c cs ih =>
    intro st
    simp only [List.cons_append, lastFlat]
    split
    · exact ih _
    · split <;> exact ih _

theorem findLastExts_eq (b : Build) (w : World) (am : Bool) (base : OsStr) (exts : List String)
    (h : ∀ e ∈ exts, '/' ∉ e.toList) :
    ∀ st, findLastExts b w am base st exts = .ok (lastFlat b w am st (row base exts)) := by
  induction exts with
  | nil => intro; rfl
  | cons e exts ih =>
    intro st
    rw [findLastExts, withExt_ok (h e (by simp))]
    simp only [Outcome.bind_ok, row, List.map_cons, lastFlat, res]
    have ih := ih (fun e' he => h e' (by simp [he]))
    split
    · exact ih _
    · split <;> exact ih _

theorem findLastFolders_eq (b : Build) (w : World) (am : Bool) (name : String) (exts : List String)
    (h : ∀ e ∈ exts, '/' ∉ e.toList) (folders : List OsStr) :
    ∀ st, findLastFolders b w am name exts st folders =
      .ok (lastFlat b w am st (folders.flatMap fun d => row (pathJoin d (os name)) exts)) := by
  induction folders with
  | nil => intro; rfl
  | cons d folders ih =>
    intro st
    rw [findLastFolders, findLastExts_eq b w am _ exts h, List.flatMap_cons, lastFlat_append, Outcome.bind_ok]
    exact ih _

theorem lastFlat_keep {b : Build} {w : World} {am : Bool} {ds : List (OsStr × String)} {r y}
    (hn : ∀ x ∈ ds, w.pathExists x.1 = false) : lastFlat b w am (some r, y) ds = (some r, y) := by
  induction ds with
  | nil => rfl
  | cons x ds ih =>
    have := hn x (by simp)
    simp only [lastFlat, this]
    simpa using ih (fun y hy => hn y (by simp [hy]))

theorem lastFlat_hit {b : Build} {w : World} {am : Bool} {cs ds : List (OsStr × String)} {c st}
    (hn : ∀ x ∈ ds, w.pathExists x.1 = false) (hc : w.pathExists c.1 = true) :
    (lastFlat b w am st (cs ++ c :: ds)).1 = some (res b w c) := by
  rw [lastFlat_append, lastFlat, if_pos hc, lastFlat_keep hn]

theorem lastFlat_miss {b : Build} {w : World} {am : Bool} {cs : List (OsStr × String)}
    (hn : ∀ x ∈ cs, w.pathExists x.1 = false) :
    ∀ y, lastFlat b w am (none, y) cs =
      (none, if am = true ∧ cs ≠ [] then cs.getLast?.map (res b w) else y) := by
  induction cs with
  | nil => intro y; simp [lastFlat]
  | cons x cs ih =>
    intro y
    have := hn x (by simp)
    have ih := ih (fun y hy => hn y (by simp [hy]))
    simp only [lastFlat, this]
    cases am with
    | false => simp [ih]
    | true =>
      cases cs with
      | nil => simp [lastFlat]
      | cons z cs => simp [ih, List.getLast?_cons_cons]

/-! ### find_all -/

/-- The loop of find_all over the list of its hits. -/
def numberFlat (b : Build) (w : World) (st : List FindResult × Nat) :
    List (OsStr × String) → Outcome BakuninError (List FindResult × Nat)
  | [] => .ok st
  | c :: cs => incIndex b st.2 >>= fun i => numberFlat b w (st.1 ++ [(res b w c).withIndex st.2], i) cs

/-- Whether find_all lists a candidate. -/
def hit (w : World) (am : Bool) (c : OsStr × String) : Bool := am || w.pathExists c.1

theorem numberFlat_append (b : Build) (w : World) (cs ds : List (OsStr × String)) :
    ∀ st, numberFlat b w st (cs ++ ds) = (numberFlat b w st cs >>= fun st => numberFlat b w st ds) := by
  induction cs with
  | nil => intro; rfl
  | cons c cs ih =>
    intro st
    simp only [List.cons_append, numberFlat]
    cases incIndex b st.2 with
    | ok i => exact ih _
    | err e => rfl
    | panic => rfl

theorem findAllExts_eq (b : Build) (w : World) (am : Bool) (base : OsStr) (exts : List String)
    (h : ∀ e ∈ exts, '/' ∉ e.toList) :
    ∀ st, findAllExts b w am base st exts = numberFlat b w st ((row base exts).filter (hit w am)) := by
  induction exts with
  | nil => intro; rfl
  | cons e exts ih =>
    intro st
    rw [findAllExts, withExt_ok (h e (by simp))]
    simp only [Outcome.bind_ok, row, List.map_cons]
    have ih := ih (fun e' he => h e' (by simp [he]))
    by_cases hc : (am || w.pathExists (replaceExtension base (os e))) = true
    · rw [if_pos hc, List.filter_cons_of_pos (by exact hc), numberFlat]; congr 1; funext i; exact ih _
    · rw [if_neg hc, List.filter_cons_of_neg (by exact hc)]; exact ih _

theorem findAllFolders_eq (b : Build) (w : World) (am : Bool) (name : String) (exts : List String)
    (h : ∀ e ∈ exts, '/' ∉ e.toList) (folders : List OsStr) :
    ∀ st, findAllFolders b w am name exts st folders =
      numberFlat b w st ((folders.flatMap fun d => row (pathJoin d (os name)) exts).filter (hit w am)) := by
  induction folders with
  | nil => intro; rfl
  | cons d folders ih =>
    intro st
    rw [findAllFolders, findAllExts_eq b w am _ exts h, List.flatMap_cons, List.filter_append, numberFlat_append]
    congr 1; funext st; exact ih _

theorem numberFlat_cases (b : Build) (w : World) (cs : List (OsStr × String)) :
    ∀ (fs : List FindResult) (i : Nat), i < 65536 →
      (b.overflowChecks = false ∨ i + cs.length < 65536 →
        ∃ j, numberFlat b w (fs, i) cs =
          .ok (fs ++ cs.zipIdx.map (fun x => (res b w x.1).withIndex ((i + x.2) % 65536)), j)) ∧
      (b.overflowChecks = true → 65536 ≤ i + cs.length → numberFlat b w (fs, i) cs = .panic) := by
  induction cs with
  | nil =>
    intro fs i hi
    exact ⟨fun _ => ⟨i, by simp [numberFlat]⟩, fun _ h => by simp at h; omega⟩
  | cons c cs ih =>
    intro fs i hi
    have hz : ∀ i', (∀ k : Nat, (i' + k) % 65536 = (i + (k + 1)) % 65536) →
        cs.zipIdx.map (fun x => (res b w x.1).withIndex ((i' + x.2) % 65536)) =
        (cs.zipIdx 1).map (fun x => (res b w x.1).withIndex ((i + x.2) % 65536)) := by
      intro i' hh
      rw [List.zipIdx_succ, List.map_map]
      apply List.map_congr_left
      intro x _
      simp [hh]
    by_cases hlt : i + 1 < 65536
    · have hinc : incIndex b i = .ok (i + 1) := by simp [incIndex, hlt]
      obtain ⟨h1, h2⟩ := ih (fs ++ [(res b w c).withIndex i]) (i + 1) hlt
      constructor
      · intro ho
        obtain ⟨j, hj⟩ := h1 (ho.imp id (fun h => by simp at h; omega))
        refine ⟨j, ?_⟩
        rw [numberFlat, hinc, Outcome.bind_ok, hj, hz (i + 1) (fun k => by congr 1; omega)]
        simp [Nat.mod_eq_of_lt hi]
      · intro ho hl
        rw [numberFlat, hinc, Outcome.bind_ok]
        exact h2 ho (by simp at hl; omega)
    · have hi' : i = 65535 := by omega
      subst hi'
      constructor
      · intro ho
        have hb : b.overflowChecks = false := by
          rcases ho with h | h
          · exact h
          · simp at h; omega
        have hinc : incIndex b 65535 = .ok 0 := by simp [incIndex, hb]
        obtain ⟨j, hj⟩ := (ih (fs ++ [(res b w c).withIndex 65535]) 0 (by decide)).1 (Or.inl hb)
        refine ⟨j, ?_⟩
        rw [numberFlat, hinc, Outcome.bind_ok, hj, hz 0 (fun k => by omega)]
        simp
      · intro ho _
        rw [numberFlat]
        simp [incIndex, ho]

/-! ### find_all_or_first -/

/-- The loop of find_all_or_first over a flat list. -/
def aofFlat (b : Build) (w : World) (st : AllOrFirst) : List (OsStr × String) → Outcome BakuninError AllOrFirst
  | [] => .ok st
  | c :: cs =>
    if w.pathExists c.1 then
      incIndex b st.index >>= fun i =>
        aofFlat b w { st with files := st.files ++ [(res b w c).withIndex st.index], index := i } cs
    else if st.first.isNone then aofFlat b w { st with first := some (res b w c) } cs
    else aofFlat b w st cs

theorem aofFlat_append (b : Build) (w : World) (cs ds : List (OsStr × String)) :
    ∀ st, aofFlat b w st (cs ++ ds) = (aofFlat b w st cs >>= fun st => aofFlat b w st ds) := by
  induction cs with
  | nil => intro; rfl
  | cons c cs ih =>
    intro st
    simp only [List.cons_append, aofFlat]
    split
    · cases incIndex b st.index with
      | ok i => exact ih _
      | err e => rfl
      | panic => rfl
    · split <;> exact ih _

theorem findAllOrFirstExts_eq (b : Build) (w : World) (base : OsStr) (exts : List String)
    (h : ∀ e ∈ exts, '/' ∉ e.toList) :
    ∀ st, findAllOrFirstExts b w base st exts = aofFlat b w st (row base exts) := by
  induction exts with
  | nil => intro; rfl
  | cons e exts ih =>
    intro st
    rw [findAllOrFirstExts, withExt_ok (h e (by simp))]
    simp only [Outcome.bind_ok, row, List.map_cons, aofFlat, res]
    have ih := ih (fun e' he => h e' (by simp [he]))
    split
    · congr 1; funext i; exact ih _
    · split <;> exact ih _

theorem findAllOrFirstFolders_eq (b : Build) (w : World) (name : String) (exts : List String)
    (h : ∀ e ∈ exts, '/' ∉ e.toList) (folders : List OsStr) :
    ∀ st, findAllOrFirstFolders b w name exts st folders =
      aofFlat b w st (folders.flatMap fun d => row (pathJoin d (os name)) exts) := by
  induction folders with
  | nil => intro; rfl
  | cons d folders ih =>
    intro st
    rw [findAllOrFirstFolders, findAllOrFirstExts_eq b w _ exts h, List.flatMap_cons, aofFlat_append]
    congr 1; funext st; exact ih _

theorem aofFlat_files (b : Build) (w : World) (cs : List (OsStr × String)) :
    ∀ st : AllOrFirst, ∃ fi : Option FindResult,
      (aofFlat b w st cs =
        (numberFlat b w (st.files, st.index) (cs.filter (hit w false)) >>= fun x => .ok ⟨x.1, fi, x.2⟩)) ∧
      ((∀ c ∈ cs, w.pathExists c.1 = false) → st.first = none → fi = cs.head?.map (res b w)) := by
  induction cs with
  | nil => intro st; exact ⟨st.first, rfl, fun _ h => by simp [h]⟩
  | cons c cs ih =>
    intro st
    simp only [aofFlat, List.filter_cons, hit, Bool.false_or]
    split
    · rename_i hc
      cases hi : incIndex b st.index with
      | ok i =>
        obtain ⟨fi, h1, -⟩ := ih { st with files := st.files ++ [(res b w c).withIndex st.index], index := i }
        exact ⟨fi, by rw [numberFlat, hi, Outcome.bind_ok, Outcome.bind_ok]; exact h1,
          fun h => by rw [h c (by simp)] at hc; cases hc⟩
      | err e => exact ⟨none, by rw [numberFlat, hi]; rfl, fun h => by rw [h c (by simp)] at hc; cases hc⟩
      | panic => exact ⟨none, by rw [numberFlat, hi]; rfl, fun h => by rw [h c (by simp)] at hc; cases hc⟩
    · split
      · obtain ⟨fi, h1, -⟩ := ih { st with first := some (res b w c) }
        -- once set, `first` stays
        have keep : ∀ (cs : List (OsStr × String)) (st : AllOrFirst), (∀ c ∈ cs, w.pathExists c.1 = false) →
            st.first ≠ none → aofFlat b w st cs = .ok st := by
          intro cs
          induction cs with
          | nil => intro st _ _; rfl
          | cons x cs ih' =>
            intro st hx hs
            simp only [aofFlat, hx x (by simp)]
            have : st.first.isNone = false := by cases hst : st.first <;> simp_all
            simp only [this]
            exact ih' st (fun y hy => hx y (by simp [hy])) hs
        by_cases hall : ∀ x ∈ cs, w.pathExists x.1 = false
        · refine ⟨some (res b w c), ?_, fun _ _ => rfl⟩
          rw [keep cs _ hall (by simp)]
          have : cs.filter (fun x => w.pathExists x.1) = [] := by
            rw [List.filter_eq_nil_iff]; intro x hx; simp [hall x hx]
          have h3 : cs.filter (hit w false) = [] := this
          rw [h3]; rfl
        · exact ⟨fi, h1, fun h => absurd (fun x hx => h x (by simp [hx])) hall⟩
      · rename_i hc hf
        obtain ⟨fi, h1, -⟩ := ih st
        exact ⟨fi, h1, fun _ h => by rw [h] at hf; simp at hf⟩

end Verif
