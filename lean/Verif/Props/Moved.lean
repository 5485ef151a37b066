import Verif.Spec.Moved
import Verif.Props.Deciding
/-!
# C138: a configuration can be moved
-/
namespace Verif.Props
open Spec FileFinder

/-! ## Layers that correspond -/

theorem twins_put {M : Nat → Nat → Prop} {w u : World} (h : SamePlaces M w u) {s t : Nat} (hst : M s t) (n : Node) : SamePlaces M (w.put s n) (u.put t n) := by
  refine ⟨h.oneToOne, fun s' t' hst' => ?_, h.room⟩
  simp only [World.put]
  by_cases e : s' = s
  · rw [if_pos e, if_pos ((h.oneToOne _ _ _ _ hst' hst).1 e)]
  · rw [if_neg e, if_neg (fun k => e ((h.oneToOne _ _ _ _ hst' hst).2 k))]
    exact h.disk _ _ hst'

theorem twins_append {M : Nat → Nat → Prop} {w u : World} (h : SamePlaces M w u) {s t : Nat} (hst : M s t) (bs : List UInt8) :
    SamePlaces M (w.appendBytes s bs) (u.appendBytes t bs) := by
  unfold World.appendBytes
  rw [h.disk _ _ hst]
  split
  · exact twins_put h hst _
  · exact h

theorem fsWrite_twin {M : Nat → Nat → Prop} {w u : World} (h : SamePlaces M w u) {p q : OsStr} (hpq : M (w.locate p) (u.locate q)) (text : String) :
    (u.fsWrite q text).1 = (w.fsWrite p text).1 ∧ SamePlaces M (w.fsWrite p text).2 (u.fsWrite q text).2 := by
  have hopen : (∃ e, w.openTrunc p = .error e ∧ u.openTrunc q = .error e) ∨
      ∃ w1 u1, w.openTrunc p = .ok w1 ∧ u.openTrunc q = .ok u1 ∧ SamePlaces M w1 u1 := by
    unfold World.openTrunc
    rw [h.disk _ _ hpq]
    split
    · exact Or.inl ⟨_, rfl, rfl⟩
    · exact Or.inr ⟨_, _, rfl, rfl, twins_put h hpq _⟩
    · exact Or.inl ⟨_, rfl, rfl⟩
    · exact Or.inl ⟨_, rfl, rfl⟩
    · exact Or.inr ⟨_, _, rfl, rfl, twins_put h hpq _⟩
  unfold World.fsWrite
  rcases hopen with ⟨e, h1, h2⟩ | ⟨w1, u1, h1, h2, h3⟩
  · rw [h1, h2]; exact ⟨rfl, h⟩
  · rw [h1, h2, h.room _ _ hpq]
    dsimp only
    split
    · split
      · exact ⟨rfl, twins_append h3 hpq _⟩
      · exact ⟨rfl, twins_append h3 hpq _⟩
    · exact ⟨rfl, twins_append h3 hpq _⟩

theorem exists_twin {M : Nat → Nat → Prop} {w u : World} (h : SamePlaces M w u) {p q : OsStr} (hpq : M (w.locate p) (u.locate q)) :
    u.pathExists q = w.pathExists p := by
  unfold World.pathExists; rw [h.disk _ _ hpq]

theorem readToString_twin {M : Nat → Nat → Prop} {w u : World} (h : SamePlaces M w u) {p q : OsStr} (hpq : M (w.locate p) (u.locate q)) :
    u.readToString q = w.readToString p := by
  unfold World.readToString; rw [h.disk _ _ hpq]

/-- Layers that correspond. -/
inductive LayerTwin (M : Nat → Nat → Prop) (w u : World) : Layer → Layer → Prop
  | memory (v : Value) : LayerTwin M w u (.memory v) (.memory v)
  | environment (pre : String) : Layer.readEnv u pre = Layer.readEnv w pre → LayerTwin M w u (.environment pre) (.environment pre)
  | file (cd : Codec) (p q : OsStr) : M (w.locate p) (u.locate q) → LayerTwin M w u (.file (textHandler cd) p) (.file (textHandler cd) q)

theorem LayerTwin.later {M : Nat → Nat → Prop} {w u w' u' : World} {l l' : Layer} (h : LayerTwin M w u l l') (hw : SameEnv w w') (hu : SameEnv u u') :
    LayerTwin M w' u' l l' := by
  cases h with
  | memory v => exact .memory v
  | environment pre h =>
    refine .environment pre ?_
    have : ∀ {x y : World}, SameEnv x y → Layer.readEnv y pre = Layer.readEnv x pre := fun h => by unfold Layer.readEnv; rw [h.env]
    rw [this hw, this hu, h]
  | file cd p q h => exact .file cd p q (by rw [hw.locate, hu.locate]; exact h)

theorem read_twin {M : Nat → Nat → Prop} {w u : World} {l l' : Layer} (h : LayerTwin M w u l l') (ht : SamePlaces M w u) :
    l'.readValue u = l.readValue w := by
  cases h with
  | memory v => rfl
  | environment pre h => exact h
  | file cd p q h =>
    simp only [Layer.readValue, textHandler, exists_twin ht h, readToString_twin ht h]

theorem write_twin {M : Nat → Nat → Prop} {w u : World} {l l' : Layer} (h : LayerTwin M w u l l') (ht : SamePlaces M w u) (v : Value) :
    (l'.writeValue u v).1 = (l.writeValue w v).1 ∧ SamePlaces M (l.writeValue w v).2 (l'.writeValue u v).2 ∧
    SameEnv w (l.writeValue w v).2 ∧ SameEnv u (l'.writeValue u v).2 := by
  cases h with
  | memory x => exact ⟨rfl, ht, rfl, rfl⟩
  | environment pre => exact ⟨rfl, ht, rfl, rfl⟩
  | file cd p q h =>
    refine ⟨?_, ?_, (write_changedAt (S := fun _ => True) (.file cd p trivial) v).same, (write_changedAt (S := fun _ => True) (.file cd q trivial) v).same⟩
    all_goals
      simp only [Layer.writeValue, textHandler]
      cases cd.print v.toData with
      | error m => first | rfl | exact ht
      | ok text =>
        obtain ⟨h1, h2⟩ := fsWrite_twin ht h text
        dsimp only
        generalize w.fsWrite p text = r at h1 h2
        generalize u.fsWrite q text = r' at h1 h2
        obtain ⟨a, w'⟩ := r
        obtain ⟨a', u'⟩ := r'
        cases h1
        cases a <;> first | rfl | exact h2

/-- Named layers that correspond. -/
def NamedTwin (rename : String → String) (M : Nat → Nat → Prop) (w u : World) (e e' : String × Layer) : Prop :=
  e'.1 = rename e.1 ∧ LayerTwin M w u e.2 e'.2

theorem offer_twin {rename : String → String} {M : Nat → Nat → Prop} {w u : World} (b : Build) (fm : Formats) {c c' : RegCall}
    (h : CallTwin rename M w u c c') :
    (c.offer b fm = none ∧ c'.offer b fm = none) ∨
    ∃ e e', c.offer b fm = some e ∧ c'.offer b fm = some e' ∧ NamedTwin rename M w u e e' := by
  cases h with
  | memory n v => exact Or.inr ⟨_, _, rfl, rfl, rfl, .memory v⟩
  | environment n pre h =>
    refine Or.inr ⟨_, _, rfl, rfl, rfl, .environment _ ?_⟩
    unfold Layer.readEnv
    rw [foldl_envStep_filter, ← h, ← foldl_envStep_filter]
  | file n p q h =>
    simp only [RegCall.offer, h.2]
    split
    · exact Or.inr ⟨_, _, rfl, rfl, rfl, .file _ p q h.1⟩
    · split
      · exact Or.inr ⟨_, _, rfl, rfl, rfl, .file _ p q h.1⟩
      · exact Or.inl ⟨rfl, rfl⟩

theorem offers_twin {rename : String → String} {M : Nat → Nat → Prop} {w u : World} (b : Build) (fm : Formats) {calls calls' : List RegCall}
    (h : List.Forall₂ (CallTwin rename M w u) calls calls') :
    List.Forall₂ (NamedTwin rename M w u) (offers b fm calls) (offers b fm calls') := by
  induction h with
  | nil => exact .nil
  | @cons c c' cs cs' hc _ ih =>
    unfold offers at ih ⊢
    rw [List.filterMap_cons, List.filterMap_cons]
    rcases offer_twin b fm hc with ⟨h1, h2⟩ | ⟨e, e', h1, h2, h3⟩
    · rw [h1, h2]; exact ih
    · rw [h1, h2]; exact .cons h3 ih

theorem filter_twin {rename : String → String} (hr : Function.Injective rename) {M : Nat → Nat → Prop} {w u : World} {es es' : List (String × Layer)} (k : String)
    (h : List.Forall₂ (NamedTwin rename M w u) es es') :
    List.Forall₂ (NamedTwin rename M w u) (es.filter fun e => e.1 ≠ k) (es'.filter fun e => e.1 ≠ rename k) := by
  induction h with
  | nil => exact .nil
  | @cons e e' es es' he _ ih =>
    by_cases hk : e.1 = k
    · rw [List.filter_cons_of_neg (by simpa using hk), List.filter_cons_of_neg (by simp [he.1, hk])]; exact ih
    · rw [List.filter_cons_of_pos (by simpa using hk), List.filter_cons_of_pos (by simpa [he.1] using fun e => hk (hr e))]
      exact .cons he ih

theorem firsts_twin {rename : String → String} (hr : Function.Injective rename) {M : Nat → Nat → Prop} {w u : World} {es es' : List (String × Layer)}
    (h : List.Forall₂ (NamedTwin rename M w u) es es') : List.Forall₂ (NamedTwin rename M w u) (firsts es) (firsts es') := by
  induction h with
  | nil => exact .nil
  | @cons e e' es es' he _ ih =>
    obtain ⟨k, l⟩ := e
    obtain ⟨k', l'⟩ := e'
    have hk : k' = rename k := he.1
    subst hk
    exact .cons he (filter_twin hr k ih)

theorem buildList_twin {rename : String → String} {M : Nat → Nat → Prop} {w u : World} {es es' : List (String × Layer)} (ht : SamePlaces M w u)
    (h : List.Forall₂ (NamedTwin rename M w u) es es') (skip : Bool) : ∀ v, buildList u skip v es' = buildList w skip v es := by
  induction h with
  | nil => intro v; rfl
  | @cons e e' es es' he _ ih =>
    intro v
    rw [buildList, buildList, read_twin he.2 ht]
    cases e.2.readValue w with
    | error x => simp only [ih]
    | ok y => simp only [ih]

theorem find_twin {rename : String → String} (hr : Function.Injective rename) {M : Nat → Nat → Prop} {w u : World} {es es' : List (String × Layer)} (n : String)
    (h : List.Forall₂ (NamedTwin rename M w u) es es') :
    (es.find? (fun e => e.1 == n) = none ∧ es'.find? (fun e => e.1 == rename n) = none) ∨
    ∃ e e', es.find? (fun e => e.1 == n) = some e ∧ es'.find? (fun e => e.1 == rename n) = some e' ∧ NamedTwin rename M w u e e' := by
  induction h with
  | nil => exact Or.inl ⟨rfl, rfl⟩
  | @cons e e' es es' he _ ih =>
    rw [List.find?_cons, List.find?_cons]
    by_cases hk : e.1 = n
    · have : (e'.1 == rename n) = true := by simp [he.1, hk]
      rw [show (e.1 == n) = true by simpa using hk, this]
      exact Or.inr ⟨e, e', rfl, rfl, he⟩
    · have : (e'.1 == rename n) = false := by simpa [he.1] using fun e => hk (hr e)
      rw [show (e.1 == n) = false by simpa using hk, this]
      exact ih

theorem getLayer_twin {rename : String → String} (hr : Function.Injective rename) {M : Nat → Nat → Prop} {w u : World} (b : Build) (fm : Formats)
    {calls calls' : List RegCall} (h : List.Forall₂ (CallTwin rename M w u) calls calls') (n : String) :
    ((register b fm calls).getLayer n = none ∧ (register b fm calls').getLayer (rename n) = none) ∨
    ∃ l l', (register b fm calls).getLayer n = some l ∧ (register b fm calls').getLayer (rename n) = some l' ∧ LayerTwin M w u l l' := by
  rw [(C11_first_wins b fm calls n).1, (C11_first_wins b fm calls' (rename n)).1]
  rcases find_twin hr n (offers_twin b fm h) with ⟨h1, h2⟩ | ⟨e, e', h1, h2, h3⟩
  · rw [h1, h2]; exact Or.inl ⟨rfl, rfl⟩
  · rw [h1, h2]; exact Or.inr ⟨_, _, rfl, rfl, h3.2⟩

theorem CallTwin.later {rename : String → String} {M : Nat → Nat → Prop} {w u w' u' : World} {c c' : RegCall} (h : CallTwin rename M w u c c')
    (hw : SameEnv w w') (hu : SameEnv u u') : CallTwin rename M w' u' c c' := by
  cases h with
  | memory n v => exact .memory n v
  | environment n pre h => exact .environment n pre (by rw [hw.env, hu.env]; exact h)
  | file n p q h => exact .file n p q ⟨by rw [hw.locate, hu.locate]; exact h.1, h.2⟩

theorem alike_twin {rename : String → String} (hr : Function.Injective rename) {M : Nat → Nat → Prop} {w u : World} (b : Build) (fm : Formats)
    {calls calls' : List RegCall} (ht : SamePlaces M w u) (h : List.Forall₂ (CallTwin rename M w u) calls calls') :
    Alike2 rename (register b fm calls) (register b fm calls') w u := by
  have hf := firsts_twin hr (offers_twin b fm h)
  refine ⟨?_, fun skip => ?_, fun n => ?_, fun n v => ?_⟩
  · rw [(C11_first_wins b fm calls "").2.1, (C11_first_wins b fm calls' "").2.1]
    generalize firsts (offers b fm calls) = es at hf
    generalize firsts (offers b fm calls') = es' at hf
    clear h ht
    induction hf with
    | nil => rfl
    | @cons e e' _ _ he _ ih => simp only [List.map_cons, ih, he.1]
  · rw [buildValue_is (is_register b fm calls), buildValue_is (is_register b fm calls')]
    exact buildList_twin ht hf skip _
  · rcases getLayer_twin hr b fm h n with ⟨h1, h2⟩ | ⟨l, l', h1, h2, h3⟩
    · rw [h1, h2]; rfl
    · rw [h1, h2]; simp only [Option.map_some, read_twin h3 ht]
  · rcases getLayer_twin hr b fm h n with ⟨h1, h2⟩ | ⟨l, l', h1, h2, h3⟩
    · rw [h1, h2]; rfl
    · rw [h1, h2]; simp only [Option.map_some, (write_twin h3 ht v).1]

theorem saves_twin {rename : String → String} (hr : Function.Injective rename) {M : Nat → Nat → Prop} (b : Build) (fm : Formats)
    {calls calls' : List RegCall} (xs : List (String × Value)) : ∀ w u : World, SamePlaces M w u → List.Forall₂ (CallTwin rename M w u) calls calls' →
      SamePlaces M (saves (register b fm calls) w xs) (saves (register b fm calls') u (renamed rename xs)) ∧
      SameEnv w (saves (register b fm calls) w xs) ∧ SameEnv u (saves (register b fm calls') u (renamed rename xs)) := by
  induction xs with
  | nil => intro w u ht _; exact ⟨ht, rfl, rfl⟩
  | cons x xs ih =>
    intro w u ht h
    simp only [renamed, List.map_cons, saves]
    rcases getLayer_twin hr b fm h x.1 with ⟨h1, h2⟩ | ⟨l, l', h1, h2, h3⟩
    · rw [h1, h2]; exact ih w u ht h
    · rw [h1, h2]
      obtain ⟨-, g1, g2, g3⟩ := write_twin h3 ht x.2
      obtain ⟨k1, k2, k3⟩ := ih _ _ g1 (h.imp fun _ _ hc => CallTwin.later hc g2 g3)
      exact ⟨k1, g2.trans k2, g3.trans k3⟩

/-- **C138.** Two configurations registered in the same way, but for the names of the layers and the paths of the files (whatever is at corresponding
places is the same), cannot be told apart: at first and after any saves through corresponding layers the names, the built value or error, and what reading
or saving any layer answers, correspond; and the files stay the same. -/
theorem C138_registered (b : Build) (fm : Formats) (rename : String → String) (hr : Function.Injective rename) (M : Nat → Nat → Prop) (w u : World)
    (ht : SamePlaces M w u) (calls calls' : List RegCall) (h : List.Forall₂ (CallTwin rename M w u) calls calls') (xs : List (String × Value)) :
    SamePlaces M (saves (register b fm calls) w xs) (saves (register b fm calls') u (renamed rename xs)) ∧
    Alike2 rename (register b fm calls) (register b fm calls') (saves (register b fm calls) w xs) (saves (register b fm calls') u (renamed rename xs)) := by
  obtain ⟨h1, h2, h3⟩ := saves_twin hr b fm xs w u ht h
  exact ⟨h1, alike_twin hr b fm h1 (h.imp fun _ _ hc => CallTwin.later hc h2 h3)⟩

/-! ## `create_config!` -/

theorem chosen_twin {M : Nat → Nat → Prop} {w u : World} (ht : SamePlaces M w u) {cs cs' : List OsStr} (h : List.Forall₂ (Counterpart M w u) cs cs') :
    (chosen w cs = none ∧ chosen u cs' = none) ∨ ∃ p q, chosen w cs = some p ∧ chosen u cs' = some q ∧ Counterpart M w u p q := by
  have hf : (cs.find? (fun p => w.pathExists p) = none ∧ cs'.find? (fun p => u.pathExists p) = none) ∨
      ∃ p q, cs.find? (fun p => w.pathExists p) = some p ∧ cs'.find? (fun p => u.pathExists p) = some q ∧ Counterpart M w u p q := by
    induction h with
    | nil => exact Or.inl ⟨rfl, rfl⟩
    | @cons p q ps qs hp _ ih =>
      rw [List.find?_cons, List.find?_cons, exists_twin ht hp.1]
      cases w.pathExists p with
      | true => exact Or.inr ⟨p, q, rfl, rfl, hp⟩
      | false => exact ih
  unfold chosen
  rcases hf with ⟨h1, h2⟩ | ⟨p, q, h1, h2, h3⟩
  · rw [h1, h2]
    cases h with
    | nil => exact Or.inl ⟨rfl, rfl⟩
    | cons hp _ => exact Or.inr ⟨_, _, rfl, rfl, hp⟩
  · rw [h1, h2]; exact Or.inr ⟨p, q, rfl, rfl, h3⟩

theorem initLayer_true (w : World) (c : Config) (added : Bool) (p : OsStr) (l : LayerSpec) (dv : Value) :
    initLayer w c added p l dv = if added = true ∧ w.pathExists p = false ∧ l.init = some true then
      (match c.getLayer l.name with | some layer => (layer.writeValue w dv).2 | none => w) else w := by
  unfold initLayer
  cases l.init with
  | none => simp
  | some flag => cases flag <;> cases added <;> cases w.pathExists p <;> simp <;> cases c.getLayer l.name <;> rfl

theorem LayerMoved.later {rename : String → String} {M : Nat → Nat → Prop} {b : Build} {w u w' u' : World} {file file' : String} {l l' : LayerSpec}
    (h : LayerMoved rename M b w u file file' l l') (hw : SameEnv w w') (hu : SameEnv u u') : LayerMoved rename M b w' u' file file' l l' := by
  refine ⟨h.name, h.init, ?_⟩
  rw [hw.candidates, hu.candidates]
  refine h.candidates.imp fun p q hpq => ⟨?_, hpq.2⟩
  rw [hw.locate, hu.locate]; exact hpq.1

theorem foldl_twin {rename : String → String} (hr : Function.Injective rename) {M : Nat → Nat → Prop} {b : Build} {fm : Formats} {file file' : String} (dv : Value)
    {ls ls' : List LayerSpec} : ∀ (calls calls' : List RegCall) (w u : World), SamePlaces M w u → List.Forall₂ (CallTwin rename M w u) calls calls' →
    List.Forall₂ (LayerMoved rename M b w u file file') ls ls' →
    ∃ cs cs' w' u', ls.foldl (mStep b fm file dv) (register b fm calls, w) = (register b fm cs, w') ∧
      ls'.foldl (mStep b fm file' dv) (register b fm calls', u) = (register b fm cs', u') ∧ SameEnv w w' ∧ SameEnv u u' ∧
      SamePlaces M w' u' ∧ List.Forall₂ (CallTwin rename M w' u') cs cs' := by
  induction ls generalizing ls' with
  | nil =>
    intro calls calls' w u ht hc hl
    cases hl
    exact ⟨calls, calls', w, u, rfl, rfl, rfl, rfl, ht, hc⟩
  | cons l ls ih =>
    intro calls calls' w u ht hc hl
    cases hl with
    | cons hl hls =>
      rename_i l' ls'
      rw [List.foldl_cons, List.foldl_cons]
      unfold mStep
      dsimp only
      rcases chosen_twin ht hl.candidates with ⟨h1, h2⟩ | ⟨p, q, h1, h2, h3⟩
      · rw [h1, h2]; exact ih calls calls' w u ht hc hls
      · rw [h1, h2]
        dsimp only
        rw [register_append, register_append]
        have hc' : List.Forall₂ (CallTwin rename M w u) (calls ++ [.file l.name p]) (calls' ++ [.file l'.name q]) := by
          rw [hl.name]
          exact List.rel_append hc (.cons (.file l.name p q h3) .nil)
        have hoff : ((RegCall.file l'.name q).offer b fm).isSome = ((RegCall.file l.name p).offer b fm).isSome := by
          rw [hl.name]
          rcases offer_twin b fm (CallTwin.file (rename := rename) l.name p q h3) with ⟨k1, k2⟩ | ⟨e, e', k1, k2, -⟩ <;> rw [k1, k2] <;> rfl
        have hinit : ∃ w' u', initLayer w (register b fm (calls ++ [.file l.name p])) ((RegCall.file l.name p).offer b fm).isSome p l dv = w' ∧
            initLayer u (register b fm (calls' ++ [.file l'.name q])) ((RegCall.file l'.name q).offer b fm).isSome q l' dv = u' ∧
            SameEnv w w' ∧ SameEnv u u' ∧ SamePlaces M w' u' := by
          refine ⟨_, _, rfl, rfl, ?_⟩
          rw [initLayer_true, initLayer_true, hoff, exists_twin ht h3.1]
          simp only [hl.init]
          split
          · rw [hl.name]
            rcases getLayer_twin hr b fm (calls' := calls' ++ [.file l'.name q]) hc' l.name with ⟨k1, k2⟩ | ⟨x, x', k1, k2, k3⟩
            · rw [← hl.name] at k2 ⊢
              rw [k1, k2]; exact ⟨rfl, rfl, ht⟩
            · rw [← hl.name] at k2 ⊢
              rw [k1, k2]
              obtain ⟨-, g1, g2, g3⟩ := write_twin k3 ht dv
              exact ⟨g2, g3, g1⟩
          · exact ⟨rfl, rfl, ht⟩
        obtain ⟨w', u', e1, e2, s1, s2, t⟩ := hinit
        rw [e1, e2]
        obtain ⟨cs, cs', w2, u2, f1, f2, f3, f4, f5, f6⟩ := ih _ _ w' u' t (hc'.imp fun _ _ h => CallTwin.later h s1 s2)
          (hls.imp fun _ _ h => LayerMoved.later h s1 s2)
        exact ⟨cs, cs', w2, u2, f1, f2, s1.trans f3, s2.trans f4, f5, f6⟩

/-- **C138.** A program's whole setting can be moved: two calls of `create_config!` that correspond (other directories, another file name, other layer
names; the same defaults, prefixed variables, and files at corresponding places) make configurations that cannot be told apart, whether files are missing and
made, cannot be read, or cannot be written; also after any saves through the layers, and in every later run, since the two settings then still correspond. -/
theorem C138_start (b : Build) (fm : Formats) (rename : String → String) (M : Nat → Nat → Prop) (args args' : MacroArgs) (w u : World)
    (h : MovedTo rename M b args args' w u) :
    ∃ c c' w' u', createConfig b fm w args = .ok (c, w') ∧ createConfig b fm u args' = .ok (c', u') ∧
      ∀ xs, MovedTo rename M b args args' (saves c w' xs) (saves c' u' (renamed rename xs)) ∧
        Alike2 rename c c' (saves c w' xs) (saves c' u' (renamed rename xs)) := by
  obtain ⟨dv, h1, h2⟩ := createConfig_eq b fm w args
  obtain ⟨dv', h1', h2'⟩ := createConfig_eq b fm u args'
  rw [h.default, h1] at h1'; cases h1'
  have hdef : List.Forall₂ (CallTwin rename M w u) [.memory "default" dv] [.memory "default" dv] := by
    have := CallTwin.memory (rename := rename) (M := M) (w := w) (u := u) "default" dv
    rw [h.fixed.1] at this
    exact .cons this .nil
  obtain ⟨cs, cs', w', u', e1, e2, e3, e4, e5, e6⟩ := foldl_twin h.injective (b := b) (fm := fm) (M := M) dv _ _ w u h.twins hdef h.layers
  rw [e1] at h2
  rw [e2] at h2'
  have hreg : ∀ (cs : List RegCall) (env : Option String), (env.map fun pre => RegCall.environment "environment" pre).toList.foldl (RegCall.apply b fm) (register b fm cs) =
      register b fm (cs ++ (env.map fun pre => RegCall.environment "environment" pre).toList) := by
    intro cs env; unfold register; rw [← List.foldl_append]
  dsimp only at h2 h2'
  rw [hreg] at h2 h2'
  have hcalls : List.Forall₂ (CallTwin rename M w' u') (cs ++ (args.env.map fun pre => RegCall.environment "environment" pre).toList)
      (cs' ++ (args'.env.map fun pre => RegCall.environment "environment" pre).toList) := by
    refine List.rel_append e6 ?_
    rw [h.env]
    cases he : args.env with
    | none => exact .nil
    | some pre =>
      have := CallTwin.environment (rename := rename) (M := M) (w := w') (u := u') "environment" pre (by rw [e3.env, e4.env]; exact h.settings pre he)
      rw [h.fixed.2] at this
      exact .cons this .nil
  refine ⟨_, _, w', u', h2, h2', fun xs => ?_⟩
  obtain ⟨s1, s2, s3⟩ := saves_twin h.injective b fm xs w' u' e5 hcalls
  have hw := e3.trans s2
  have hu := e4.trans s3
  refine ⟨⟨h.injective, h.fixed, h.default, h.env, fun pre he => ?_, h.layers.imp fun _ _ k => LayerMoved.later k hw hu, s1⟩, ?_⟩
  · rw [hw.env, hu.env]; exact h.settings pre he
  · exact alike_twin h.injective b fm s1 (hcalls.imp fun _ _ k => CallTwin.later k s2 s3)

/-! ## Examples -/

/-- The layer `one` is called `uno`. -/
def exMoveName (s : String) : String := if s = "one" then "uno" else if s = "uno" then "one" else s
theorem exMoveName_inj : Function.Injective exMoveName := by
  intro a b h
  unfold exMoveName at h
  split_ifs at h <;> simp_all

/-- The places 1, 2, 4 of the old disk are the places 5, 6, 7 of the new one. -/
def exMovePairs (s t : Nat) : Prop := (s = 1 ∧ t = 5) ∨ (s = 2 ∧ t = 6) ∨ (s = 4 ∧ t = 7)
def exMovePlaces (p : OsStr) : Nat :=
  if p = os "/h/settings.toml" then 5 else if p = os "/y/settings.toml" then 6 else if p = os "/z/settings.toml" then 7 else 8
/-- The file of `exTierA`, in the home directory now, and an unrelated one. -/
def exMoveU : World := exTier exMovePlaces fun s => if s = 5 then some "hi" else if s = 8 then some "other" else none
/-- The arguments `exTierArgs` with another file name, other directories, and `one` renamed. -/
def exMoveArgs : MacroArgs :=
  { fileName := "settings", default := [("text", .string "dflt")], env := some "APP_",
    layers := [⟨"uno", [.userHome, .path "/y"], some false⟩, ⟨"two", [.path "/z"], some true⟩] }

theorem exMove_twins : SamePlaces exMovePairs exTierA exMoveU := by
  refine ⟨fun s t s' t' h h' => ?_, fun s t h => ?_, fun _ _ _ => rfl⟩
  · unfold exMovePairs at h h'; omega
  · rcases h with ⟨rfl, rfl⟩ | ⟨rfl, rfl⟩ | ⟨rfl, rfl⟩ <;> decide

theorem exMove_pair {p q : OsStr} (h : (exTierA.locate p, exMoveU.locate q) ∈ [(1, 5), (2, 6), (4, 7)]) (he : pathExtension q = pathExtension p) :
    Counterpart exMovePairs exTierA exMoveU p q := by
  refine ⟨?_, he⟩
  simpa [exMovePairs] using h

theorem exMoved : MovedTo exMoveName exMovePairs exB1 exTierArgs exMoveArgs exTierA exMoveU := by
  refine ⟨exMoveName_inj, ⟨by decide, by decide⟩, rfl, rfl, fun _ _ => rfl, ?_, exMove_twins⟩
  refine .cons ⟨by decide, by decide, ?_⟩ (.cons ⟨by decide, by decide, ?_⟩ .nil)
  · have h1 : layerCandidates exB1 exTierA exTierArgs.fileName ⟨"one", [.path "/a", .path "/b"], none⟩ = [os "/a/f.toml", os "/b/f.toml"] := by decide
    have h2 : layerCandidates exB1 exMoveU exMoveArgs.fileName ⟨"uno", [.userHome, .path "/y"], some false⟩ = [os "/h/settings.toml", os "/y/settings.toml"] := by decide
    rw [h1, h2]
    exact .cons (exMove_pair (by decide) (by decide)) (.cons (exMove_pair (by decide) (by decide)) .nil)
  · have h1 : layerCandidates exB1 exTierA exTierArgs.fileName ⟨"two", [.path "/c"], some true⟩ = [os "/c/f.toml"] := by decide
    have h2 : layerCandidates exB1 exMoveU exMoveArgs.fileName ⟨"two", [.path "/z"], some true⟩ = [os "/z/settings.toml"] := by decide
    rw [h1, h2]
    exact .cons (exMove_pair (by decide) (by decide)) .nil

/-- The moved program makes the same configuration, also after something is saved in the layer `one` and a second start. -/
example (v : Value) : ∃ c c' w' u', createConfig exB1 exFormats exTierA exTierArgs = .ok (c, w') ∧ createConfig exB1 exFormats exMoveU exMoveArgs = .ok (c', u') ∧
    (∀ skip, c'.buildValue u' skip = c.buildValue w' skip) ∧
    ∃ d d' w2 u2, createConfig exB1 exFormats (saves c w' [("one", v)]) exTierArgs = .ok (d, w2) ∧
      createConfig exB1 exFormats (saves c' u' [("uno", v)]) exMoveArgs = .ok (d', u2) ∧ ∀ skip, d'.buildValue u2 skip = d.buildValue w2 skip := by
  obtain ⟨c, c', w', u', h1, h2, h3⟩ := C138_start exB1 exFormats _ _ _ _ _ _ exMoved
  obtain ⟨d, d', w2, u2, g1, g2, g3⟩ := C138_start exB1 exFormats _ _ _ _ _ _ (h3 [("one", v)]).1
  exact ⟨c, c', w', u', h1, h2, (h3 []).2.build, d, d', w2, u2, g1, g2, (g3 []).2.build⟩

/-- A configuration made by hand: defaults and a file. -/
example (v : Value) (skip : Bool) :
    (register exB1 exFormats [.memory "d" (.map []), .file "uno" (os "/h/settings.toml")]).buildValue
      (saves (register exB1 exFormats [.memory "d" (.map []), .file "uno" (os "/h/settings.toml")]) exMoveU [("uno", v)]) skip =
    (register exB1 exFormats [.memory "d" (.map []), .file "one" (os "/a/f.toml")]).buildValue
      (saves (register exB1 exFormats [.memory "d" (.map []), .file "one" (os "/a/f.toml")]) exTierA [("one", v)]) skip := by
  exact (C138_registered exB1 exFormats exMoveName exMoveName_inj (fun s t => exMovePairs s t) exTierA exMoveU exMove_twins _ _
    (.cons (.memory "d" (.map [])) (.cons (.file "one" _ _ (exMove_pair (by decide) (by decide))) .nil)) [("one", v)]).2.build skip

end Verif.Props
