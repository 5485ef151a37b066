import Verif.Props.Toml
import Verif.Spec.Saving
/-!
# C86, C87: editing a layer; saving the built value
-/
namespace Verif.Props
open Verif Verif.Spec

variable {b : Build} {fm : Formats} {calls : List RegCall} {w w' : World} {lower upper : List (String × Layer)} {name : String}
  {cd : Codec} {path : OsStr} {v : Value}

theorem _root_.Verif.Spec.SavedThrough.proper (h : SavedThrough b fm calls w w' lower upper name cd path v) : ∀ e ∈ firsts (offers b fm calls), Proper e.2 := by
  intro e he
  obtain ⟨c, hc, ho⟩ := List.mem_filterMap.1 (mem_firsts he)
  exact C08_builtin_proper b fm c e (h.builtIn c hc) (h.memory c hc) ho

theorem _root_.Verif.Spec.SavedThrough.reads (h : SavedThrough b fm calls w w' lower upper name cd path v) :
    ∃ v', (Layer.file (textHandler cd) path).readValue w' = .ok v' ∧ Alike v v' := by
  have hp : ∃ text, cd.print v.toData = .ok text := by
    rcases (C57_write cd w path v _ _ h.ok).2 with ⟨m, -, e, -⟩ | ⟨t, e, -, -, e2, -⟩ | ⟨t, n, code, r, -, -, -, e2, -⟩ | ⟨t, r, e, -⟩
    · cases e
    · cases e2
    · cases e2
    · exact ⟨t, e⟩
  obtain ⟨text, hp⟩ := hp
  obtain ⟨doc, hq, hd⟩ := h.faithful text hp
  exact C66_file cd w w' path v h.unique text doc h.ok h.readable hp hq hd

/-- What C77 says, in these terms. -/
theorem _root_.Verif.Spec.SavedThrough.save (h : SavedThrough b fm calls w w' lower upper name cd path v) {skip : Bool} {built : Value}
    (h1 : (register b fm calls).buildValue w skip = .ok built) :
    ∃ built', (register b fm calls).buildValue w' skip = .ok built' ∧
      (∀ p, ¬ Silent v p → (∀ e ∈ upper, ¬ Speaks w e.2 p) → AlikeAt v built' p) ∧
      (∀ p, (∃ e ∈ upper, Speaks w e.2 p) → view built' p = view built p) ∧
      (∀ p, ¬ Speaks w (.file (textHandler cd) path) p → Silent v p → view built' p = view built p) := by
  obtain ⟨v', hv', ha⟩ := h.reads
  exact save_stored b fm calls h.builtIn h.memory w w' lower upper name cd path h.layers h.places v v v' h.map h.ok hv' ha skip built h1

theorem alikeAt_eq {x y : Value} {p : Path} (h : view y p = view x p) : AlikeAt x y p := by
  unfold AlikeAt
  rw [h]
  cases hx : view x p with
  | none => exact Or.inl ⟨rfl, rfl⟩
  | some hd => exact Or.inr ⟨hd, hd, rfl, rfl, Or.inl rfl⟩

theorem silent_congr {x y : Value} {p : Path} (h : ∀ q, q <+: p → view y q = view x q) (hs : Silent x p) : Silent y p := by
  obtain ⟨q, k, r, rfl, h1, h2⟩ := hs
  refine ⟨q, k, r, rfl, fun q' hq' => ?_, ?_⟩
  · rw [h q' (hq'.trans (List.prefix_append _ _))]; exact h1 q' hq'
  · rw [h _ ⟨r, by simp⟩]; exact h2

/-! ## C86 -/

/-- **C86.** Reading a file layer, changing the value and writing it back: the new built value shows, up to the kind of integers, what the old one
showed at every path along which the edit changed nothing. -/
theorem C86_frame (old : Value) (hold : (Layer.file (textHandler cd) path).readValue w = .ok old)
    (h : SavedThrough b fm calls w w' lower upper name cd path v) (hom : old.isMap = true) (skip : Bool) (built : Value)
    (h1 : (register b fm calls).buildValue w skip = .ok built) :
    ∃ built', (register b fm calls).buildValue w' skip = .ok built' ∧
      ∀ p, (∀ q, q <+: p → view v q = view old q) → AlikeAt built built' p := by
  obtain ⟨built', h2, a1, a2, a3⟩ := h.save h1
  refine ⟨built', h2, fun p hp => ?_⟩
  by_cases hup : ∃ e ∈ upper, Speaks w e.2 p
  · exact alikeAt_eq (a2 p hup)
  have hno : ∀ e ∈ upper, ¬ Speaks w e.2 p := fun e he hs => hup ⟨e, he, hs⟩
  by_cases hs : Silent v p
  · refine alikeAt_eq (a3 p ?_ hs)
    rintro ⟨x, hx, -, hns⟩
    rw [hold] at hx; cases hx
    exact hns (silent_congr (fun q hq => (hp q hq).symm) hs)
  · have hso : ¬ Silent old p := fun ho => hs (silent_congr hp ho)
    have e1 := C07_last_speaker b fm calls w skip built h1 h.proper p lower _ upper old h.layers hold hom hso hno
    have := a1 p hs hno
    unfold AlikeAt at this ⊢
    rw [e1, ← hp p (List.prefix_refl p)]
    exact this

/-- **C86.** `set` a key in what a file layer reads and write it back. The write being successful, the new built value shows the new value under that
key wherever no later layer speaks (what the new value is silent about shows through from the layers before), what the old built value showed
there wherever a later layer speaks, and what the old built value showed under every other key, up to the kind of integers. -/
theorem C86_edit (old : Value) (hold : (Layer.file (textHandler cd) path).readValue w = .ok old) (k : String) (x : Value)
    (hset : (old.set k x).1 = .ok ())
    (h : SavedThrough b fm calls w w' lower upper name cd path (old.set k x).2) (skip : Bool) (built : Value)
    (h1 : (register b fm calls).buildValue w skip = .ok built) :
    ∃ built', (register b fm calls).buildValue w' skip = .ok built' ∧
      (∀ p, ¬ Silent x p → (∀ e ∈ upper, ¬ Speaks w e.2 (.key k :: p)) →
        (view x p = none ∧ view built' (.key k :: p) = none) ∨
          ∃ a a', view x p = some a ∧ view built' (.key k :: p) = some a' ∧ HeadAlike a a') ∧
      (∀ p, Silent x p → (∀ e ∈ upper, ¬ Speaks w e.2 (.key k :: p)) →
        (∀ before e after y, lower = before ++ e :: after → e.2.readValue w = .ok y → y.isMap = true → ¬ Silent y (.key k :: p) →
          (∀ a ∈ after, ¬ Speaks w a.2 (.key k :: p)) → view built' (.key k :: p) = view y (.key k :: p)) ∧
        ((∀ e ∈ lower, ¬ Speaks w e.2 (.key k :: p)) → view built' (.key k :: p) = none)) ∧
      (∀ p, (∃ e ∈ upper, Speaks w e.2 p) → view built' p = view built p) ∧
      (∀ s p, s ≠ .key k → AlikeAt built built' (s :: p)) := by
  cases old with
  | map m =>
    have hview : ∀ p, view (.map (hmInsert m k x)) (.key k :: p) = view x p := by
      intro p; rw [view_key_map, hmGet_insert, if_pos rfl]; rfl
    have hother : ∀ s p, s ≠ .key k → view (.map (hmInsert m k x)) (s :: p) = view (.map m) (s :: p) := by
      intro s p hs
      cases s with
      | key j =>
        rw [view_key_map, view_key_map, hmGet_insert, if_neg]
        intro e; exact hs (by rw [e])
      | idx i => rfl
    obtain ⟨built2, g2, hframe⟩ := C86_frame (.map m) hold h rfl skip built h1
    obtain ⟨built', h2, a1, a2, a3⟩ := h.save h1
    rw [g2] at h2; cases h2
    have hsil : ∀ p, Silent (.map (hmInsert m k x)) (.key k :: p) ↔ Silent x p := by
      intro p
      constructor
      · rintro ⟨q, j, r, e, e1, e2⟩
        cases q with
        | nil =>
          cases e
          have : view (.map (hmInsert m k x)) ([] ++ [Step.key k]) = view x [] := hview []
          rw [this, view_nil] at e2; cases e2
        | cons s q =>
          cases e
          refine ⟨q, j, r, rfl, fun q' hq' => ?_, ?_⟩
          · rw [← hview]; exact e1 _ (List.cons_prefix_cons.2 ⟨rfl, hq'⟩)
          · rw [← hview]; exact e2
      · rintro ⟨q, j, r, rfl, e1, e2⟩
        refine ⟨.key k :: q, j, r, rfl, fun q' hq' => ?_, ?_⟩
        · cases q' with
          | nil => rfl
          | cons s q' =>
            obtain ⟨rfl, hq2⟩ := List.cons_prefix_cons.1 hq'
            rw [hview]; exact e1 q' hq2
        · rw [List.cons_append, hview]; exact e2
    refine ⟨built2, g2, ?_, ?_, a2, ?_⟩
    · intro p hs hno
      have := a1 (.key k :: p) (fun hh => hs ((hsil p).1 hh)) hno
      unfold AlikeAt at this
      rw [show view (Value.set (.map m) k x).2 (.key k :: p) = view x p from hview p] at this
      exact this
    · intro p hs hno
      obtain ⟨v', hv', ha⟩ := h.reads
      have hothers := save_readings h.builtIn h.layers h.places h.ok
      have hme : ¬ Speaks w' (.file (textHandler cd) path) (.key k :: p) := by
        rintro ⟨y, hy, -, hns⟩
        rw [hv'] at hy; cases hy
        exact hns (silent_alike ha ((hsil p).2 hs))
      have hup : ∀ e ∈ upper, ¬ Speaks w' e.2 (.key k :: p) := fun e he => by
        rw [speaks_congr (hothers e (List.mem_append_right _ he))]; exact hno e he
      constructor
      · intro before e after y hl hy hym hys hlast
        refine C07_last_speaker b fm calls w' skip built2 g2 h.proper _ before e
          (after ++ (name, .file (textHandler cd) path) :: upper) y (by rw [h.layers, hl]; simp) ?_ hym hys ?_
        · rw [hothers e (by rw [hl]; simp)]; exact hy
        · intro a hain
          rcases List.mem_append.1 hain with hin | hin
          · rw [speaks_congr (hothers a (by rw [hl]; simp [hin]))]; exact hlast a hin
          · rcases List.mem_cons.1 hin with rfl | hin
            · exact hme
            · exact hup a hin
      · intro hlow
        have := C07_nobody_speaks b fm calls w' skip built2 g2 h.proper (.key k :: p) (by
          intro a hain
          rw [h.layers] at hain
          rcases List.mem_append.1 hain with hin | hin
          · rw [speaks_congr (hothers a (List.mem_append_left _ hin))]; exact hlow a hin
          · rcases List.mem_cons.1 hin with rfl | hin
            · exact hme
            · exact hup a hin)
        rw [this]; rfl
    · intro s p hs
      refine hframe (s :: p) fun q hq => ?_
      cases q with
      | nil => rfl
      | cons s' q =>
        obtain ⟨rfl, -⟩ := List.cons_prefix_cons.1 hq
        exact hother _ q hs
  | _ => cases hset

/-! ## C87 -/

/-- A path whose prefixes all lead to maps consists of keys. -/
theorem keys_of_maps (x : Value) (q : Path) (h : ∀ q', q' <+: q → view x q' = some .map) : ∃ ks, q = keys ks := by
  induction q generalizing x with
  | nil => exact ⟨[], rfl⟩
  | cons s q ih =>
    have h0 := h [] List.nil_prefix
    have h1 := h [s] ⟨q, rfl⟩
    cases x <;> first | (rw [view_nil] at h0; cases h0; done) | skip
    rename_i m
    cases s with
    | idx i => cases h1
    | key k =>
      rw [view_key_map] at h1
      cases hg : hmGet m k with
      | none => rw [hg] at h1; cases h1
      | some y =>
        obtain ⟨ks, rfl⟩ := ih y (fun q' hq' => by
          have := h (.key k :: q') (List.cons_prefix_cons.2 ⟨rfl, hq'⟩)
          rw [view_key_map, hg] at this; exact this)
        exact ⟨k :: ks, rfl⟩

/-- Among the prefixes of a path that are not maps there is a shortest one. -/
theorem first_nonmap (x : Value) (q : Path) (h : ¬ ∀ q', q' <+: q → view x q' = some .map) :
    ∃ q', q' <+: q ∧ view x q' ≠ some .map ∧ ∀ q'', q'' <+: q' → q'' ≠ q' → view x q'' = some .map := by
  induction q generalizing x with
  | nil =>
    refine ⟨[], List.prefix_refl _, fun h0 => h fun q' hq => ?_, fun q'' h1 h2 => absurd (List.prefix_nil.1 h1) h2⟩
    rw [List.prefix_nil.1 hq]; exact h0
  | cons s q ih =>
    by_cases h0 : view x [] = some .map
    · cases hc : child x s with
      | none =>
        refine ⟨[s], ⟨q, rfl⟩, by rw [view_cons, hc]; simp, fun q'' h1 h2 => ?_⟩
        cases q'' with
        | nil => exact h0
        | cons s' q'' =>
          obtain ⟨rfl, h6⟩ := List.cons_prefix_cons.1 h1
          have := List.prefix_nil.1 h6; subst this
          exact absurd rfl h2
      | some y =>
        have hv : ∀ r, view x (s :: r) = view y r := fun r => by rw [view_cons, hc]; rfl
        obtain ⟨q', h1, h2, h3⟩ := ih y fun hall => h fun q' hq => by
          cases q' with
          | nil => exact h0
          | cons s' q' =>
            obtain ⟨rfl, hq2⟩ := List.cons_prefix_cons.1 hq
            rw [hv]; exact hall q' hq2
        refine ⟨s :: q', List.cons_prefix_cons.2 ⟨rfl, h1⟩, by rw [hv]; exact h2, fun q'' h4 h5 => ?_⟩
        cases q'' with
        | nil => exact h0
        | cons s' q'' =>
          obtain ⟨rfl, h6⟩ := List.cons_prefix_cons.1 h4
          rw [hv]; exact h3 q'' h6 fun e => h5 (by rw [e])
    · exact ⟨[], List.nil_prefix, h0, fun q'' h1 h2 => absurd (List.prefix_nil.1 h1) h2⟩

/-- Not silent about a path, though there is nothing: something else than a map is in the way. -/
theorem blocked (x : Value) (q : Path) (k : String) (r : Path) (hns : ¬ Silent x (q ++ .key k :: r))
    (hk : (∀ q', q' <+: q → view x q' = some .map) → view x (q ++ [.key k]) = none)
    (hmaps : ∀ q', q' <+: q → ∃ ks, q' = keys ks) :
    ∃ q' h, q' <+: q ∧ view x q' = some h ∧ h ≠ .map := by
  by_cases hall : ∀ q', q' <+: q → view x q' = some .map
  · exact absurd ⟨q, k, r, rfl, hall, hk hall⟩ hns
  obtain ⟨q', h1, h2, h3⟩ := first_nonmap x q hall
  cases hv : view x q' with
  | some h => exact ⟨q', h, h1, hv, fun e => h2 (by rw [hv, e])⟩
  | none =>
    exfalso
    obtain ⟨ks, rfl⟩ := hmaps q' h1
    rcases List.eq_nil_or_concat ks with rfl | ⟨ks, j, rfl⟩
    · rw [show keys [] = [] from rfl, view_nil] at hv; cases hv
    · have e : keys (ks.concat j) = keys ks ++ [.key j] := by simp [keys]
      rw [e] at h1 h2 h3 hv
      obtain ⟨t, ht⟩ := h1
      refine hns ⟨keys ks, j, t ++ .key k :: r, by rw [← ht]; simp, fun q'' hq'' => ?_, hv⟩
      exact h3 q'' (hq''.trans (List.prefix_append _ _)) fun e => by
        rw [e] at hq''; have := hq''.length_le; simp at this

/-- A later speaker of `q·k` that is silent about what lies below has a map there. -/
theorem silent_below {x : Value} {q : Path} {r : Path} (hs : Silent x (q ++ r)) (hns : ¬ Silent x q) : view x q = some .map := by
  obtain ⟨q1, j, r1, e, e1, e2⟩ := hs
  rcases List.append_eq_append_iff.1 e with ⟨t, rfl, -⟩ | ⟨t, rfl, ht⟩
  · exact e1 q (List.prefix_append _ _)
  · cases t with
    | nil => exact e1 _ (by simp)
    | cons s t =>
      cases ht
      exact absurd ⟨q1, j, t, rfl, e1, e2⟩ hns

/-- What shows where neither the file nor a later layer speaks comes from a layer before the file. -/
theorem shows_from_lower (hproper : ∀ e ∈ firsts (offers b fm calls), Proper e.2)
    (hlayers : firsts (offers b fm calls) = lower ++ (name, .file (textHandler cd) path) :: upper)
    (hothers : ∀ e ∈ lower ++ upper, e.2.readValue w' = e.2.readValue w) {skip : Bool} {built' : Value}
    (h2 : (register b fm calls).buildValue w' skip = .ok built') {p : Path} (hne : p ≠ [])
    (hme : ¬ Speaks w' (.file (textHandler cd) path) p) (hup : ∀ e ∈ upper, ¬ Speaks w e.2 p) (hp' : view built' p ≠ none) :
    ∃ e ∈ lower, ∃ x, e.2.readValue w = .ok x ∧ view built' p = view x p := by
  rcases C07_cases w' lower p with hno | ⟨before, e, after, x, hl, hx, hxm, hxs, hlast⟩
  · exfalso
    apply hp'
    rw [C07_nobody_speaks b fm calls w' skip built' h2 hproper p (by
      intro a hain
      rw [hlayers] at hain
      rcases List.mem_append.1 hain with hin | hin
      · exact hno a hin
      · rcases List.mem_cons.1 hin with rfl | hin
        · exact hme
        · rw [speaks_congr (hothers a (List.mem_append_right _ hin))]; exact hup a hin)]
    rw [if_neg]
    exact hne
  · refine ⟨e, by rw [hl]; simp, x, ?_, ?_⟩
    · rw [← hothers e (by rw [hl]; simp)]; exact hx
    · refine C07_last_speaker b fm calls w' skip built' h2 hproper _ before e
        (after ++ (name, .file (textHandler cd) path) :: upper) x (by rw [hlayers, hl]; simp) hx hxm hxs ?_
      intro a hain
      rcases List.mem_append.1 hain with hin | hin
      · exact hlast a hin
      · rcases List.mem_cons.1 hin with rfl | hin
        · exact hme
        · rw [speaks_congr (hothers a (List.mem_append_right _ hin))]; exact hup a hin

/-- Where the file speaks and the built value is silent all the same, the file has something else than a map at a place where a later layer has a map. -/
theorem clobber_place (hproper : ∀ e ∈ firsts (offers b fm calls), Proper e.2)
    (hlayers : firsts (offers b fm calls) = lower ++ (name, .file (textHandler cd) path) :: upper) {skip : Bool} {built old : Value}
    (h1 : (register b fm calls).buildValue w skip = .ok built)
    (hold : (Layer.file (textHandler cd) path).readValue w = .ok old) (hom : old.isMap = true) {p : Path} (hons : ¬ Silent old p)
    (hup : ∀ e ∈ upper, ¬ Speaks w e.2 p) (hsil : Silent built p) :
    ∃ ks t a, p = keys ks ++ t ∧ view old (keys ks) = some a ∧ a ≠ .map ∧ view built (keys ks) = some .map ∧
      ∃ e ∈ upper, ∃ x, e.2.readValue w = .ok x ∧ view x (keys ks) = some .map := by
  obtain ⟨q, k, r, rfl, m1, m2⟩ := hsil
  -- who speaks last about a place above, among the file and the later layers
  have last : ∀ t r', q ++ Step.key k :: r = t ++ r' → ¬ Silent old t → view built t = view old t ∨
      (view built t = some .map ∧ ∃ e ∈ upper, ∃ x, e.2.readValue w = .ok x ∧ view x t = some .map) := by
    intro t r' ht hot
    rcases C07_cases w upper t with hno | ⟨before, e, after, x, hl, hx, hxm, hxs, hlast⟩
    · exact Or.inl (C07_last_speaker b fm calls w skip built h1 hproper t lower _ upper old hlayers hold hom hot hno)
    · have := C07_last_speaker b fm calls w skip built h1 hproper t (lower ++ (name, .file (textHandler cd) path) :: before) e after x
        (by rw [hlayers, hl]; simp) hx hxm hxs hlast
      have hmem : e ∈ upper := by rw [hl]; simp
      have hbelow : Silent x (t ++ r') := by
        rw [← ht]
        by_cases hh : Silent x (q ++ Step.key k :: r)
        · exact hh
        · exact absurd ⟨x, hx, hxm, hh⟩ (hup e hmem)
      have hm := silent_below hbelow hxs
      exact Or.inr ⟨by rw [this, hm], e, hmem, x, hx, hm⟩
  have hkeys : ∀ q', q' <+: q → ∃ ks, q' = keys ks := fun q' hq' =>
    keys_of_maps built q' fun q'' hq'' => m1 q'' (hq''.trans hq')
  obtain ⟨q', a, g1, g2, g3⟩ := blocked old q k r hons (fun hall => by
    by_cases hko : view old (q ++ [.key k]) = none
    · exact hko
    · exfalso
      have hns : ¬ Silent old (q ++ [.key k]) := by
        rintro ⟨q1, j, r1, e, -, e2⟩
        exact hko (by rw [e, show q1 ++ Step.key j :: r1 = (q1 ++ [.key j]) ++ r1 by simp, view_none_append _ _ _ e2])
      rcases last (q ++ [.key k]) r (by simp) hns with e | ⟨e, -⟩
      · rw [m2] at e; exact hko e.symm
      · rw [m2] at e; cases e) hkeys
  obtain ⟨ks, rfl⟩ := hkeys q' g1
  obtain ⟨t, ht⟩ := g1
  refine ⟨ks, t ++ .key k :: r, a, by rw [← ht]; simp, g2, g3, m1 _ ⟨t, ht⟩, ?_⟩
  have hns : ¬ Silent old (keys ks) := by
    rintro ⟨q1, j, r1, e, -, e2⟩
    rw [e, show q1 ++ Step.key j :: r1 = (q1 ++ [.key j]) ++ r1 by simp, view_none_append _ _ _ e2] at g2; cases g2
  rcases last (keys ks) (t ++ .key k :: r) (by rw [← ht]; simp) hns with e | ⟨-, e⟩
  · rw [m1 _ ⟨t, ht⟩, g2] at e; cases e; exact absurd rfl g3
  · exact e

/-- **C87.** Saving the built value through one of the file layers: everything it showed is still shown by the value built then, up to the kind of
integers. Only what a layer before that one holds may be shown in addition, and only below a place where the old content of the file had
something else than a map and a later layer has a map. -/
theorem C87_save_built (built : Value) (h : SavedThrough b fm calls w w' lower upper name cd path built) (skip : Bool)
    (h1 : (register b fm calls).buildValue w skip = .ok built) :
    ∃ built', (register b fm calls).buildValue w' skip = .ok built' ∧
      (∀ p a, view built p = some a → ∃ a', view built' p = some a' ∧ HeadAlike a a') ∧
      (∀ p, view built p = none → view built' p ≠ none →
        (∃ e ∈ lower, ∃ x, e.2.readValue w = .ok x ∧ view built' p = view x p) ∧
        ∃ old, (Layer.file (textHandler cd) path).readValue w = .ok old ∧ old.isMap = true ∧
          ∃ ks t a, p = keys ks ++ t ∧ view old (keys ks) = some a ∧ a ≠ .map ∧ view built (keys ks) = some .map ∧
            ∃ e ∈ upper, ∃ x, e.2.readValue w = .ok x ∧ view x (keys ks) = some .map) := by
  obtain ⟨built', h2, a1, a2, a3⟩ := h.save h1
  refine ⟨built', h2, fun p a ha => ?_, fun p hp hp' => ?_⟩
  · by_cases hup : ∃ e ∈ upper, Speaks w e.2 p
    · exact ⟨a, by rw [a2 p hup, ha], Or.inl rfl⟩
    · have hns : ¬ Silent built p := by
        rintro ⟨q, k, r, rfl, -, e⟩
        rw [show q ++ Step.key k :: r = (q ++ [.key k]) ++ r by simp, view_none_append _ _ _ e] at ha; cases ha
      rcases a1 p hns (fun e he hs => hup ⟨e, he, hs⟩) with ⟨e, -⟩ | ⟨x, y, e1, e2, e3⟩
      · rw [ha] at e; cases e
      · rw [ha] at e1; cases e1; exact ⟨y, e2, e3⟩
  · have hup : ∀ e ∈ upper, ¬ Speaks w e.2 p := fun e he hs => hp' (by rw [a2 p ⟨e, he, hs⟩, hp])
    have hsil : Silent built p := by
      by_cases hs : Silent built p
      · exact hs
      · rcases a1 p hs hup with ⟨-, e⟩ | ⟨x, y, e1, -⟩
        · exact absurd e hp'
        · rw [hp] at e1; cases e1
    have hsp : Speaks w (.file (textHandler cd) path) p := by
      by_cases hs : Speaks w (.file (textHandler cd) path) p
      · exact hs
      · exact absurd (by rw [a3 p hs hsil, hp]) hp'
    obtain ⟨old, hold, hom, hons⟩ := hsp
    obtain ⟨v', hv', ha⟩ := h.reads
    refine ⟨?_, old, hold, hom, clobber_place h.proper h.layers h1 hold hom hons hup hsil⟩
    refine shows_from_lower h.proper h.layers (save_readings h.builtIn h.layers h.places h.ok) h2 ?_ ?_ hup hp'
    · rintro rfl
      rw [view_nil] at hp; cases hp
    · rintro ⟨y, hy, -, hns⟩
      rw [hv'] at hy; cases hy
      exact hns (silent_alike ha hsil)

/-- **C87.** So if the old content of the file has nothing but maps where later layers have maps, saving the built value changes nothing in what is built. -/
theorem C87_unchanged (built : Value) (h : SavedThrough b fm calls w w' lower upper name cd path built) (skip : Bool)
    (h1 : (register b fm calls).buildValue w skip = .ok built)
    (hcl : ∀ old, (Layer.file (textHandler cd) path).readValue w = .ok old → ∀ e ∈ upper, ∀ x, e.2.readValue w = .ok x → ¬ Clobbers old x) :
    ∃ built', (register b fm calls).buildValue w' skip = .ok built' ∧ Alike built built' := by
  obtain ⟨built', h2, a1, a2⟩ := C87_save_built built h skip h1
  refine ⟨built', h2, fun p => ?_⟩
  cases hp : view built p with
  | some a => obtain ⟨a', h3, h4⟩ := a1 p a hp; exact Or.inr ⟨a, a', rfl, h3, h4⟩
  | none =>
    by_cases hp' : view built' p = none
    · exact Or.inl ⟨rfl, hp'⟩
    · obtain ⟨-, old, ho, -, ks, t, a, -, e1, e2, -, e, he, x, hx, e3⟩ := a2 p hp hp'
      exact absurd ⟨ks, e3, a, e1, e2⟩ (hcl old ho e he x hx)

/-- **C87.** In particular through the last layer. -/
theorem C87_last_layer (built : Value) (h : SavedThrough b fm calls w w' lower [] name cd path built) (skip : Bool)
    (h1 : (register b fm calls).buildValue w skip = .ok built) :
    ∃ built', (register b fm calls).buildValue w' skip = .ok built' ∧ Alike built built' :=
  C87_unchanged built h skip h1 (by simp)

/-- **C87.** Saving the newly built value again changes nothing any more. -/
theorem C87_twice (built : Value) (h : SavedThrough b fm calls w w' lower upper name cd path built) (skip : Bool)
    (h1 : (register b fm calls).buildValue w skip = .ok built) (built' : Value) (h2 : (register b fm calls).buildValue w' skip = .ok built')
    (w'' : World) (h' : SavedThrough b fm calls w' w'' lower upper name cd path built') :
    ∃ built'', (register b fm calls).buildValue w'' skip = .ok built'' ∧ Alike built' built'' := by
  obtain ⟨b1, g1, a1, -⟩ := C87_save_built built h skip h1
  rw [h2] at g1; cases g1
  obtain ⟨built'', h3, c1, c2⟩ := C87_save_built built' h' skip h2
  refine ⟨built'', h3, fun p => ?_⟩
  cases hp : view built' p with
  | some a => obtain ⟨a', e1, e2⟩ := c1 p a hp; exact Or.inr ⟨a, a', rfl, e1, e2⟩
  | none =>
    by_cases hp' : view built'' p = none
    · exact Or.inl ⟨rfl, hp'⟩
    · exfalso
      obtain ⟨-, old, ho, -, ks, t, a, -, e1, e2, e3, -⟩ := c2 p hp hp'
      obtain ⟨v', hv', ha⟩ := h.reads
      rw [ho] at hv'; cases hv'
      rcases ha (keys ks) with ⟨-, e⟩ | ⟨x, y, f1, f2, f3⟩
      · rw [e1] at e; cases e
      · rw [e1] at f2; cases f2
        obtain ⟨z, f4, f5⟩ := a1 _ _ f1
        rw [e3] at f4; cases f4
        exact e2 ((headAlike_map f3).1 ((headAlike_map f5).2 rfl))

/-! ### Concrete cases

The defaults have a table under `a`, the file a text, and a later layer a table again. -/

def exClobCodec : Codec :=
  { parse := fun s => if s = "one" then .ok (.map [(.str "a", .map [(.str "c", .str "3")])])
      else if s = "two" then .ok (.map [(.str "a", .map [(.str "b", .str "1"), (.str "c", .str "3")])])
      else if s = "edited" then .ok (.map [(.str "a", .str "2"), (.str "d", .str "4")])
      else .ok (.map [(.str "a", .str "2")]),
    print := fun d => match d with
      | .map [(_, .map [_])] => .ok "one"
      | .map [(_, .map [_, _])] => .ok "two"
      | .map [_, _] => .ok "edited"
      | _ => .error "unsupported" }
def exClobCalls : List RegCall :=
  [.memory "default" (.map [("a", .map [("b", .string "1")])]), .file "file" (os "/a.toml"),
   .memory "over" (.map [("a", .map [("c", .string "3")])])]
def exClobWorld : World := { exDisk with disk := fun s => if s = 1 then .file (utf8 "old") none none else .absent none }
def exClobAfter (w : World) (v : Value) : World := ((Layer.file (textHandler exClobCodec) (os "/a.toml")).writeValue w v).2

theorem exClob_saved (w w' : World) (v : Value) (hl : w.locate = exDisk.locate) (hvm : v.isMap = true) (hvu : UniqueKeys v)
    (hok : (Layer.file (textHandler exClobCodec) (os "/a.toml")).writeValue w v = (.ok (), w'))
    (hread : ∀ bs code wr, w.disk 1 ≠ .file bs (some code) wr)
    (hf : ∀ text, exClobCodec.print v.toData = .ok text → exClobCodec.parse text = .ok (docOf v)) :
    SavedThrough exB1 ⟨exClobCodec, exClobCodec⟩ exClobCalls w w' [("default", .memory (.map [("a", .map [("b", .string "1")])]))]
      [("over", .memory (.map [("a", .map [("c", .string "3")])]))] "file" exClobCodec (os "/a.toml") v where
  builtIn := by
    intro c hc
    simp only [exClobCalls, List.mem_cons, List.not_mem_nil, or_false] at hc
    rcases hc with rfl | rfl | rfl <;> trivial
  memory := by
    intro c hc n x hx
    simp only [exClobCalls, List.mem_cons, List.not_mem_nil, or_false] at hc
    rcases hc with rfl | rfl | rfl <;> cases hx <;> simp [UniqueKeys, UniqueKeysMap, UniqueKeysEntry]
  layers := rfl
  places := by
    intro e he h q hq
    simp at he
    rcases he with rfl | rfl <;> cases hq
  map := hvm
  unique := hvu
  ok := hok
  readable := by rw [hl]; exact hread
  faithful := fun text h => ⟨_, hf text h, presents_docOf v⟩

/-- Saving the built value: `a.b` of the defaults, which the old file had hidden, appears; saving again changes nothing. (So the condition in
`C87_unchanged` is needed.) -/
example : ∃ w' built built' w'' built'', (register exB1 ⟨exClobCodec, exClobCodec⟩ exClobCalls).buildValue exClobWorld false = .ok built ∧
    view built [.key "a", .key "b"] = none ∧
    (Layer.file (textHandler exClobCodec) (os "/a.toml")).writeValue exClobWorld built = (.ok (), w') ∧
    (register exB1 ⟨exClobCodec, exClobCodec⟩ exClobCalls).buildValue w' false = .ok built' ∧
    view built' [.key "a", .key "b"] = some (.string "1") ∧
    (Layer.file (textHandler exClobCodec) (os "/a.toml")).writeValue w' built' = (.ok (), w'') ∧
    (register exB1 ⟨exClobCodec, exClobCodec⟩ exClobCalls).buildValue w'' false = .ok built'' ∧ Alike built' built'' := by
  have s1 := exClob_saved exClobWorld (exClobAfter exClobWorld (.map [("a", .map [("c", .string "3")])])) (.map [("a", .map [("c", .string "3")])])
    rfl rfl (by simp [UniqueKeys, UniqueKeysMap, UniqueKeysEntry]) rfl (by intro bs code wr h; cases h) (by intro text h; cases h; simp [exClobCodec, docOf])
  have s2 := exClob_saved (exClobAfter exClobWorld (.map [("a", .map [("c", .string "3")])]))
    (exClobAfter (exClobAfter exClobWorld (.map [("a", .map [("c", .string "3")])])) (.map [("a", .map [("b", .string "1"), ("c", .string "3")])]))
    (.map [("a", .map [("b", .string "1"), ("c", .string "3")])])
    rfl rfl (by simp [UniqueKeys, UniqueKeysMap, UniqueKeysEntry]) rfl (by intro bs code wr h; cases h) (by intro text h; cases h; simp [exClobCodec, docOf])
  obtain ⟨built'', h3, ha⟩ := C87_twice _ s1 false (by rfl) _ (by rfl) _ s2
  exact ⟨_, _, _, _, built'', rfl, by decide, s1.ok, rfl, by decide, s2.ok, h3, ha⟩

/-- Adding `d` to the file through `set`: it is shown, and `a` is as before. -/
example : ∃ old w' built', (Layer.file (textHandler exClobCodec) (os "/a.toml")).readValue exClobWorld = .ok old ∧
    (Layer.file (textHandler exClobCodec) (os "/a.toml")).writeValue exClobWorld (old.set "d" (.string "4")).2 = (.ok (), w') ∧
    (register exB1 ⟨exClobCodec, exClobCodec⟩ exClobCalls).buildValue w' false = .ok built' ∧
    view built' [.key "d"] = some (.string "4") ∧
    AlikeAt (.map [("a", .map [("c", .string "3")])]) built' [.key "a", .key "c"] := by
  have s1 := exClob_saved exClobWorld (exClobAfter exClobWorld (.map [("a", .string "2"), ("d", .string "4")])) (.map [("a", .string "2"), ("d", .string "4")])
    rfl rfl (by simp [UniqueKeys, UniqueKeysMap, UniqueKeysEntry]) rfl (by intro bs code wr h; cases h) (by intro text h; cases h; simp [exClobCodec, docOf])
  obtain ⟨built', h2, a1, -, -, a2⟩ := C86_edit (.map [("a", .string "2")]) rfl "d" (.string "4") rfl s1 false (.map [("a", .map [("c", .string "3")])]) (by rfl)
  refine ⟨_, _, built', rfl, s1.ok, h2, ?_, a2 _ _ (by decide)⟩
  have hns : ¬ Silent (.string "4") [] := by rintro ⟨q, k, r, e, -⟩; simp at e
  rcases a1 [] hns (by
    intro e he
    simp at he
    subst he
    rintro ⟨x, hx, -, hns⟩
    cases hx
    exact hns ⟨[], "d", [], rfl, by intro q hq; rw [List.prefix_nil] at hq; subst hq; rfl, rfl⟩) with ⟨g, -⟩ | ⟨x, y, g1, g2, g3⟩
  · cases g
  · rw [g2]
    cases g1
    rcases g3 with rfl | ⟨n, g, -⟩
    · rfl
    · cases g

/-- The same edit, by the frame theorem: nothing at or above `a.c` was changed in the file, so the build shows there what it showed. -/
example : ∃ built', (register exB1 ⟨exClobCodec, exClobCodec⟩ exClobCalls).buildValue
      (exClobAfter exClobWorld (.map [("a", .string "2"), ("d", .string "4")])) false = .ok built' ∧
    AlikeAt (.map [("a", .map [("c", .string "3")])]) built' [.key "a", .key "c"] := by
  have s1 := exClob_saved exClobWorld (exClobAfter exClobWorld (.map [("a", .string "2"), ("d", .string "4")])) (.map [("a", .string "2"), ("d", .string "4")])
    rfl rfl (by simp [UniqueKeys, UniqueKeysMap, UniqueKeysEntry]) rfl (by intro bs code wr h; cases h) (by intro text h; cases h; simp [exClobCodec, docOf])
  obtain ⟨built', h2, a⟩ := C86_frame (.map [("a", .string "2")]) rfl s1 rfl false (.map [("a", .map [("c", .string "3")])]) (by rfl)
  refine ⟨built', h2, a _ ?_⟩
  intro q hq
  obtain ⟨t, ht⟩ := hq
  rcases q with _ | ⟨s, _ | ⟨s', _ | ⟨s'', q⟩⟩⟩ <;> simp at ht
  · rfl
  · rw [ht.1]; decide
  · rw [ht.1, ht.2.1]; decide

/-- What appears when the built value is saved comes from a layer below the file, under a key where the file had no table. -/
example : ∃ built', (register exB1 ⟨exClobCodec, exClobCodec⟩ exClobCalls).buildValue
      (exClobAfter exClobWorld (.map [("a", .map [("c", .string "3")])])) false = .ok built' ∧ view built' [.key "a", .key "b"] = some (.string "1") ∧
    ∃ old, (Layer.file (textHandler exClobCodec) (os "/a.toml")).readValue exClobWorld = .ok old ∧ old.isMap = true := by
  have s1 := exClob_saved exClobWorld (exClobAfter exClobWorld (.map [("a", .map [("c", .string "3")])])) (.map [("a", .map [("c", .string "3")])])
    rfl rfl (by simp [UniqueKeys, UniqueKeysMap, UniqueKeysEntry]) rfl (by intro bs code wr h; cases h) (by intro text h; cases h; simp [exClobCodec, docOf])
  obtain ⟨built', h2, -, a⟩ := C87_save_built _ s1 false (by rfl)
  have hb : built' = .map [("a", .map [("b", .string "1"), ("c", .string "3")])] := by
    have : (register exB1 ⟨exClobCodec, exClobCodec⟩ exClobCalls).buildValue (exClobAfter exClobWorld (.map [("a", .map [("c", .string "3")])])) false =
      .ok (.map [("a", .map [("b", .string "1"), ("c", .string "3")])]) := rfl
    rw [this] at h2; cases h2; rfl
  obtain ⟨-, old, h3, h4, -⟩ := a [.key "a", .key "b"] (by decide) (by rw [hb]; decide)
  exact ⟨built', h2, by rw [hb]; decide, old, h3, h4⟩

/-- Once the file has a table where the layer above it has one, saving the built value changes nothing. -/
example : ∃ w' built', (register exB1 ⟨exClobCodec, exClobCodec⟩ exClobCalls).buildValue w' true = .ok built' ∧
    Alike (.map [("a", .map [("b", .string "1"), ("c", .string "3")])]) built' := by
  have s2 := exClob_saved (exClobAfter exClobWorld (.map [("a", .map [("c", .string "3")])]))
    (exClobAfter (exClobAfter exClobWorld (.map [("a", .map [("c", .string "3")])])) (.map [("a", .map [("b", .string "1"), ("c", .string "3")])]))
    (.map [("a", .map [("b", .string "1"), ("c", .string "3")])])
    rfl rfl (by simp [UniqueKeys, UniqueKeysMap, UniqueKeysEntry]) rfl (by intro bs code wr h; cases h) (by intro text h; cases h; simp [exClobCodec, docOf])
  refine ⟨_, C87_unchanged _ s2 true (by rfl) ?_⟩
  intro old hold e he x hx
  have h1 : old = .map [("a", .map [("c", .string "3")])] := by
    have : (Layer.file (textHandler exClobCodec) (os "/a.toml")).readValue (exClobAfter exClobWorld (.map [("a", .map [("c", .string "3")])])) =
      .ok (.map [("a", .map [("c", .string "3")])]) := rfl
    rw [this] at hold; cases hold; rfl
  simp only [List.mem_singleton] at he
  subst he
  have h2 : x = .map [("a", .map [("c", .string "3")])] := by cases hx; rfl
  subst h1 h2
  rintro ⟨q, hm, h, hh, hne⟩
  rw [hm] at hh
  cases hh
  exact hne rfl

/-- And so it is if the file is the last layer. -/
example : ∃ w' built', (register exB1 ⟨exClobCodec, exClobCodec⟩ (exClobCalls.take 2)).buildValue w' false = .ok built' ∧
    Alike (.map [("a", .map [("b", .string "1"), ("c", .string "3")])]) built' := by
  have s2 := exClob_saved (exClobAfter exClobWorld (.map [("a", .map [("c", .string "3")])]))
    (exClobAfter (exClobAfter exClobWorld (.map [("a", .map [("c", .string "3")])])) (.map [("a", .map [("b", .string "1"), ("c", .string "3")])]))
    (.map [("a", .map [("b", .string "1"), ("c", .string "3")])])
    rfl rfl (by simp [UniqueKeys, UniqueKeysMap, UniqueKeysEntry]) rfl (by intro bs code wr h; cases h) (by intro text h; cases h; simp [exClobCodec, docOf])
  have s3 : SavedThrough exB1 ⟨exClobCodec, exClobCodec⟩ (exClobCalls.take 2) (exClobAfter exClobWorld (.map [("a", .map [("c", .string "3")])]))
      (exClobAfter (exClobAfter exClobWorld (.map [("a", .map [("c", .string "3")])])) (.map [("a", .map [("b", .string "1"), ("c", .string "3")])]))
      [("default", .memory (.map [("a", .map [("b", .string "1")])]))] [] "file" exClobCodec (os "/a.toml")
      (.map [("a", .map [("b", .string "1"), ("c", .string "3")])]) :=
    ⟨fun c hc => s2.builtIn c (List.mem_of_mem_take hc), fun c hc => s2.memory c (List.mem_of_mem_take hc), rfl,
      fun e he => s2.places e (by simp at he ⊢; exact Or.inl he), s2.map, s2.unique, s2.ok, s2.readable, s2.faithful⟩
  exact ⟨_, C87_last_layer _ s3 false (by rfl)⟩

end Verif.Props
