import Verif.Props.Saving
import Verif.Props.TomlMacro
import Verif.Spec.TomlSaving
/-!
# C102: editing a TOML layer; saving the built value as TOML
-/
namespace Verif.Props
open Verif Verif.Spec

variable {limit : Nat} {b : Build} {fm : Formats} {calls : List RegCall} {w w' : World} {lower upper : List (String × Layer)} {name : String}
  {cd : Codec} {path : OsStr} {v : Value}

theorem _root_.Verif.Spec.SavedToml.proper (h : SavedToml limit b fm calls w w' lower upper name cd path v) :
    ∀ e ∈ firsts (offers b fm calls), Proper e.2 := by
  intro e he
  obtain ⟨c, hc, ho⟩ := List.mem_filterMap.1 (mem_firsts he)
  exact C08_builtin_proper b fm c e (h.builtIn c hc) (h.memory c hc) ho

theorem _root_.Verif.Spec.SavedToml.save (h : SavedToml limit b fm calls w w' lower upper name cd path v) {skip : Bool} {built : Value}
    (h1 : (register b fm calls).buildValue w skip = .ok built) :
    ∃ built', (register b fm calls).buildValue w' skip = .ok built' ∧
      (∀ p, ¬ Unset v p → (∀ e ∈ upper, ¬ Speaks w e.2 p) →
        (NullEntry v p → view built' p = none) ∧
        (¬ NullEntry v p → (view v p = none ∧ view built' p = none) ∨
          ∃ x y, view v p = some x ∧ view built' p = some y ∧ HeadAlike x y)) ∧
      (∀ p, (∃ e ∈ upper, Speaks w e.2 p) → view built' p = view built p) ∧
      (∀ p, ¬ Speaks w (.file (textHandler cd) path) p → Unset v p → view built' p = view built p) :=
  C84_save h.like b fm calls h.builtIn h.memory w w' lower upper name path h.layers h.places v h.unique h.depth h.ok h.readable skip built h1

/-- After the write the layer is silent about what the written value leaves unset. -/
theorem _root_.Verif.Spec.SavedToml.quiet (h : SavedToml limit b fm calls w w' lower upper name cd path v) {p : Path} (hu : Unset v p) :
    ¬ Speaks w' (.file (textHandler cd) path) p := by
  obtain ⟨-, s, r, hr, hom, -, hal, -⟩ := toml_stored h.like h.unique h.depth h.ok h.readable
  rintro ⟨y, hy, -, hys⟩
  have hr' : (Layer.file (textHandler cd) path).readValue w' = .ok r := hr
  rw [hr'] at hy; cases hy
  exact hys (silent_alike hal ((unset_iff hom p).1 hu))

/-- After the write the file holds no `None` entry. -/
theorem _root_.Verif.Spec.SavedToml.after (h : SavedToml limit b fm calls w w' lower upper name cd path v) :
    ∃ r, (Layer.file (textHandler cd) path).readValue w' = .ok r ∧ AlikeOmitting v r ∧ ∀ p, ¬ NullEntry r p := by
  obtain ⟨r, hr, ha, -⟩ := C84_read_back h.like w w' path v h.unique h.depth h.ok h.readable
  refine ⟨r, hr, ha, ?_⟩
  rintro p ⟨hp, hn⟩
  by_cases hv : NullEntry v p
  · rw [(ha p).1 hv] at hn; cases hn
  · rcases (ha p).2 hv with ⟨-, h2⟩ | ⟨a, c, h1, h2, h3⟩
    · rw [h2] at hn; cases hn
    · rw [h2, Option.some.injEq] at hn
      subst hn
      rcases h3 with rfl | ⟨n, -, h3⟩
      · exact hv ⟨hp, h1⟩
      · cases h3

/-- A further value written through the layer: that the file can be read, is where it was and held no `None` is then no assumption. -/
theorem _root_.Verif.Spec.SavedToml.again (h : SavedToml limit b fm calls w w' lower upper name cd path v) {v' : Value} {w'' : World}
    (hu : UniqueKeys v') (hdepth : DepthBelow v' limit) (hok : (Layer.file (textHandler cd) path).writeValue w' v' = (.ok (), w'')) :
    SavedToml limit b fm calls w' w'' lower upper name cd path v' := by
  obtain ⟨r, hr, -, hnr⟩ := h.after
  obtain ⟨⟨h0, -⟩, hcase⟩ := C57_write cd w path v _ _ h.ok
  have hloc : w'.locate = w.locate := by rw [h0]
  refine ⟨h.like, h.builtIn, h.memory, h.layers, ?_, hu, hdepth, hok, ?_, fun old ho => by rw [hr] at ho; cases ho; exact hnr⟩
  · intro e he hd q hq; rw [hloc]; exact h.places e he hd q hq
  · intro bs code wr hd
    rw [hloc] at hd
    rcases hcase with ⟨m, -, e, -⟩ | ⟨t, e, -, -, e2, -⟩ | ⟨t, n, code, r, -, -, -, e2, -⟩ | ⟨t, r, -, -, e3, e4⟩
    · cases e
    · cases e2
    · cases e2
    · rw [hd] at e3; cases e3
      rcases e4 with e4 | ⟨bs', e4⟩
      · cases e4
      · exact h.readable _ _ _ e4

theorem silent_append {x : Value} {t : Path} (h : Silent x t) (r : Path) : Silent x (t ++ r) := by
  obtain ⟨q, k, s, rfl, h1, h2⟩ := h
  exact ⟨q, k, s ++ r, by simp, h1, h2⟩

theorem silent_none {x : Value} {p : Path} (h : Silent x p) : view x p = none := by
  obtain ⟨q, k, r, rfl, -, h2⟩ := h
  rw [show q ++ Step.key k :: r = (q ++ [.key k]) ++ r by simp, view_none_append _ _ _ h2]

/-- A `None` entry that is built, at or above a place about which no later layer speaks, is not the file's. -/
theorem _root_.Verif.Spec.SavedToml.null_from_lower (h : SavedToml limit b fm calls w w' lower upper name cd path v) {skip : Bool} {built : Value}
    (h1 : (register b fm calls).buildValue w skip = .ok built) {t r : Path} (hn : NullEntry built t)
    (hup : ∀ e ∈ upper, ¬ Speaks w e.2 (t ++ r)) : ¬ Speaks w (.file (textHandler cd) path) (t ++ r) := by
  rintro ⟨old, hold, hom, hons⟩
  rcases C07_cases w upper t with hno | ⟨before, e, after, x, hl, hx, hxm, hxs, hlast⟩
  · have := C07_last_speaker b fm calls w skip built h1 h.proper t lower _ upper old h.layers hold hom (fun hs => hons (silent_append hs r)) hno
    exact h.before old hold t ⟨hn.1, by rw [← this]; exact hn.2⟩
  · have := C07_last_speaker b fm calls w skip built h1 h.proper t (lower ++ (name, .file (textHandler cd) path) :: before) e after x
      (by rw [h.layers, hl]; simp) hx hxm hxs hlast
    have hbelow : Silent x (t ++ r) := by
      by_contra hh
      exact hup e (by rw [hl]; simp) ⟨x, hx, hxm, hh⟩
    have hm := silent_below hbelow hxs
    rw [hm, hn.2] at this; cases this

/-- A `None` entry that is not below a list is unset. -/
theorem unset_of_null {x : Value} {p : Path} (hn : NullEntry x p) (hi : ∀ i, Step.idx i ∉ p) : Unset x p := by
  obtain ⟨⟨q, k, rfl⟩, hv⟩ := hn
  refine ⟨q, k, [], rfl, fun q' hq => ?_, Or.inr hv⟩
  obtain ⟨t, rfl⟩ := hq
  have hcase : ∃ k' t', t ++ [Step.key k] = .key k' :: t' := by
    cases t with
    | nil => exact ⟨k, [], rfl⟩
    | cons s t =>
      cases s with
      | idx i => exact absurd (by simp) (hi i)
      | key k' => exact ⟨k', t ++ [.key k], rfl⟩
  obtain ⟨k', t', e⟩ := hcase
  apply map_above_key x q' k' t'
  rw [← e, ← List.append_assoc, hv]; simp

/-- … and one below a list is set. -/
theorem set_of_null {x : Value} {p : Path} (hn : NullEntry x p) {i : Nat} (hi : Step.idx i ∈ p) : ¬ Unset x p := by
  rintro ⟨q, k, r, rfl, h1, h2⟩
  have hr : ∃ s r', r = s :: r' := by
    cases r with
    | cons s r => exact ⟨s, r, rfl⟩
    | nil =>
      exfalso
      obtain ⟨ks, rfl⟩ := keys_of_maps x q h1
      simp [keys] at hi
  obtain ⟨s, r, rfl⟩ := hr
  have := inner_not_none x (q ++ [.key k]) s r (by
    rw [show (q ++ [Step.key k]) ++ s :: r = q ++ .key k :: s :: r by simp, hn.2]; simp)
  rcases h2 with h2 | h2
  · exact this.1 h2
  · exact this.2 h2

/-! ## Saving the built value -/

/-- **C102.** Saving the built value through one of the TOML file layers: everything it showed is still shown by the value built then, up to the
kind of integers, also the `None` entries, except that those below a list are gone where no later layer speaks. Only what a layer before that one holds may be shown in
addition, and only below a place where the old content of the file had something else than a map and a later layer has a map. -/
theorem C102_save_built (built : Value) (h : SavedToml limit b fm calls w w' lower upper name cd path built) (skip : Bool)
    (h1 : (register b fm calls).buildValue w skip = .ok built) :
    ∃ built', (register b fm calls).buildValue w' skip = .ok built' ∧
      (∀ p a, view built p = some a → ¬ NullEntry built p → ∃ a', view built' p = some a' ∧ HeadAlike a a') ∧
      (∀ p, NullEntry built p → (((∀ i, Step.idx i ∉ p) ∨ ∃ e ∈ upper, Speaks w e.2 p) → view built' p = some .none) ∧
        ((∃ i, Step.idx i ∈ p) → (¬ ∃ e ∈ upper, Speaks w e.2 p) → view built' p = none)) ∧
      (∀ p, view built p = none → view built' p ≠ none →
        (∃ e ∈ lower, ∃ x, e.2.readValue w = .ok x ∧ view built' p = view x p) ∧
        ∃ old, (Layer.file (textHandler cd) path).readValue w = .ok old ∧ old.isMap = true ∧
          ∃ ks t a, p = keys ks ++ t ∧ view old (keys ks) = some a ∧ a ≠ .map ∧ view built (keys ks) = some .map ∧
            ∃ e ∈ upper, ∃ x, e.2.readValue w = .ok x ∧ view x (keys ks) = some .map) := by
  obtain ⟨built', h2, a1, a2, a3⟩ := h.save h1
  refine ⟨built', h2, fun p a ha hnn => ?_, fun p hn => ?_, fun p hp hp' => ?_⟩
  · by_cases hup : ∃ e ∈ upper, Speaks w e.2 p
    · exact ⟨a, by rw [a2 p hup, ha], Or.inl rfl⟩
    · have hns : ¬ Unset built p := by
        rintro ⟨q, k, r, rfl, -, e | e⟩
        · rw [show q ++ Step.key k :: r = (q ++ [.key k]) ++ r by simp, view_none_append _ _ _ e] at ha; cases ha
        · cases r with
          | nil => exact hnn ⟨⟨q, k, rfl⟩, e⟩
          | cons s r =>
            refine (inner_not_none built (q ++ [.key k]) s r ?_).2 e
            rw [show (q ++ [Step.key k]) ++ s :: r = q ++ .key k :: s :: r by simp, ha]; simp
      rcases (a1 p hns (fun e he hs => hup ⟨e, he, hs⟩)).2 hnn with ⟨e, -⟩ | ⟨x, y, e1, e2, e3⟩
      · rw [ha] at e; cases e
      · rw [ha] at e1; cases e1; exact ⟨y, e2, e3⟩
  · refine ⟨fun hc => ?_, fun ⟨i, hi⟩ hno => (a1 p (set_of_null hn hi) fun e he hs => hno ⟨e, he, hs⟩).1 hn⟩
    by_cases hup : ∃ e ∈ upper, Speaks w e.2 p
    · rw [a2 p hup, hn.2]
    · have hno : ∀ e ∈ upper, ¬ Speaks w e.2 p := fun e he hs => hup ⟨e, he, hs⟩
      have hq := h.null_from_lower h1 (r := []) hn (by rw [List.append_nil]; exact hno)
      rw [List.append_nil] at hq
      rw [a3 p hq (unset_of_null hn (hc.resolve_right hup)), hn.2]
  · have hup : ∀ e ∈ upper, ¬ Speaks w e.2 p := fun e he hs => hp' (by rw [a2 p ⟨e, he, hs⟩, hp])
    have huns : Unset built p := by
      by_contra hs
      have hnn : ¬ NullEntry built p := fun hn => by rw [hn.2] at hp; cases hp
      rcases (a1 p hs hup).2 hnn with ⟨-, e⟩ | ⟨x, y, e1, -⟩
      · exact hp' e
      · rw [hp] at e1; cases e1
    have hsp : Speaks w (.file (textHandler cd) path) p := by
      by_contra hs
      exact hp' (by rw [a3 p hs huns, hp])
    have hsil : Silent built p := by
      obtain ⟨q, k, r, e, m1, m2⟩ := huns
      refine ⟨q, k, r, e, m1, ?_⟩
      rcases m2 with m2 | m2
      · exact m2
      · subst e
        have e : q ++ Step.key k :: r = (q ++ [.key k]) ++ r := by simp
        rw [e] at hup hsp
        exact absurd hsp (h.null_from_lower h1 ⟨⟨q, k, rfl⟩, m2⟩ hup)
    obtain ⟨old, hold, hom, hons⟩ := hsp
    refine ⟨?_, old, hold, hom, clobber_place h.proper h.layers h1 hold hom hons hup hsil⟩
    refine shows_from_lower h.proper h.layers (save_readings h.builtIn h.layers h.places h.ok) h2 ?_ (h.quiet huns) hup hp'
    rintro rfl
    rw [view_nil] at hp; cases hp

theorem below_of_null {x y : Value} {p : Path} {A : Prop} (h : NullEntry x p → (((∀ i, Step.idx i ∉ p) ∨ A) → view y p = some .none) ∧
    ((∃ i, Step.idx i ∈ p) → ¬ A → view y p = none)) (hn : NullEntry x p) :
    view y p = some .none ∨ (view y p = none ∧ ∃ i, Step.idx i ∈ p) := by
  obtain ⟨h1, h2⟩ := h hn
  by_cases ha : A
  · exact Or.inl (h1 (Or.inr ha))
  · by_cases hi : ∃ i, Step.idx i ∈ p
    · exact Or.inr ⟨h2 hi ha, hi⟩
    · rw [not_exists] at hi; exact Or.inl (h1 (Or.inl hi))

/-- **C102.** So if the old content of the file has nothing but maps where later layers have maps, saving the built value changes nothing in what is
built, except that `None` entries below lists may be missing. -/
theorem C102_unchanged (built : Value) (h : SavedToml limit b fm calls w w' lower upper name cd path built) (skip : Bool)
    (h1 : (register b fm calls).buildValue w skip = .ok built)
    (hcl : ∀ old, (Layer.file (textHandler cd) path).readValue w = .ok old → ∀ e ∈ upper, ∀ x, e.2.readValue w = .ok x → ¬ Clobbers old x) :
    ∃ built', (register b fm calls).buildValue w' skip = .ok built' ∧ AlikeBelowLists built built' := by
  obtain ⟨built', h2, a1, an, a2⟩ := C102_save_built built h skip h1
  refine ⟨built', h2, fun p => ⟨below_of_null (an p), fun hnn => ?_⟩⟩
  cases hp : view built p with
  | some a => obtain ⟨a', h3, h4⟩ := a1 p a hp hnn; exact Or.inr ⟨a, a', rfl, h3, h4⟩
  | none =>
    by_cases hp' : view built' p = none
    · exact Or.inl ⟨rfl, hp'⟩
    · obtain ⟨-, old, ho, -, ks, t, a, -, e1, e2, -, e, he, x, hx, e3⟩ := a2 p hp hp'
      exact absurd ⟨ks, e3, a, e1, e2⟩ (hcl old ho e he x hx)

/-- **C102.** In particular through the last layer. -/
theorem C102_last_layer (built : Value) (h : SavedToml limit b fm calls w w' lower [] name cd path built) (skip : Bool)
    (h1 : (register b fm calls).buildValue w skip = .ok built) :
    ∃ built', (register b fm calls).buildValue w' skip = .ok built' ∧ AlikeBelowLists built built' :=
  C102_unchanged built h skip h1 (by simp)

/-- **C102.** Saving the newly built value again shows nothing new any more. -/
theorem C102_twice (built : Value) (h : SavedToml limit b fm calls w w' lower upper name cd path built) (skip : Bool)
    (h1 : (register b fm calls).buildValue w skip = .ok built) (built' : Value) (h2 : (register b fm calls).buildValue w' skip = .ok built')
    (hdepth : DepthBelow built' limit) (w'' : World) (hok : (Layer.file (textHandler cd) path).writeValue w' built' = (.ok (), w'')) :
    ∃ built'', (register b fm calls).buildValue w'' skip = .ok built'' ∧ AlikeBelowLists built' built'' := by
  obtain ⟨r, hr, ha, hnr⟩ := h.after
  have h' := h.again ((C08_map b fm calls w' skip built' h2).2 h.proper) hdepth hok
  obtain ⟨b1, g1, a1, -⟩ := C102_save_built built h skip h1
  rw [h2] at g1; cases g1
  obtain ⟨built'', h3, c1, cn, c2⟩ := C102_save_built built' h' skip h2
  refine ⟨built'', h3, fun p => ⟨below_of_null (cn p), fun hnn => ?_⟩⟩
  cases hp : view built' p with
  | some a => obtain ⟨a', e1, e2⟩ := c1 p a hp hnn; exact Or.inr ⟨a, a', rfl, e1, e2⟩
  | none =>
    by_cases hp' : view built'' p = none
    · exact Or.inl ⟨rfl, hp'⟩
    · exfalso
      obtain ⟨-, old, ho, -, ks, t, a, -, e1, e2, e3, -⟩ := c2 p hp hp'
      rw [ho] at hr; cases hr
      by_cases hv : NullEntry built (keys ks)
      · rw [(ha _).1 hv] at e1; cases e1
      · rcases (ha (keys ks)).2 hv with ⟨-, e⟩ | ⟨x, y, f1, f2, f3⟩
        · rw [e1] at e; cases e
        · rw [e1] at f2; cases f2
          obtain ⟨z, f4, f5⟩ := a1 _ _ f1 hv
          rw [e3] at f4; cases f4
          exact e2 ((headAlike_map f3).1 ((headAlike_map f5).2 rfl))

/-! ## Editing the layer -/

/-- **C102.** Reading a TOML file layer, changing the value and writing it back: the new built value shows, up to the kind of integers, what the old
one showed at every path along which the edit changed nothing. -/
theorem C102_frame (old : Value) (hold : (Layer.file (textHandler cd) path).readValue w = .ok old)
    (h : SavedToml limit b fm calls w w' lower upper name cd path v) (hom : old.isMap = true) (skip : Bool) (built : Value)
    (h1 : (register b fm calls).buildValue w skip = .ok built) :
    ∃ built', (register b fm calls).buildValue w' skip = .ok built' ∧
      ∀ p, (∀ q, q <+: p → view v q = view old q) → AlikeAt built built' p := by
  obtain ⟨built', h2, a1, a2, a3⟩ := h.save h1
  refine ⟨built', h2, fun p hp => ?_⟩
  have hnv : ∀ q, q <+: p → ¬ NullEntry v q := fun q hq hn => h.before old hold q ⟨hn.1, by rw [← hp q hq]; exact hn.2⟩
  by_cases hup : ∃ e ∈ upper, Speaks w e.2 p
  · exact alikeAt_eq (a2 p hup)
  have hno : ∀ e ∈ upper, ¬ Speaks w e.2 p := fun e he hs => hup ⟨e, he, hs⟩
  by_cases hs : Unset v p
  · refine alikeAt_eq (a3 p ?_ hs)
    rintro ⟨x, hx, -, hns⟩
    rw [hold] at hx; cases hx
    refine hns (silent_congr (fun q hq => (hp q hq).symm) ?_)
    obtain ⟨q, k, r, rfl, e1, e2⟩ := hs
    refine ⟨q, k, r, rfl, e1, ?_⟩
    rcases e2 with e2 | e2
    · exact e2
    · exact absurd ⟨⟨q, k, rfl⟩, e2⟩ (hnv _ ⟨r, by simp⟩)
  · have hso : ¬ Silent old p := by
      intro ho
      obtain ⟨q, k, r, e, e1, e2⟩ := silent_congr hp ho
      exact hs ⟨q, k, r, e, e1, Or.inl e2⟩
    have e1 := C07_last_speaker b fm calls w skip built h1 h.proper p lower _ upper old h.layers hold hom hso hno
    unfold AlikeAt
    rw [e1, ← hp p (List.prefix_refl p)]
    exact (a1 p hs hno).2 (hnv p (List.prefix_refl p))

/-- **C102.** `set` a key in what a TOML file layer reads and write it back. The write being successful, the new built value shows the new value under
that key wherever it is set and no later layer speaks (a `None` entry in it that is below a list is gone). Where it is unset — in particular when
the key was set to `None` — the last of the layers before the file that speaks shows through, or nothing if there is none. Where a later layer
speaks, and under every other key, the old built value is shown, up to the kind of integers. -/
theorem C102_edit (old : Value) (hold : (Layer.file (textHandler cd) path).readValue w = .ok old) (k : String) (x : Value)
    (hset : (old.set k x).1 = .ok ())
    (h : SavedToml limit b fm calls w w' lower upper name cd path (old.set k x).2) (skip : Bool) (built : Value)
    (h1 : (register b fm calls).buildValue w skip = .ok built) :
    ∃ built', (register b fm calls).buildValue w' skip = .ok built' ∧
      (∀ p, x ≠ .none → ¬ Unset x p → (∀ e ∈ upper, ¬ Speaks w e.2 (.key k :: p)) →
        (NullEntry x p → view built' (.key k :: p) = none) ∧
        (¬ NullEntry x p → (view x p = none ∧ view built' (.key k :: p) = none) ∨
          ∃ a a', view x p = some a ∧ view built' (.key k :: p) = some a' ∧ HeadAlike a a')) ∧
      (∀ p, x = .none ∨ Unset x p → (∀ e ∈ upper, ¬ Speaks w e.2 (.key k :: p)) →
        (∀ before e after y, lower = before ++ e :: after → e.2.readValue w = .ok y → y.isMap = true → ¬ Silent y (.key k :: p) →
          (∀ a ∈ after, ¬ Speaks w a.2 (.key k :: p)) → view built' (.key k :: p) = view y (.key k :: p)) ∧
        ((∀ e ∈ lower, ¬ Speaks w e.2 (.key k :: p)) → view built' (.key k :: p) = none)) ∧
      (∀ p, (∃ e ∈ upper, Speaks w e.2 p) → view built' p = view built p) ∧
      (∀ s p, s ≠ .key k → AlikeAt built built' (s :: p)) := by
  cases old with
  | map m =>
    have hview : ∀ p, view (.map (hmInsert m k x)) (.key k :: p) = view x p := by
      intro p; rw [view_key_map, hmGet_insert, if_pos rfl]; rfl
    have hother : ∀ s p, s ≠ .key k → view (.map (hmInsert m k x)) (s :: p) = view (.map m) (s :: p) := by
      intro s p hs
      cases s with
      | key j =>
        rw [view_key_map, view_key_map, hmGet_insert, if_neg]
        intro e; exact hs (by rw [e])
      | idx i => rfl
    obtain ⟨built2, g2, hframe⟩ := C102_frame (.map m) hold h rfl skip built h1
    obtain ⟨built', h2, a1, a2, a3⟩ := h.save h1
    rw [g2] at h2; cases h2
    have huns : ∀ p, Unset (.map (hmInsert m k x)) (.key k :: p) ↔ x = .none ∨ Unset x p := by
      intro p
      constructor
      · rintro ⟨q, j, r, e, e1, e2⟩
        cases q with
        | nil =>
          cases e
          have : view (.map (hmInsert m k x)) ([] ++ [Step.key k]) = view x [] := hview []
          rw [this, view_nil] at e2
          rcases e2 with e2 | e2
          · cases e2
          · rw [Option.some.injEq, head_none_iff] at e2; exact Or.inl e2
        | cons s q =>
          cases e
          refine Or.inr ⟨q, j, r, rfl, fun q' hq' => ?_, ?_⟩
          · rw [← hview]; exact e1 _ (List.cons_prefix_cons.2 ⟨rfl, hq'⟩)
          · rw [← hview]; exact e2
      · rintro (rfl | ⟨q, j, r, rfl, e1, e2⟩)
        · refine ⟨[], k, p, rfl, fun q hq => ?_, Or.inr (hview [])⟩
          rw [List.prefix_nil.1 hq]; rfl
        · refine ⟨.key k :: q, j, r, rfl, fun q' hq' => ?_, ?_⟩
          · cases q' with
            | nil => rfl
            | cons s q' =>
              obtain ⟨rfl, hq2⟩ := List.cons_prefix_cons.1 hq'
              rw [hview]; exact e1 q' hq2
          · rw [List.cons_append, hview]; exact e2
    refine ⟨built2, g2, ?_, ?_, a2, ?_⟩
    · intro p hx hs hno
      have := a1 (.key k :: p) (fun hh => ((huns p).1 hh).elim hx hs) hno
      rw [show view (Value.set (.map m) k x).2 (.key k :: p) = view x p from hview p] at this
      have hnull : NullEntry (Value.set (.map m) k x).2 (.key k :: p) ↔ NullEntry x p := by
        rw [nullEntry_cons]
        have hc : child (Value.set (.map m) k x).2 (.key k) = some x := by
          show child (.map (hmInsert m k x)) (.key k) = some x
          rw [child_key_map, hmGet_insert, if_pos rfl]
        rw [hc]
        constructor
        · rintro (⟨j, -, -, e⟩ | ⟨y, e, hn⟩)
          · cases e; exact absurd rfl hx
          · cases e; exact hn
        · intro hn; exact Or.inr ⟨x, rfl, hn⟩
      rw [hnull] at this
      exact this
    · intro p hs hno
      have hothers := save_readings h.builtIn h.layers h.places h.ok
      have hme : ¬ Speaks w' (.file (textHandler cd) path) (.key k :: p) := h.quiet ((huns p).2 hs)
      have hup : ∀ e ∈ upper, ¬ Speaks w' e.2 (.key k :: p) := fun e he => by
        rw [speaks_congr (hothers e (List.mem_append_right _ he))]; exact hno e he
      constructor
      · intro before e after y hl hy hym hys hlast
        refine C07_last_speaker b fm calls w' skip built2 g2 h.proper _ before e
          (after ++ (name, .file (textHandler cd) path) :: upper) y (by rw [h.layers, hl]; simp) ?_ hym hys ?_
        · rw [hothers e (by rw [hl]; simp)]; exact hy
        · intro a hain
          rcases List.mem_append.1 hain with hin | hin
          · rw [speaks_congr (hothers a (by rw [hl]; simp [hin]))]; exact hlast a hin
          · rcases List.mem_cons.1 hin with rfl | hin
            · exact hme
            · exact hup a hin
      · intro hlow
        have := C07_nobody_speaks b fm calls w' skip built2 g2 h.proper (.key k :: p) (by
          intro a hain
          rw [h.layers] at hain
          rcases List.mem_append.1 hain with hin | hin
          · rw [speaks_congr (hothers a (List.mem_append_left _ hin))]; exact hlow a hin
          · rcases List.mem_cons.1 hin with rfl | hin
            · exact hme
            · exact hup a hin)
        rw [this]; rfl
    · intro s p hs
      refine hframe (s :: p) fun q hq => ?_
      cases q with
      | nil => rfl
      | cons s' q =>
        obtain ⟨rfl, -⟩ := List.cons_prefix_cons.1 hq
        exact hother _ q hs
  | _ => cases hset

/-! ### Concrete cases

The defaults hold a `None`, one more below a list, and a table under `a`; a later layer has a table under `a`, too. -/

def exTSDefaults : Value :=
  .map [("proxy", .none), ("servers", .array [.map [("port", .integer ⟨80, by decide⟩), ("proxy", .none)]]), ("a", .map [("b", .string "1")])]
def exTSOver : Value := .map [("a", .map [("c", .string "3")])]
def exTSCalls : List RegCall := [.memory "default" exTSDefaults, .file "file" (os "/c.toml"), .memory "over" exTSOver]
noncomputable def exTSFile : Layer := .file (textHandler exToml) (os "/c.toml")
def exTSBuilt : Value :=
  .map [("proxy", .none), ("servers", .array [.map [("port", .integer ⟨80, by decide⟩), ("proxy", .none)]]),
    ("a", .map [("b", .string "1"), ("c", .string "3")])]

theorem exTS_saved (w w' : World) (v : Value) (hu : UniqueKeys v) (hd : DepthBelow v 80) (hok : exTSFile.writeValue w v = (.ok (), w'))
    (hread : ∀ bs code wr, w.disk (w.locate (os "/c.toml")) ≠ .file bs (some code) wr)
    (hbefore : ∀ old, exTSFile.readValue w = .ok old → ∀ p, ¬ NullEntry old p) :
    SavedToml 80 exB1 ⟨exToml, exToml⟩ exTSCalls w w' [("default", .memory exTSDefaults)] [("over", .memory exTSOver)] "file" exToml
      (os "/c.toml") v where
  like := exToml_like 80
  builtIn := by
    intro c hc
    simp only [exTSCalls, List.mem_cons, List.not_mem_nil, or_false] at hc
    rcases hc with rfl | rfl | rfl <;> trivial
  memory := by
    intro c hc n x hx
    simp only [exTSCalls, List.mem_cons, List.not_mem_nil, or_false] at hc
    rcases hc with rfl | rfl | rfl <;> cases hx <;> simp [exTSDefaults, exTSOver, UniqueKeys, UniqueKeysMap, UniqueKeysEntry, UniqueKeysList]
  layers := rfl
  places := by
    intro e he h q hq
    simp at he
    rcases he with rfl | rfl <;> cases hq
  unique := hu
  depth := hd
  ok := hok
  readable := hread
  before := hbefore

theorem exTS_holds (xs : Entries) (h : ∀ e ∈ xs, e ∈ [("proxy", Value.none), ("proxy", .string "q"), ("a", .string "2"), ("a", .map [("b", .string "1"), ("c", .string "3")]),
    ("servers", .array [.map [("port", .integer ⟨80, by decide⟩), ("proxy", .none)]]), ("servers", .array [.map [("port", .integer ⟨80, by decide⟩)]]),
    ("a", .map [("c", .string "3")]), ("a", .map [("b", .string "1")])]) :
    (Value.map xs).isMap = true ∧ TomlHolds (.map xs) ∧ DepthBelow (.map xs) 80 := by
  have leaf : ∀ v : Value, (∀ s, child v s = none) → DepthBelow v 1 := fun v h => depth_leaf h
  have hstr : ∀ t, DepthBelow (.string t) 1 := fun t => depth_leaf (by rintro (_ | _) <;> rfl)
  have hmap : ∀ (m : Entries) k, (∀ e ∈ m, DepthBelow e.2 k) → DepthBelow (.map m) (k + 1) := by
    intro m k hm
    refine depth_node fun s x hx => ?_
    cases s with
    | idx i => cases hx
    | key j => rw [child_key_map] at hx; exact hm _ (hmGet_mem hx)
  have harr : ∀ (l : List Value) k, (∀ e ∈ l, DepthBelow e k) → DepthBelow (.array l) (k + 1) := by
    intro l k hm
    refine depth_node fun s x hx => ?_
    cases s with
    | key i => cases hx
    | idx j => exact hm _ (List.mem_of_getElem? (show l[j]? = some x from hx))
  have hint : DepthBelow (.integer ⟨80, by decide⟩) 1 := depth_leaf (by rintro (_ | _) <;> rfl)
  have hnone : DepthBelow .none 1 := depth_leaf (by rintro (_ | _) <;> rfl)
  have key : ∀ e ∈ xs, (e.2 ≠ .none → TomlHolds e.2) ∧ DepthBelow e.2 3 := by
    intro e he
    have := h e he
    simp only [List.mem_cons, List.not_mem_nil, or_false] at this
    rcases this with rfl | rfl | rfl | rfl | rfl | rfl | rfl | rfl
    · exact ⟨fun h => absurd rfl h, depth_mono hnone (by decide)⟩
    · exact ⟨fun _ => .string _, depth_mono (hstr _) (by decide)⟩
    · exact ⟨fun _ => .string _, depth_mono (hstr _) (by decide)⟩
    · refine ⟨fun _ => .map ?_, depth_mono (hmap _ 1 ?_) (by decide)⟩
      · intro e he _
        simp only [List.mem_cons, List.not_mem_nil, or_false] at he
        rcases he with rfl | rfl <;> exact .string _
      · intro e he
        simp only [List.mem_cons, List.not_mem_nil, or_false] at he
        rcases he with rfl | rfl <;> exact hstr _
    · refine ⟨fun _ => .array ?_, harr _ 2 ?_⟩
      · intro x hx
        simp only [List.mem_singleton] at hx
        subst hx
        refine .map ?_
        intro e he hne
        simp only [List.mem_cons, List.not_mem_nil, or_false] at he
        rcases he with rfl | rfl
        · exact .integer _
        · exact absurd rfl hne
      · intro x hx
        simp only [List.mem_singleton] at hx
        subst hx
        refine hmap _ 1 ?_
        intro e he
        simp only [List.mem_cons, List.not_mem_nil, or_false] at he
        rcases he with rfl | rfl
        · exact hint
        · exact hnone
    · refine ⟨fun _ => .array ?_, harr _ 2 ?_⟩
      · intro x hx
        simp only [List.mem_singleton] at hx
        subst hx
        refine .map ?_
        intro e he hne
        simp only [List.mem_singleton] at he
        subst he
        exact .integer _
      · intro x hx
        simp only [List.mem_singleton] at hx
        subst hx
        refine hmap _ 1 ?_
        intro e he
        simp only [List.mem_singleton] at he
        subst he
        exact hint
    · refine ⟨fun _ => .map ?_, depth_mono (hmap _ 1 ?_) (by decide)⟩
      · intro e he _
        simp only [List.mem_singleton] at he
        subst he; exact .string _
      · intro e he
        simp only [List.mem_singleton] at he
        subst he; exact hstr _
    · refine ⟨fun _ => .map ?_, depth_mono (hmap _ 1 ?_) (by decide)⟩
      · intro e he _
        simp only [List.mem_singleton] at he
        subst he; exact .string _
      · intro e he
        simp only [List.mem_singleton] at he
        subst he; exact hstr _
  exact ⟨rfl, .map fun e he => (key e he).1, depth_mono (hmap _ 3 fun e he => (key e he).2) (by decide)⟩

theorem exTS_fresh {v : Value} {w' : World} (hu : UniqueKeys v) (hd : DepthBelow v 80) (hok : exTSFile.writeValue exDisk v = (.ok (), w')) :
    SavedToml 80 exB1 ⟨exToml, exToml⟩ exTSCalls exDisk w' [("default", .memory exTSDefaults)] [("over", .memory exTSOver)] "file" exToml
      (os "/c.toml") v :=
  exTS_saved exDisk w' v hu hd hok (by intro bs code wr h; cases h) (by
    intro old ho p hn
    have : exTSFile.readValue exDisk = .ok (.map []) := rfl
    rw [this] at ho; cases ho
    obtain ⟨⟨q, k, rfl⟩, hn⟩ := hn
    rcases q with _ | ⟨s, q⟩
    · cases hn
    · cases s <;> cases hn)

/-- The built value is saved through a file that did not exist: the `None` of the defaults is still shown, the one below the list is gone. -/
example : ∃ w' built', (register exB1 ⟨exToml, exToml⟩ exTSCalls).buildValue exDisk false = .ok exTSBuilt ∧
    exTSFile.writeValue exDisk exTSBuilt = (.ok (), w') ∧ (register exB1 ⟨exToml, exToml⟩ exTSCalls).buildValue w' false = .ok built' ∧
    view built' [.key "proxy"] = some .none ∧ view exTSBuilt [.key "servers", .idx 0, .key "proxy"] = some .none ∧
    view built' [.key "servers", .idx 0, .key "proxy"] = none ∧ AlikeBelowLists exTSBuilt built' := by
  have hu : UniqueKeys exTSBuilt := by simp [exTSBuilt, UniqueKeys, UniqueKeysMap, UniqueKeysEntry, UniqueKeysList]
  obtain ⟨hm, hh, hd⟩ := exTS_holds [("proxy", .none), ("servers", .array [.map [("port", .integer ⟨80, by decide⟩), ("proxy", .none)]]),
    ("a", .map [("b", .string "1"), ("c", .string "3")])] (by simp)
  obtain ⟨w', hok⟩ := (C84_write (exToml_like 80) exDisk (os "/c.toml") exTSBuilt).2 ⟨hm, hh⟩ _ rfl rfl
  have hs := exTS_fresh hu hd hok
  have hq : ∀ k t, k ≠ "a" → ¬ ∃ e ∈ [("over", Layer.memory exTSOver)], Speaks exDisk e.2 (.key k :: t) := by
    rintro k t hk ⟨e, he, x, hx, -, hns⟩
    simp only [List.mem_singleton] at he
    subst he
    cases hx
    refine hns ⟨[], k, t, rfl, by intro q hq; rw [List.prefix_nil] at hq; subst hq; rfl, ?_⟩
    simp only [exTSOver, List.nil_append, view_key_map, hmGet_cons, hmGet_nil, if_neg (Ne.symm hk)]; rfl
  obtain ⟨built', h2, -, an, -⟩ := C102_save_built exTSBuilt hs false rfl
  obtain ⟨b2, h3, hb⟩ := C102_unchanged exTSBuilt hs false rfl (by
    intro old ho e he x hx
    have : exTSFile.readValue exDisk = .ok (.map []) := rfl
    rw [show (Layer.file (textHandler exToml) (os "/c.toml")).readValue exDisk = _ from this] at ho; cases ho
    rintro ⟨ks, e1, a, e2, e3⟩
    rcases ks with _ | ⟨k, ks⟩
    · cases e2; exact e3 rfl
    · cases e2)
  rw [h2] at h3; cases h3
  exact ⟨w', built', rfl, hok, h2, (an _ ⟨⟨[], "proxy", rfl⟩, by decide⟩).1 (Or.inl (by intro i; simp)), by decide,
    (an _ ⟨⟨[.key "servers", .idx 0], "proxy", rfl⟩, by decide⟩).2 ⟨0, by simp⟩ (hq _ _ (by decide)), hb⟩

/-- A disk as it is after something was written to the file. -/
structure ExTSReady (w : World) : Prop where
  room : w.room = exDisk.room
  locate : w.locate = exDisk.locate
  disk : ∃ bs, w.disk 3 = .file bs none none ∨ w.disk 3 = .absent none

theorem exTS_step {w : World} (hw : ExTSReady w) {v r : Value} (hm : v.isMap = true) (hh : TomlHolds v) (hp : visit (docOf (prune v)) = .ok r) :
    ∃ w', exTSFile.writeValue w v = (.ok (), w') ∧ exTSFile.readValue w' = .ok r ∧ ExTSReady w' := by
  obtain ⟨h1, h2, bs, h3⟩ := hw
  have hl : w.locate (os "/c.toml") = 3 := by rw [h2]; rfl
  have ho : ∃ w2, w.openTrunc (os "/c.toml") = .ok w2 := by
    rcases h3 with h3 | h3 <;> simp only [World.openTrunc, hl, h3] <;> exact ⟨_, rfl⟩
  obtain ⟨w2, ho⟩ := ho
  obtain ⟨w', hok⟩ := (C84_write (exToml_like 80) w (os "/c.toml") v).2 ⟨hm, hh⟩ w2 ho (by rw [h1]; rfl)
  have hread : ∀ bs code wr, w.disk (w.locate (os "/c.toml")) ≠ .file bs (some code) wr := by
    intro bs code wr h
    rw [hl] at h
    rcases h3 with h3 | h3 <;> rw [h3] at h <;> cases h
  obtain ⟨⟨h0, -⟩, hc⟩ := C57_write exToml w (os "/c.toml") v _ _ hok
  refine ⟨w', hok, C57_read_back exToml w w' (os "/c.toml") v r _ _ hok hread (exToml_print hm hh) (exToml_parse _) hp, by rw [h0]; exact h1,
    by rw [h0]; exact h2, ?_⟩
  rcases hc with ⟨m, -, e, -⟩ | ⟨t, e, -, -, e2, -⟩ | ⟨t, n, code, r, -, -, -, e2, -⟩ | ⟨t, r, -, -, e3, e4⟩
  · cases e
  · cases e2
  · cases e2
  · rcases e4 with rfl | ⟨bs, e4⟩
    · rw [hl] at e3; exact ⟨_, Or.inl e3⟩
    · rw [hl] at e4 e3
      rcases h3 with h3 | h3 <;> rw [h3] at e4 <;> cases e4
      exact ⟨_, Or.inl e3⟩

/-- What is built, if the file reads as `r`. -/
theorem exTS_build {w : World} {r : Value} (h : exTSFile.readValue w = .ok r) :
    (register exB1 ⟨exToml, exToml⟩ exTSCalls).buildValue w false = .ok (((Value.newMap.merge exTSDefaults).merge r).merge exTSOver) := by
  rw [buildValue_is (is_register _ _ _)]
  show buildList w false Value.newMap [("default", .memory exTSDefaults), ("file", exTSFile), ("over", .memory exTSOver)] = _
  simp only [buildList, h]
  rfl

def exTSOld : Value := .map [("proxy", .string "q"), ("a", .string "2")]
def exTSBuilt2 : Value :=
  .map [("proxy", .string "q"), ("servers", .array [.map [("port", .integer ⟨80, by decide⟩), ("proxy", .none)]]), ("a", .map [("c", .string "3")])]
def exTSBuilt3 : Value :=
  .map [("proxy", .string "q"), ("servers", .array [.map [("port", .integer ⟨80, by decide⟩)]]), ("a", .map [("b", .string "1"), ("c", .string "3")])]

/-- A file with a proxy and, under `a`, a text. -/
theorem exTS_old : ∃ w1, exTSFile.readValue w1 = .ok exTSOld ∧ ExTSReady w1 ∧
    SavedToml 80 exB1 ⟨exToml, exToml⟩ exTSCalls exDisk w1 [("default", .memory exTSDefaults)] [("over", .memory exTSOver)] "file" exToml
      (os "/c.toml") exTSOld := by
  have hu : UniqueKeys exTSOld := by simp [exTSOld, UniqueKeys, UniqueKeysMap, UniqueKeysEntry]
  obtain ⟨hm, hh, hd⟩ := exTS_holds [("proxy", .string "q"), ("a", .string "2")] (by simp)
  obtain ⟨w', hok, hr, hw⟩ := exTS_step (w := exDisk) ⟨rfl, rfl, [], Or.inr rfl⟩ (v := exTSOld) (r := exTSOld) hm hh (by
    have : prune exTSOld = exTSOld := rfl
    rw [this]
    simp only [exTSOld, docOf, List.attach, List.attachWith, List.pmap, List.map]
    rfl)
  exact ⟨w', hr, hw, exTS_fresh hu hd hok⟩

/-- Saving what is built then: `a.b` of the defaults, which the old file had hidden, appears; saving again changes nothing. -/
example : ∃ w1 w2 w3 built3, (register exB1 ⟨exToml, exToml⟩ exTSCalls).buildValue w1 false = .ok exTSBuilt2 ∧
    exTSFile.writeValue w1 exTSBuilt2 = (.ok (), w2) ∧ (register exB1 ⟨exToml, exToml⟩ exTSCalls).buildValue w2 false = .ok exTSBuilt3 ∧
    view exTSBuilt2 [.key "a", .key "b"] = none ∧ view exTSBuilt3 [.key "a", .key "b"] = some (.string "1") ∧
    exTSFile.writeValue w2 exTSBuilt3 = (.ok (), w3) ∧ (register exB1 ⟨exToml, exToml⟩ exTSCalls).buildValue w3 false = .ok built3 ∧
    AlikeBelowLists exTSBuilt3 built3 := by
  obtain ⟨w1, hr1, hw1, hs1⟩ := exTS_old
  have hb1 : (register exB1 ⟨exToml, exToml⟩ exTSCalls).buildValue w1 false = .ok exTSBuilt2 := exTS_build hr1
  obtain ⟨hm2, hh2, hd2⟩ := exTS_holds [("proxy", .string "q"), ("servers", .array [.map [("port", .integer ⟨80, by decide⟩), ("proxy", .none)]]),
    ("a", .map [("c", .string "3")])] (by simp)
  obtain ⟨w2, hok2, hr2, hw2⟩ := exTS_step hw1 (v := exTSBuilt2) (r := .map [("proxy", .string "q"), ("servers", .array [.map [("port", .integer ⟨80, by decide⟩)]]),
    ("a", .map [("c", .string "3")])]) hm2 hh2 (by
    have : prune exTSBuilt2 = .map [("proxy", .string "q"), ("servers", .array [.map [("port", .integer ⟨80, by decide⟩)]]),
      ("a", .map [("c", .string "3")])] := rfl
    rw [this]
    simp only [docOf, List.attach, List.attachWith, List.pmap, List.map]
    rfl)
  have hb2 : (register exB1 ⟨exToml, exToml⟩ exTSCalls).buildValue w2 false = .ok exTSBuilt3 := exTS_build hr2
  have hs2 := hs1.again (by simp [exTSBuilt2, UniqueKeys, UniqueKeysMap, UniqueKeysEntry, UniqueKeysList]) hd2 hok2
  obtain ⟨hm3, hh3, hd3⟩ := exTS_holds [("proxy", .string "q"), ("servers", .array [.map [("port", .integer ⟨80, by decide⟩)]]),
    ("a", .map [("b", .string "1"), ("c", .string "3")])] (by simp)
  obtain ⟨w3, hok3, -, -⟩ := exTS_step hw2 (v := exTSBuilt3) (r := exTSBuilt3) hm3 hh3 (by
    have : prune exTSBuilt3 = exTSBuilt3 := rfl
    rw [this]
    simp only [exTSBuilt3, docOf, List.attach, List.attachWith, List.pmap, List.map]
    rfl)
  obtain ⟨built3, h3, ha⟩ := C102_twice exTSBuilt2 hs2 false hb1 exTSBuilt3 hb2 hd3 w3 hok3
  exact ⟨w1, w2, w3, built3, hb1, hok2, hb2, by decide, by decide, hok3, h3, ha⟩

/-- Setting the file's proxy to `None` and saving: the proxy of the defaults (here `None`) shows again, and `a.c` is as it was. -/
example : ∃ w1 w2 built', exTSFile.readValue w1 = .ok exTSOld ∧ exTSFile.writeValue w1 (exTSOld.set "proxy" .none).2 = (.ok (), w2) ∧
    view exTSBuilt2 [.key "proxy"] = some (.string "q") ∧
    (register exB1 ⟨exToml, exToml⟩ exTSCalls).buildValue w2 false = .ok built' ∧ view built' [.key "proxy"] = some .none ∧
    AlikeAt exTSBuilt2 built' [.key "a", .key "c"] := by
  obtain ⟨w1, hr1, hw1, hs1⟩ := exTS_old
  have hb1 : (register exB1 ⟨exToml, exToml⟩ exTSCalls).buildValue w1 false = .ok exTSBuilt2 := exTS_build hr1
  obtain ⟨hm2, hh2, hd2⟩ := exTS_holds [("proxy", .none), ("a", .string "2")] (by simp)
  have hv : (exTSOld.set "proxy" .none).2 = .map [("proxy", .none), ("a", .string "2")] := rfl
  obtain ⟨w2, hok2, -, -⟩ := exTS_step hw1 (v := (exTSOld.set "proxy" .none).2) (r := .map [("a", .string "2")]) hm2 hh2 (by
    have : prune (exTSOld.set "proxy" .none).2 = .map [("a", .string "2")] := rfl
    rw [this]
    simp only [docOf, List.attach, List.attachWith, List.pmap, List.map]
    rfl)
  have hs2 := hs1.again (by rw [hv]; simp [UniqueKeys, UniqueKeysMap, UniqueKeysEntry, UniqueKeysList]) (by rw [hv]; exact hd2) hok2
  obtain ⟨built', h2, -, a2, -, a4⟩ := C102_edit exTSOld hr1 "proxy" .none rfl hs2 false exTSBuilt2 hb1
  refine ⟨w1, w2, built', hr1, hok2, by decide, h2, ?_, a4 _ _ (by decide)⟩
  refine ((a2 [] (Or.inl rfl) ?_).1 [] ("default", .memory exTSDefaults) [] exTSDefaults rfl rfl rfl ?_ (by simp)).trans (by decide)
  · intro e he
    simp only [List.mem_singleton] at he
    subst he
    rintro ⟨x, hx, -, hns⟩
    cases hx
    exact hns ⟨[], "proxy", [], rfl, by intro q hq; rw [List.prefix_nil] at hq; subst hq; rfl, rfl⟩
  · intro hsil
    have := silent_none hsil
    revert this
    decide

/-- The same edit by the frame theorem: nothing along `a.c` was changed. -/
example : ∃ w2 built', (register exB1 ⟨exToml, exToml⟩ exTSCalls).buildValue w2 false = .ok built' ∧ AlikeAt exTSBuilt2 built' [.key "a", .key "c"] := by
  obtain ⟨w1, hr1, hw1, hs1⟩ := exTS_old
  have hb1 : (register exB1 ⟨exToml, exToml⟩ exTSCalls).buildValue w1 false = .ok exTSBuilt2 := exTS_build hr1
  obtain ⟨hm2, hh2, hd2⟩ := exTS_holds [("proxy", .none), ("a", .string "2")] (by simp)
  have hv : (exTSOld.set "proxy" .none).2 = .map [("proxy", .none), ("a", .string "2")] := rfl
  obtain ⟨w2, hok2, -, -⟩ := exTS_step hw1 (v := (exTSOld.set "proxy" .none).2) (r := .map [("a", .string "2")]) hm2 hh2 (by
    have : prune (exTSOld.set "proxy" .none).2 = .map [("a", .string "2")] := rfl
    rw [this]
    simp only [docOf, List.attach, List.attachWith, List.pmap, List.map]
    rfl)
  have hs2 := hs1.again (by rw [hv]; simp [UniqueKeys, UniqueKeysMap, UniqueKeysEntry, UniqueKeysList]) (by rw [hv]; exact hd2) hok2
  obtain ⟨built', h2, a⟩ := C102_frame exTSOld hr1 hs2 rfl false exTSBuilt2 hb1
  refine ⟨w2, built', h2, a _ ?_⟩
  intro q hq
  obtain ⟨t, ht⟩ := hq
  rcases q with _ | ⟨s, _ | ⟨s', _ | ⟨s'', q⟩⟩⟩ <;> simp at ht
  · rfl
  · rw [ht.1]; decide
  · rw [ht.1, ht.2.1]; decide

/-- The defaults and the file alone: saving the built value through the file changes nothing (below the list a `None` goes). -/
example : ∃ w' built', (register exB1 ⟨exToml, exToml⟩ (exTSCalls.take 2)).buildValue exDisk false = .ok exTSDefaults ∧
    exTSFile.writeValue exDisk exTSDefaults = (.ok (), w') ∧
    (register exB1 ⟨exToml, exToml⟩ (exTSCalls.take 2)).buildValue w' false = .ok built' ∧ AlikeBelowLists exTSDefaults built' := by
  have hu : UniqueKeys exTSDefaults := by simp [exTSDefaults, UniqueKeys, UniqueKeysMap, UniqueKeysEntry, UniqueKeysList]
  obtain ⟨hm, hh, hd⟩ := exTS_holds [("proxy", .none), ("servers", .array [.map [("port", .integer ⟨80, by decide⟩), ("proxy", .none)]]),
    ("a", .map [("b", .string "1")])] (by simp)
  obtain ⟨w', hok⟩ := (C84_write (exToml_like 80) exDisk (os "/c.toml") exTSDefaults).2 ⟨hm, hh⟩ _ rfl rfl
  have hs := exTS_fresh hu hd hok
  have hs2 : SavedToml 80 exB1 ⟨exToml, exToml⟩ (exTSCalls.take 2) exDisk w' [("default", .memory exTSDefaults)] [] "file" exToml (os "/c.toml") exTSDefaults :=
    ⟨hs.like, fun c hc => hs.builtIn c (List.mem_of_mem_take hc), fun c hc => hs.memory c (List.mem_of_mem_take hc), rfl,
      fun e he => hs.places e (by simp at he ⊢; exact Or.inl he), hs.unique, hs.depth, hs.ok, hs.readable, hs.before⟩
  obtain ⟨built', h2, ha⟩ := C102_last_layer exTSDefaults hs2 false rfl
  exact ⟨w', built', rfl, hok, h2, ha⟩

end Verif.Props
