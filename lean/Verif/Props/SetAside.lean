import Verif.Spec.SetAside
import Verif.Props.ComesBack
/-!
# C148: settings that say they are unset
-/
namespace Verif.Props
open Verif Verif.Spec

theorem shows_some {y r : Value} {d : Data} (h : ShowsThrough y r (.some d)) : ShowsThrough y r d := by
  cases h with
  | left _ _ h => cases h
  | inner h h' => cases h; exact h'
  | field _ _ h => cases h
  | within _ _ h => cases h

theorem shows_newtype {y r : Value} {d : Data} (h : ShowsThrough y r (.newtypeStruct d)) : ShowsThrough y r d := by
  cases h with
  | left _ _ h => cases h
  | inner h h' => cases h; exact h'
  | field _ _ h => cases h
  | within _ _ h => cases h

theorem shows_struct {y r : Value} {ds : List (String × Data)} (h : ShowsThrough y r (.struct ds)) :
    ∃ m name d, y = .map m ∧ hmGet ds name = some d ∧
      ∃ z, hmGet m name = some z ∧ ((child r (.key name) = none ∧ z ≠ .none) ∨ ∃ x, child r (.key name) = some x ∧ ShowsThrough z x d) := by
  have hmap : ∀ {key : String} {x : Value}, child y (.key key) = some x → ∃ m, y = .map m ∧ hmGet m key = some x := by
    intro key x hx
    cases y with
    | map m => rw [child_key_map] at hx; exact ⟨m, rfl, hx⟩
    | _ => cases hx
  cases h with
  | left hy hne h hr =>
    rw [dchild_struct] at h
    obtain ⟨m, rfl, h1⟩ := hmap hy
    exact ⟨m, _, _, rfl, h, _, h1, Or.inl ⟨hr, hne⟩⟩
  | inner h => cases h
  | field hy hx h h' =>
    rw [dchild_struct] at h
    obtain ⟨m, rfl, h1⟩ := hmap hy
    exact ⟨m, _, _, rfl, h, _, h1, Or.inr ⟨_, hx, h'⟩⟩
  | within _ _ h => cases h

theorem shows_texts {y r : Value} {es : List (String × Data)} (h : ShowsThrough y r (.map (es.map fun e => (.str e.1, e.2)))) :
    ∃ m key z, y = .map m ∧ hmGet m key = some z ∧ (hmGet es key = none ∨ ∃ d x, hmGet es key = some d ∧ child r (.key key) = some x ∧ ShowsThrough z x d) := by
  generalize hd : Data.map (es.map fun e => (.str e.1, e.2)) = d at h
  have hmap : ∀ {key : String} {x : Value}, child y (.key key) = some x → ∃ m, y = .map m ∧ hmGet m key = some x := by
    intro key x hx
    cases y with
    | map m => rw [child_key_map] at hx; exact ⟨m, rfl, hx⟩
    | _ => cases hx
  cases h with
  | left _ _ h => rw [← hd] at h; cases h
  | inner h => rw [← hd] at h; cases h
  | field _ _ h => rw [← hd] at h; cases h
  | entry hy h =>
    rw [← hd, dchild_texts] at h
    obtain ⟨m, rfl, h1⟩ := hmap hy
    exact ⟨m, _, _, rfl, h1, Or.inl h⟩
  | within hy hx h h' =>
    rw [← hd, dchild_texts] at h
    obtain ⟨m, rfl, h1⟩ := hmap hy
    exact ⟨m, _, _, rfl, h1, Or.inr ⟨_, _, h, hx, h'⟩⟩

theorem shows_same {y r : Value} {a : Data} (h : ShowsThrough y r a) : ∀ b, DSame a b → ShowsThrough y r b := by
  induction h with
  | left hy hne h hr =>
    intro b hb
    obtain ⟨b', h2, h3⟩ := dsame_step hb h
    exact .left hy hne h2 hr
  | entry hx hk =>
    intro b hb
    have := hb []
    cases b <;> simp only [dview, dhead, Option.some.injEq, reduceCtorEq] at this
    exact .entry hx (dsame_no_step hb hk)
  | inner h1 _ ih =>
    intro b hb
    obtain ⟨b', h2, h3⟩ := dsame_step hb h1
    exact .inner h2 (ih _ h3)
  | field hy hx h1 _ ih =>
    intro b hb
    obtain ⟨b', h2, h3⟩ := dsame_step hb h1
    exact .field hy hx h2 (ih _ h3)
  | within hy hx h1 _ ih =>
    intro b hb
    obtain ⟨b', h2, h3⟩ := dsame_step hb h1
    exact .within hy hx h2 (ih _ h3)

theorem shows_flat {y r : Value} {d : Data} (h2 : ∀ es, d ≠ .map es) (h3 : ∀ s, (∀ i, s ≠ .idx i) → dchild d s = none) : ¬ ShowsThrough y r d := by
  intro h
  cases h with
  | left _ _ h => rw [h3 _ (by simp)] at h; cases h
  | entry => exact h2 _ rfl
  | inner h => rw [h3 _ (by simp)] at h; cases h
  | field _ _ h => rw [h3 _ (by simp)] at h; cases h
  | within _ _ h => rw [h3 _ (by simp)] at h; cases h

theorem overlaid_ne {y r : Value} (h : r ≠ .none) : overlaid (some y) r ≠ .none := by
  intro e
  unfold overlaid at e
  dsimp only at e
  split at e
  · rename_i hm
    rw [Bool.and_eq_true] at hm
    obtain ⟨m, rfl⟩ := isMap_entries hm.1
    obtain ⟨n, rfl⟩ := isMap_entries hm.2
    rw [merge_map_map] at e; cases e
  · exact h e

/-- What shows through at one field. -/
def FieldShows (m n : Entries) (name : String) (d : Data) : Prop :=
  ∃ z, hmGet m name = some z ∧ ((hmGet n name = none ∧ z ≠ .none) ∨ ∃ x, hmGet n name = some x ∧ ShowsThrough z x d)

/-- With something on top that alone reads as `d`: the same is read, exactly if nothing shows through. -/
def Through (D : Decoder) (y r : Value) (d : Data) : Prop :=
  (¬ ShowsThrough y r d → ∃ d', D (overlaid (some y) r) = .ok d' ∧ DSame d d') ∧ ∀ d', D (overlaid (some y) r) = .ok d' → DSame d d' → ¬ ShowsThrough y r d

theorem through_same {D : Decoder} {y r : Value} {d : Data} (he : overlaid (some y) r = r) (h : D r = .ok d) (hb : ¬ ShowsThrough y r d) : Through D y r d := by
  refine ⟨fun _ => ⟨d, by rw [he]; exact h, DSame.refl d⟩, fun _ _ _ => hb⟩

/-- A `Value` as a setting: what the top has, exactly if nothing shows through. -/
theorem value_through (r : Value) : ∀ y, UniqueKeys y → UniqueKeys r → (DSame r.toData (overlaid (some y) r).toData ↔ ¬ ShowsThrough y r r.toData) := by
  have flat : ∀ (r y : Value), r.isMap = false → (DSame r.toData (overlaid (some y) r).toData ↔ ¬ ShowsThrough y r r.toData) := by
    intro r y hm
    rw [overlaid_other (Or.inr hm)]
    refine ⟨fun _ => shows_flat ?_ ?_, fun _ => DSame.refl _⟩
    · intro es h
      cases r <;> first | (simp [Value.toData] at h; done) | cases hm
    · intro s hs
      cases r <;> first | (cases s <;> first | (simp only [Value.toData]; rfl) | exact absurd rfl (hs _)) | cases hm
  induction r using Value.ind with
  | map n ih =>
    intro y hy hr
    by_cases hym : ∃ m, y = .map m
    swap
    · rw [overlaid_other (Or.inl fun m e => hym ⟨m, by cases e; rfl⟩)]
      refine ⟨fun _ h => ?_, fun _ => DSame.refl _⟩
      rw [toData_texts] at h
      obtain ⟨m, _, _, e, -⟩ := shows_texts h
      exact hym ⟨m, e⟩
    obtain ⟨m, rfl⟩ := hym
    have hum := uniqueKeys_map.1 hy
    have hun := uniqueKeys_map.1 hr
    rw [overlaid_maps, toData_texts, toData_texts]
    have step : ∀ key x, hmGet n key = some x → ∀ z, hmGet m key = some z → (DSame x.toData (overlaid (some z) x).toData ↔ ¬ ShowsThrough z x x.toData) := fun key x hx z hz =>
      ih _ (hmGet_mem hx) z (hum.2 _ (hmGet_mem hz)) (hun.2 _ (hmGet_mem hx))
    constructor
    · intro hsame hb
      obtain ⟨m', key, z, e, g1, g2⟩ := shows_texts hb
      cases e
      rw [hmGet_datas] at g2
      rcases g2 with g2 | ⟨d, x, g2, g3, g4⟩
      · have hn : hmGet n key = none := by simpa using g2
        have := dsame_no_step hsame (s := .key (.str key)) (by rw [dchild_texts, hmGet_datas, hn]; rfl)
        rw [dchild_texts, hmGet_datas, hmGet_overlaid hun.1, hn, g1] at this
        cases this
      · rw [child_key_map] at g3
        rw [g3] at g2
        cases g2
        obtain ⟨d', c1, c2⟩ := dsame_step hsame (s := .key (.str key)) (a' := x.toData) (by rw [dchild_texts, hmGet_datas, g3]; rfl)
        rw [dchild_texts, hmGet_datas, hmGet_overlaid hun.1, g3, g1] at c1
        cases c1
        exact (step key x g3 z g1).1 c2 g4
    · intro hb
      have hb : ∀ key z, hmGet m key = some z → ∃ x, hmGet n key = some x ∧ ¬ ShowsThrough z x x.toData := by
        intro key z hz
        have hc : child (.map m) (.key key) = some z := by rw [child_key_map]; exact hz
        cases hx : hmGet n key with
        | none => exact absurd (ShowsThrough.entry hc (by rw [dchild_texts, hmGet_datas, hx]; rfl)) hb
        | some x => exact ⟨x, rfl, fun h => hb (.within hc (by rw [child_key_map]; exact hx) (by rw [dchild_texts, hmGet_datas, hx]; rfl) h)⟩
      refine dsame_texts fun key => ?_
      rw [hmGet_datas, hmGet_datas, hmGet_overlaid hun.1]
      cases hz : hmGet m key with
      | none =>
        cases hx : hmGet n key with
        | none => exact ⟨by simp, fun x y h => by cases h⟩
        | some x => exact ⟨by simp [overlaid], fun a c ha hc => by cases ha; cases hc; exact DSame.refl _⟩
      | some z =>
        obtain ⟨x, hx, hb⟩ := hb key z hz
        rw [hx]
        exact ⟨by simp, fun a c ha hc => by cases ha; cases hc; exact (step key x hx z hz).2 hb⟩
  | none | boolean | integer | longInteger | uInteger | uLongInteger | float | string | array => exact fun y _ _ => flat _ y rfl

theorem through_de {structs : Nat → List (String × Ty)} {k : Nat}
    (hrefs : ∀ n y r d, UniqueKeys y → UniqueKeys r → refsAt structs k n r = .ok d → Through (refsAt structs k n) y r d) (T : Ty) :
    WellFormed T → TextMaps T → ∀ y r d, UniqueKeys y → UniqueKeys r → deAt structs k T r = .ok d → Through (deAt structs k T) y r d := by
  have flat : ∀ {T : Ty}, PlainSections T → IsSection T = false → ∀ {y r : Value} {d : Data}, deAt structs k T r = .ok d → ¬ ShowsThrough y r d → Through (deAt structs k T) y r d := by
    intro T hp hs y r d h hb
    refine through_same (overlaid_other (Or.inr ?_)) h hb
    cases hm : r.isMap with
    | false => rfl
    | true =>
      obtain ⟨m, rfl⟩ := isMap_entries hm
      exact absurd h (map_not_read hp hs m d)
  have leaf : ∀ {α : Type} {o : Outcome ModelError α} {f : α → Data} {y r : Value} {d : Data}, (o >>= fun a => Outcome.ok (f a)) = .ok d →
      (∀ a, (∀ es, f a ≠ .map es) ∧ ∀ s, (∀ i, s ≠ DStep.idx i) → dchild (f a) s = none) → ¬ ShowsThrough y r d := by
    intro α o f y r d h hf
    obtain ⟨a, -, h⟩ := bind_eq_ok.1 h
    cases h
    exact shows_flat (hf a).1 (hf a).2
  have st : ∀ (s : DStep) (P : Prop), (∀ i, s ≠ DStep.idx i) → (s = .inner → P) → (∀ n, s = .field n → P) → (∀ n, s = .key n → P) → P := by
    intro s P h a b c
    cases s with
    | inner => exact a rfl
    | idx i => exact absurd rfl (h i)
    | field n => exact b n rfl
    | key n => exact c n rfl
  induction T using Ty.ind with
  | bool | int | f32 | f64 | char | string =>
    intro _ hp y r d _ _ h
    refine flat (.leaf (by simp) (by simp) (by simp) (by simp) (by simp)) rfl h ?_
    unfold deAt at h; rw [de] at h
    exact leaf h fun a => ⟨by simp, fun s hs => by cases s <;> first | rfl | exact absurd rfl (hs _)⟩
  | unit | unitStruct =>
    intro _ hp y r d _ _ h
    refine flat (.leaf (by simp) (by simp) (by simp) (by simp) (by simp)) rfl h ?_
    unfold deAt at h
    cases r <;> simp only [de, reduceCtorEq, Outcome.ok.injEq] at h
    rw [← h]
    exact shows_flat (by simp) fun s hs => by cases s <;> first | rfl | exact absurd rfl (hs _)
  | bytes | enum => intro _ _ y r d _ _ h; unfold deAt at h; rw [de] at h; cases h
  | value =>
    intro _ _ y r d hy hr h
    have read : ∀ v : Value, UniqueKeys v → deAt structs k .value v = .ok v.toData := by
      intro v hv
      unfold deAt
      rw [de, deValue_ok v hv]; rfl
    rw [read r hr] at h
    cases h
    have hv := value_through r y hy hr
    have huu := overlaid_unique (below := some y) (by rintro y h; cases h; exact hy) hr
    unfold Through
    rw [read _ huu]
    exact ⟨fun hb => ⟨_, rfl, hv.2 hb⟩, fun d' hd' hs => by cases hd'; exact hv.1 hs⟩
  | seq | tuple | tupleStruct =>
    intro _ hp y r d _ _ h
    refine flat (.leaf (by simp) (by simp) (by simp) (by simp) (by simp)) rfl h ?_
    unfold deAt at h
    cases r <;> simp only [de, reduceCtorEq] at h
    exact leaf h fun a => ⟨by simp, fun s hs => by cases s <;> first | rfl | exact absurd rfl (hs _)⟩
  | option t ih =>
    intro hw hp y r d hy hr h
    cases hw with | option hw =>
    have hp : TextMaps t := by
      cases hp with
      | leaf _ h => exact absurd rfl (h _)
      | option h => exact h
    unfold deAt at h ih ⊢
    by_cases hz : r = .none
    · subst hz
      refine through_same (overlaid_other (Or.inr rfl)) h ?_
      simp only [de, Outcome.ok.injEq] at h
      rw [← h]
      exact shows_flat (by simp) fun s hs => by cases s <;> first | rfl | exact absurd rfl (hs _)
    rw [de] at h
    rotate_left
    · exact fun e => absurd e hz
    obtain ⟨e, he, h⟩ := bind_eq_ok.1 h
    cases h
    obtain ⟨i1, i2⟩ := ih hw hp y r e hy hr he
    have hu : ∀ d', de (refsAt structs k) (.option t) (overlaid (some y) r) = .ok d' ↔ ∃ e', de (refsAt structs k) t (overlaid (some y) r) = .ok e' ∧ d' = .some e' := by
      intro d'
      rw [de]
      · constructor
        · intro h
          obtain ⟨e', h1, h2⟩ := bind_eq_ok.1 h
          cases h2; exact ⟨e', h1, rfl⟩
        · rintro ⟨e', h1, rfl⟩; exact bind_eq_ok.2 ⟨e', h1, rfl⟩
      · exact fun e => absurd e (overlaid_ne hz)
    refine ⟨fun hb => ?_, fun d' hd' hs hb => ?_⟩
    · obtain ⟨e', h1, h2⟩ := i1 fun h => hb (.inner rfl h)
      exact ⟨.some e', (hu _).2 ⟨e', h1, rfl⟩, dsame_some h2⟩
    · obtain ⟨e', h1, rfl⟩ := (hu _).1 hd'
      obtain ⟨e'', h2, h3⟩ := dsame_step (s := .inner) hs rfl
      cases h2
      exact i2 e' h1 h3 (shows_some hb)
  | newtype t ih =>
    intro hw hp y r d hy hr h
    cases hw with | newtype hw =>
    have hp : TextMaps t := by
      cases hp with
      | leaf _ _ h => exact absurd rfl (h _)
      | newtype h => exact h
    unfold deAt at h ih ⊢
    rw [de] at h
    obtain ⟨e, he, h⟩ := bind_eq_ok.1 h
    cases h
    obtain ⟨i1, i2⟩ := ih hw hp y r e hy hr he
    have hu : ∀ d', de (refsAt structs k) (.newtype t) (overlaid (some y) r) = .ok d' ↔ ∃ e', de (refsAt structs k) t (overlaid (some y) r) = .ok e' ∧ d' = .newtypeStruct e' := by
      intro d'
      rw [de]
      constructor
      · intro h
        obtain ⟨e', h1, h2⟩ := bind_eq_ok.1 h
        cases h2; exact ⟨e', h1, rfl⟩
      · rintro ⟨e', h1, rfl⟩; exact bind_eq_ok.2 ⟨e', h1, rfl⟩
    refine ⟨fun hb => ?_, fun d' hd' hs hb => ?_⟩
    · obtain ⟨e', h1, h2⟩ := i1 fun h => hb (.inner rfl h)
      exact ⟨.newtypeStruct e', (hu _).2 ⟨e', h1, rfl⟩, dsame_newtype h2⟩
    · obtain ⟨e', h1, rfl⟩ := (hu _).1 hd'
      obtain ⟨e'', h2, h3⟩ := dsame_step (s := .inner) hs rfl
      cases h2
      exact i2 e' h1 h3 (shows_newtype hb)
  | ref n =>
    intro _ _ y r d hy hr h
    unfold deAt at h
    rw [de] at h
    obtain ⟨i1, i2⟩ := hrefs n y r d hy hr h
    refine ⟨fun hb => ?_, fun d' hd' => i2 d' (by unfold deAt at hd'; rw [de] at hd'; exact hd')⟩
    obtain ⟨d', h1, h2⟩ := i1 hb
    exact ⟨d', by unfold deAt; rw [de]; exact h1, h2⟩
  | struct fs ih =>
    intro hw hp y r d hy hr h
    cases hw with | struct hn hw =>
    have hp : ∀ f ∈ fs, TextMaps f.2 := by
      cases hp with
      | leaf _ _ _ h => exact absurd rfl (h _)
      | struct h => exact h
    unfold deAt at h ih ⊢
    obtain ⟨n, rfl⟩ := struct_map h
    have hun := uniqueKeys_map.1 hr
    obtain ⟨ds, rfl, h1⟩ := (de_struct_ok _ _ hn _ hun.1 _).1 h
    by_cases hym : ∃ m, y = .map m
    swap
    · refine through_same (overlaid_other (Or.inl fun m e => hym ⟨m, by cases e; rfl⟩)) h fun hb => ?_
      obtain ⟨m, _, _, e, -⟩ := shows_struct hb
      exact hym ⟨m, e⟩
    obtain ⟨m, rfl⟩ := hym
    have hum := uniqueKeys_map.1 hy
    have huu := overlaid_unique (below := some (.map m)) (by rintro y h; cases h; exact hy) hr
    rw [overlaid_maps] at huu
    have huu := uniqueKeys_map.1 huu
    unfold Through
    rw [overlaid_maps]
    have hds : (ds.map Prod.fst) = fs.map Prod.fst := (fields_of h1).1
    have hdn : (ds.map Prod.fst).Nodup := by rw [hds]; exact hn
    obtain ⟨l1, h2⟩ := forall2_index h1
    -- one field
    have one : ∀ (i : Nat) f nd, fs[i]? = some f → ds[i]? = some nd →
        (¬ FieldShows m n f.1 nd.2 → ∃ d', (match hmGet (mergeEntries m n) f.1 with | some v => de (refsAt structs k) f.2 v | none => missingField f.1 f.2) = .ok d' ∧ DSame nd.2 d') ∧
        ∀ d', (match hmGet (mergeEntries m n) f.1 with | some v => de (refsAt structs k) f.2 v | none => missingField f.1 f.2) = .ok d' → DSame nd.2 d' →
          ¬ FieldShows m n f.1 nd.2 := by
      intro i f nd hf hd
      have hmem := List.mem_of_getElem? hf
      have h3 := (h2 i f nd hf hd).2
      rw [hmGet_overlaid hun.1]
      cases hg : hmGet n f.1 with
      | none =>
        rw [hg] at h3
        obtain ⟨e1, u, e2⟩ := missing_cases h3
        cases hgm : hmGet m f.1 with
        | none => exact ⟨fun _ => ⟨_, h3, DSame.refl _⟩, fun d' _ _ hb => by obtain ⟨z, hz, -⟩ := hb; rw [hgm] at hz; cases hz⟩
        | some y =>
          rw [e1, e2]
          dsimp only
          refine ⟨fun hb => ?_, fun d' hd' hs hb => ?_⟩
          · have hy0 : y = .none := by
              by_contra hne
              exact hb ⟨y, hgm, Or.inl ⟨hg, hne⟩⟩
            subst hy0
            exact ⟨.none, by rw [de], DSame.refl _⟩
          · obtain ⟨z, hz, hb⟩ := hb
            rw [hgm] at hz
            cases hz
            have : d' = .none := by
              have := hs []
              cases d' <;> simp only [dview, dhead, Option.some.injEq, reduceCtorEq] at this
              rfl
            subst this
            rcases hb with ⟨-, hne⟩ | ⟨x, hx, -⟩
            · rw [de] at hd'
              · obtain ⟨a, -, h⟩ := bind_eq_ok.1 hd'
                cases h
              · exact fun e => absurd e hne
            · rw [hg] at hx; cases hx
      | some xv =>
        rw [hg] at h3
        dsimp only at h3 ⊢
        cases hgm : hmGet m f.1 with
        | none => exact ⟨fun _ => ⟨_, h3, DSame.refl _⟩, fun d' _ _ hb => by obtain ⟨z, hz, -⟩ := hb; rw [hgm] at hz; cases hz⟩
        | some y =>
          obtain ⟨i1, i2⟩ := ih f hmem (hw f hmem) (hp f hmem) y xv nd.2 (hum.2 _ (hmGet_mem hgm)) (hun.2 _ (hmGet_mem hg)) h3
          refine ⟨fun hb => i1 fun h => hb ⟨y, hgm, Or.inr ⟨xv, hg, h⟩⟩, fun d' hd' hs hb => ?_⟩
          obtain ⟨z, hz, hb⟩ := hb
          rw [hgm] at hz
          cases hz
          rcases hb with ⟨hg', -⟩ | ⟨x, hx, hb⟩
          · rw [hg] at hg'; cases hg'
          · rw [hg] at hx
            cases hx
            exact i2 d' hd' hs hb
    have names : ∀ (i : Nat) f nd, fs[i]? = some f → ds[i]? = some nd → nd.1 = f.1 := fun i f nd hf hd => (h2 i f nd hf hd).1
    refine ⟨fun hb => ?_, fun d' hd' hs hb => ?_⟩
    · have each : ∀ (i : Nat) (f : String × Ty) (nd : String × Data), fs[i]? = some f → ds[i]? = some nd → ∃ d', (match hmGet (mergeEntries m n) f.1 with | some v => de (refsAt structs k) f.2 v | none => missingField f.1 f.2) = .ok d' ∧ DSame nd.2 d' := by
        intro i f nd hf hd
        refine (one i f nd hf hd).1 fun hc => hb ?_
        have hdf : dchild (.struct ds) (.field f.1) = some nd.2 := by rw [dchild_struct, ← names i f nd hf hd]; exact hmGet_of_mem' hdn (List.mem_of_getElem? hd)
        obtain ⟨z, hz, hc⟩ := hc
        rcases hc with ⟨hc, hne⟩ | ⟨x, hx, hc⟩
        · exact .left (name := f.1) (by rw [child_key_map]; exact hz) hne hdf (by rw [child_key_map]; exact hc)
        · exact .field (name := f.1) (by rw [child_key_map]; exact hz) (by rw [child_key_map]; exact hx) hdf hc
      have all : ∀ a ∈ fs.zip ds, ∃ nd' : String × Data, nd'.1 = a.1.1 ∧ (match hmGet (mergeEntries m n) a.1.1 with | some v => de (refsAt structs k) a.1.2 v | none => missingField a.1.1 a.1.2) = .ok nd'.2 ∧ DSame a.2.2 nd'.2 := by
        intro a ha
        obtain ⟨i, hi⟩ := List.mem_iff_getElem?.1 ha
        rw [List.getElem?_zip_eq_some] at hi
        obtain ⟨d', g1, g2⟩ := each i a.1 a.2 hi.1 hi.2
        exact ⟨(a.1.1, d'), rfl, g1, g2⟩
      obtain ⟨ds', hds'⟩ := forall2_exists all
      obtain ⟨l2, h4⟩ := forall2_index hds'
      have hzl : (fs.zip ds).length = fs.length := by rw [List.length_zip]; omega
      refine ⟨.struct ds', (de_struct_ok _ _ hn _ huu.1 _).2 ⟨ds', rfl, forall2_of_index (by omega) fun i f nd' hf hd' => ?_⟩, dsame_struct (forall2_of_index (by omega) fun i nd nd' hd hd' => ?_)⟩
      · obtain ⟨nd, hnd⟩ := get_of_lt (show i < ds.length by have := lt_of_get hf; omega)
        have := h4 i (f, nd) nd' (by rw [List.getElem?_zip_eq_some]; exact ⟨hf, hnd⟩) hd'
        exact ⟨this.1, this.2.1⟩
      · obtain ⟨f, hf⟩ := get_of_lt (show i < fs.length by have := lt_of_get hd; omega)
        have := h4 i (f, nd) nd' (by rw [List.getElem?_zip_eq_some]; exact ⟨hf, hd⟩) hd'
        exact ⟨(names i f nd hf hd).trans this.1.symm, this.2.2⟩
    · obtain ⟨m', name, d, e, g2, g3⟩ := shows_struct hb
      cases e
      obtain ⟨ds', rfl, h1'⟩ := (de_struct_ok _ _ hn _ huu.1 _).1 hd'
      obtain ⟨l1', h2'⟩ := forall2_index h1'
      obtain ⟨i, hi⟩ := List.mem_iff_getElem?.1 (hmGet_mem g2)
      obtain ⟨f, hf⟩ := get_of_lt (show i < fs.length by have := lt_of_get hi; omega)
      obtain ⟨nd', hnd'⟩ := get_of_lt (show i < ds'.length by have := lt_of_get hi; omega)
      have hname : name = f.1 := names i f _ hf hi
      obtain ⟨e1, e2⟩ := h2' i f nd' hf hnd'
      have hdn' : (ds'.map Prod.fst).Nodup := by rw [(fields_of h1').1]; exact hn
      obtain ⟨d'', c1, c2⟩ := dsame_step (s := .field name) hs (by rw [dchild_struct]; exact g2)
      rw [dchild_struct, hname, ← e1, hmGet_of_mem' hdn' (List.mem_of_getElem? hnd')] at c1
      cases c1
      refine (one i f (name, d) hf hi).2 nd'.2 e2 c2 ?_
      rw [← hname]
      unfold FieldShows
      simpa only [child_key_map] using g3
  | map kt t ih =>
    intro hw hp y r d hy hr h
    cases hw with | map hw =>
    have hp : kt = .string ∧ TextMaps t := by
      cases hp with
      | leaf h => exact absurd rfl (h _ _)
      | map h => exact ⟨rfl, h⟩
    obtain ⟨rfl, hpt⟩ := hp
    unfold deAt at h ih ⊢
    have hrm : ∃ n, r = .map n := by
      cases r <;> simp only [de, reduceCtorEq] at h
      exact ⟨_, rfl⟩
    obtain ⟨n, rfl⟩ := hrm
    have hun := uniqueKeys_map.1 hr
    obtain ⟨es, rfl, h1⟩ := (text_map_ok hun.1).1 h
    have hkeys := text_keys (fun x d => de (refsAt structs k) t x = .ok d) h1
    have hen : (es.map Prod.fst).Nodup := by rw [hkeys]; exact hun.1
    by_cases hym : ∃ m, y = .map m
    swap
    · refine through_same (overlaid_other (Or.inl fun m e => hym ⟨m, by cases e; rfl⟩)) h fun hb => ?_
      obtain ⟨m, _, _, e, -⟩ := shows_texts hb
      exact hym ⟨m, e⟩
    obtain ⟨m, rfl⟩ := hym
    have hum := uniqueKeys_map.1 hy
    have huu := overlaid_unique (below := some (.map m)) (by rintro y h; cases h; exact hy) hr
    rw [overlaid_maps] at huu
    have huu := uniqueKeys_map.1 huu
    unfold Through
    rw [overlaid_maps]
    -- what an entry on top alone reads as
    have top : ∀ key d, hmGet es key = some d → ∃ x, hmGet n key = some x ∧ de (refsAt structs k) t x = .ok d := by
      intro key d hd
      obtain ⟨a, ha, a1, a2⟩ := forall2_right h1 _ (hmGet_mem hd)
      have := hmGet_of_mem' hun.1 ha
      rw [← a1] at this
      exact ⟨a.2, this, a2⟩
    refine ⟨fun hb => ?_, fun d' hd' hs hb => ?_⟩
    · have hall : ∀ key x, hmGet m key = some x → ∃ d, hmGet es key = some d ∧ ∀ u, hmGet n key = some u → ¬ ShowsThrough x u d := by
        intro key x hx
        have hc : child (.map m) (.key key) = some x := by rw [child_key_map]; exact hx
        cases hg : hmGet es key with
        | none => exact absurd (ShowsThrough.entry hc (by rw [dchild_texts]; exact hg)) hb
        | some d => exact ⟨d, rfl, fun u hu h => hb (.within hc (by rw [child_key_map]; exact hu) (by rw [dchild_texts]; exact hg) h)⟩
      have hkey : ∀ key, key ∈ (mergeEntries m n).map Prod.fst ↔ key ∈ es.map Prod.fst := by
        intro key
        rw [keys_mergeEntries n m hun.1, hkeys, List.mem_append, List.mem_filter]
        constructor
        · rintro (h | h)
          · cases hg : hmGet m key with
            | none => exact absurd h (hmGet_eq_none.1 hg)
            | some x =>
              obtain ⟨d, h1, -⟩ := hall key x hg
              rw [← hkeys]
              exact List.mem_map_of_mem (hmGet_mem h1)
          · exact h.1
        · intro h
          by_cases hm : key ∈ m.map Prod.fst
          · exact Or.inl hm
          · exact Or.inr ⟨h, by simpa using hm⟩
      obtain ⟨es', he'⟩ := forall2_exists (l := mergeEntries m n) (R := fun (e : String × Value) (nd : String × Data) => nd.1 = e.1 ∧ de (refsAt structs k) t e.2 = .ok nd.2 ∧
          ∃ d, hmGet es e.1 = some d ∧ DSame d nd.2) (by
        intro e he
        obtain ⟨o, ho, hoe⟩ := List.mem_map.1 ((hkey e.1).1 (List.mem_map_of_mem he))
        have hd := hmGet_of_mem' hen ho
        rw [hoe] at hd
        obtain ⟨x, hx, hdx⟩ := top _ _ hd
        have hg := hmGet_of_mem' huu.1 he
        rw [hmGet_overlaid hun.1, hx] at hg
        dsimp only at hg
        rw [Option.some.injEq] at hg
        cases hm : hmGet m e.1 with
        | none =>
          rw [hm] at hg
          exact ⟨(e.1, o.2), rfl, by rw [← hg]; exact hdx, o.2, hd, DSame.refl _⟩
        | some z =>
          rw [hm] at hg
          obtain ⟨d, c1, c2⟩ := hall _ _ hm
          rw [hd] at c1
          cases c1
          obtain ⟨d', g1, g2⟩ := (ih hw hpt z x o.2 (hum.2 _ (hmGet_mem hm)) (hun.2 _ (hmGet_mem hx)) hdx).1 (c2 x hx)
          exact ⟨(e.1, d'), rfl, by rw [← hg]; exact g1, o.2, hd, g2⟩)
      have hk' := text_keys (fun _ _ => True) (he'.imp fun _ _ h => ⟨h.1, trivial⟩)
      refine ⟨_, (text_map_ok huu.1).2 ⟨es', rfl, he'.imp fun _ _ h => ⟨h.1, h.2.1⟩⟩, dsame_texts fun key => ⟨?_, fun x y hx hy => ?_⟩⟩
      · rw [hmGet_eq_none, hmGet_eq_none, hk', hkey]
      · obtain ⟨e, -, e1, -, d, e2, e3⟩ := forall2_right he' _ (hmGet_mem hy)
        rw [← e1, hx] at e2
        cases e2
        exact e3
    · obtain ⟨es', rfl, h1'⟩ := (text_map_ok huu.1).1 hd'
      obtain ⟨m', key, x, e, g1, g2⟩ := shows_texts hb
      cases e
      rcases g2 with g2 | ⟨d, xn, g2, gx, g3⟩
      · have h5 := dsame_no_step hs (s := .key (.str key)) (by rw [dchild_texts]; exact g2)
        rw [dchild_texts, hmGet_eq_none, text_keys (fun x d => de (refsAt structs k) t x = .ok d) h1', keys_mergeEntries n m hun.1, List.mem_append] at h5
        exact h5 (Or.inl (List.mem_map_of_mem (hmGet_mem g1)))
      · obtain ⟨d', c1, c2⟩ := dsame_step hs (s := .key (.str key)) (by rw [dchild_texts]; exact g2)
        rw [dchild_texts] at c1
        obtain ⟨z, hzn, hdz⟩ := top key d g2
        obtain ⟨a, ha, a1, a2⟩ := forall2_right h1' _ (hmGet_mem c1)
        have hg := hmGet_of_mem' huu.1 ha
        rw [hmGet_overlaid hun.1, ← a1, hzn, g1] at hg
        dsimp only at hg
        rw [Option.some.injEq] at hg
        refine (ih hw hpt x z d (hum.2 _ (hmGet_mem g1)) (hun.2 _ (hmGet_mem hzn)) hdz).2 d' (by rw [hg]; exact a2) c2 (by rw [child_key_map, hzn] at gx; cases gx; exact g3)

theorem through_refs {structs : Nat → List (String × Ty)} (hs : ∀ n, WellFormed (.struct (structs n))) (hsm : ∀ n, TextMaps (.struct (structs n))) (k : Nat) :
    ∀ n y r d, UniqueKeys y → UniqueKeys r → refsAt structs k n r = .ok d → Through (refsAt structs k n) y r d := by
  induction k with
  | zero => intro n y r d _ _ h; cases h
  | succ k ih => intro n y r d hy hr h; exact through_de ih _ (hs n) (hsm n) y r d hy hr h


/-! ## The theorems -/

/-- **C148.** Layers that say `v`, and any layer on top of them, from which alone the settings `d` can be read. The program reads these settings from all of them together exactly if nothing of the
layers below shows through. A setting that the layer on top says is `None` stays unset. -/
theorem C148_top (b : Build) (fm : Formats) (calls : List RegCall) (w : World) (skip : Bool) (v v' : Value)
    (h : (register b fm calls).buildValue w skip = .ok v) (hp : ∀ e ∈ firsts (offers b fm calls), Proper e.2)
    (call : RegCall) (e : String × Layer) (ho : call.offer b fm = some e) (hnew : ∀ a ∈ offers b fm calls, a.1 ≠ e.1)
    (x : Value) (hx : e.2.readValue w = .ok x) (hxu : UniqueKeys x)
    (h' : (register b fm (calls ++ [call])).buildValue w skip = .ok v')
    (structs : Nat → List (String × Ty)) (hs : ∀ n, WellFormed (.struct (structs n))) (hsm : ∀ n, TextMaps (.struct (structs n)))
    (fs : List (String × Ty)) (hT : WellFormed (.struct fs)) (hTm : TextMaps (.struct fs)) (k : Nat) (d : Data) (hd : deAt structs k (.struct fs) x = .ok d) :
    (∃ d', deAt structs k (.struct fs) v' = .ok d' ∧ DSame d d') ↔ ¬ ShowsThrough v x d := by
  obtain ⟨hvm, hvu⟩ := C08_map b fm calls w skip v h
  obtain ⟨n, rfl⟩ := struct_map hd
  rw [C14_add_last b fm calls call w skip e _ v ho hnew hx h] at h'
  cases h'
  obtain ⟨h1, h2⟩ := through_de (through_refs hs hsm k) _ hT hTm v (.map n) d (hvu hp) hxu hd
  rw [overlaid_top hvm rfl] at h1 h2
  exact ⟨fun ⟨d', e1, e2⟩ => h2 d' e1 e2, h1⟩

/-- Something that `d` has is left out in `r`. -/
inductive LeftOut : Value → Data → Prop
  | field {r d d' name} : dchild d (.field name) = some d' → child r (.key name) = none → LeftOut r d
  | entry {r d d' k} : dchild d (.key (.str k)) = some d' → child r (.key k) = none → LeftOut r d
  | inner {r d d'} : dchild d .inner = some d' → LeftOut r d' → LeftOut r d
  | inField {r d x d' name} : child r (.key name) = some x → dchild d (.field name) = some d' → LeftOut x d' → LeftOut r d
  | inEntry {r d x d' k} : child r (.key k) = some x → dchild d (.key (.str k)) = some d' → LeftOut x d' → LeftOut r d

theorem entry_of_shows {y r : Value} {d : Data} (h : ShowsThrough y r d) : ¬ LeftOut r d → EntryBack y d := by
  induction h with
  | left _ _ h hr => exact fun hl => absurd (LeftOut.field h hr) hl
  | entry hy h => exact fun _ => .entry hy h
  | inner h _ ih => exact fun hl => .inner h (ih fun h' => hl (.inner h h'))
  | field hy hx h _ ih => exact fun hl => .field hy h (ih fun h' => hl (.inField hx h h'))
  | within hy hx h _ ih => exact fun hl => .within hy h (ih fun h' => hl (.inEntry hx h h'))

theorem shows_of_entry {y : Value} {d : Data} (h : EntryBack y d) : ∀ r, ¬ LeftOut r d → ShowsThrough y r d := by
  induction h with
  | entry hy h => exact fun r _ => .entry hy h
  | inner h _ ih => exact fun r hl => .inner h (ih r fun h' => hl (.inner h h'))
  | @field _ _ _ _ name hy h _ ih =>
    intro r hl
    cases hx : child r (.key name) with
    | none => exact absurd (LeftOut.field h hx) hl
    | some x => exact .field hy hx h (ih x fun h' => hl (.inField hx h h'))
  | @within _ _ _ _ key hy h _ ih =>
    intro r hl
    cases hx : child r (.key key) with
    | none => exact absurd (LeftOut.entry h hx) hl
    | some x => exact .within hy hx h (ih x fun h' => hl (.inEntry hx h h'))

theorem leftOut_flat {r : Value} {d : Data} (h3 : ∀ s, (∀ i, s ≠ .idx i) → dchild d s = none) : ¬ LeftOut r d := by
  intro h
  cases h with
  | field h => rw [h3 _ (by simp)] at h; cases h
  | entry h => rw [h3 _ (by simp)] at h; cases h
  | inner h => rw [h3 _ (by simp)] at h; cases h
  | inField _ h => rw [h3 _ (by simp)] at h; cases h
  | inEntry _ h => rw [h3 _ (by simp)] at h; cases h

theorem leftOut_some {r : Value} {d : Data} (h : LeftOut r (.some d)) : LeftOut r d := by
  cases h with
  | field h => cases h
  | entry h => cases h
  | inner h h' => cases h; exact h'
  | inField _ h => cases h
  | inEntry _ h => cases h

theorem leftOut_newtype {r : Value} {d : Data} (h : LeftOut r (.newtypeStruct d)) : LeftOut r d := by
  cases h with
  | field h => cases h
  | entry h => cases h
  | inner h h' => cases h; exact h'
  | inField _ h => cases h
  | inEntry _ h => cases h

theorem leftOut_struct {r : Value} {ds : List (String × Data)} (h : LeftOut r (.struct ds)) :
    ∃ name d, hmGet ds name = some d ∧ (child r (.key name) = none ∨ ∃ x, child r (.key name) = some x ∧ LeftOut x d) := by
  cases h with
  | field h hr => rw [dchild_struct] at h; exact ⟨_, _, h, Or.inl hr⟩
  | entry h => cases h
  | inner h => cases h
  | inField hx h h' => rw [dchild_struct] at h; exact ⟨_, _, h, Or.inr ⟨_, hx, h'⟩⟩
  | inEntry _ h => cases h

theorem leftOut_map {r : Value} {es : List (Data × Data)} (h : LeftOut r (.map es)) :
    ∃ k d, dchild (.map es) (.key (.str k)) = some d ∧ (child r (.key k) = none ∨ ∃ x, child r (.key k) = some x ∧ LeftOut x d) := by
  cases h with
  | field h => cases h
  | entry h hr => exact ⟨_, _, h, Or.inl hr⟩
  | inner h => cases h
  | inField _ h => cases h
  | inEntry hx h h' => exact ⟨_, _, h, Or.inr ⟨_, hx, h'⟩⟩

theorem leftOut_child {x r : Value} (ha : Alike x r) {key : String} {z : Value} (h : child x (.key key) = some z) : ∃ z', child r (.key key) = some z' ∧ Alike z z' := by
  cases x with
  | map n =>
    obtain ⟨n', rfl⟩ := isMap_entries (show r.isMap = true by rw [← alike_isMap ha]; rfl)
    rw [child_key_map] at h ⊢
    rcases alike_entries ha key with ⟨h1, -⟩ | ⟨a, c, h1, h2, h3⟩
    · rw [h] at h1; cases h1
    · rw [h] at h1; cases h1
      exact ⟨c, h2, h3⟩
  | _ => cases h

/-- What is serialized leaves nothing out. -/
theorem all_named {structs : Nat → List (String × Ty)} (hs : ∀ n, Survives (.struct (structs n))) (hsm : ∀ n, PlainSections (.struct (structs n))) {T : Ty} {d : Data}
    (h : HasType structs T d) : Survives T → PlainSections T → ∀ x, ser d = .ok x → ∀ r, Alike x r → ¬ LeftOut r d := by
  induction h with
  | bool | int | f32 | f64 | char | string | unit | unitStruct | bytes | none | seq | tuple | tupleStruct =>
    exact fun _ _ _ _ _ _ => leftOut_flat fun s hs => by cases s <;> first | rfl | exact absurd rfl (hs _)
  | value => intro _ hp; cases hp with | leaf _ h => exact absurd rfl h
  | some _ ih =>
    intro hv hp x hx r ha hl
    cases hv with | option hv =>
    rw [ser] at hx
    exact ih hv (by
      cases hp with
      | leaf _ _ h => exact absurd rfl (h _)
      | option h => exact h) x hx r ha (leftOut_some hl)
  | newtype _ ih =>
    intro hv hp x hx r ha hl
    cases hv with | newtype hv =>
    rw [ser] at hx
    exact ih hv (by
      cases hp with
      | leaf _ _ _ h => exact absurd rfl (h _)
      | newtype h => exact h) x hx r ha (leftOut_newtype hl)
  | ref _ ih => intro _ _ x hx r ha; exact ih (hs _) (hsm _) x hx r ha
  | @struct fs ds hn _ ih =>
    intro hv hp x hx r ha hl
    cases hv with | struct hnd hv =>
    have hp : ∀ f ∈ fs, PlainSections f.2 := by
      cases hp with
      | leaf _ _ _ _ h => exact absurd rfl (h _)
      | struct h => exact h
    obtain ⟨name, d, h1, h2⟩ := leftOut_struct hl
    obtain ⟨i, hi⟩ := List.mem_iff_getElem?.1 (hmGet_mem h1)
    obtain ⟨f, hf⟩ := get_of_lt (show i < fs.length by
      have := congrArg List.length hn
      simp only [List.length_map] at this
      have := lt_of_get hi; omega)
    obtain ⟨z, g1, g2⟩ := ((C41_layout "" .unit [] ds [] (by rw [hn]; exact hnd) x).2.2.2.1 hx).2.2.1 _ (hmGet_mem h1)
    obtain ⟨z', g3, g4⟩ := leftOut_child ha g2
    rcases h2 with h2 | ⟨u, h2, h3⟩
    · rw [h2] at g3; cases g3
    · rw [h2] at g3
      cases g3
      exact ih i f (name, d) hf hi (hv f (List.mem_of_getElem? hf)) (hp f (List.mem_of_getElem? hf)) z g1 _ g4 h3
  | @map kt t es hk hn _ ih =>
    intro hv hp x hx r ha hl
    cases hv with | map hg hv =>
    have hp : PlainSections t := by
      cases hp with
      | leaf h => exact absurd rfl (h _ _)
      | map h => exact h
    obtain ⟨key, d, h1, h2⟩ := leftOut_map hl
    rw [dchild_key] at h1
    obtain ⟨e, he, rfl⟩ := Option.map_eq_some_iff.1 h1
    have hek : e.1 = .str key := by simpa using List.find?_some he
    have hem := List.mem_of_find?_eq_some he
    obtain ⟨z, g1, g2, -⟩ := (C42_map_keys kt hg es hk hn x hx).2.2.1 e hem
    rw [hek] at g2
    obtain ⟨z', g3, g4⟩ := leftOut_child ha g2
    dsimp only [keyText] at g3
    rcases h2 with h2 | ⟨u, h2, h3⟩
    · rw [h2] at g3; cases g3
    · rw [h2] at g3
      cases g3
      exact ih e hem hv hp z g1 _ g4 h3

theorem plainSections_of {T : Ty} (h : TextMaps T) : Concrete T → PlainSections T := by
  induction h with
  | leaf h1 h2 h3 h4 =>
    intro hc
    refine .leaf h1 ?_ h2 h3 h4
    rintro rfl
    cases hc with | leaf h => simp at h
  | option _ ih => intro hc; cases hc with | leaf h => simp at h | option h => exact .option (ih h)
  | newtype _ ih => intro hc; cases hc with | leaf h => simp at h | newtype h => exact .newtype (ih h)
  | struct _ ih => intro hc; cases hc with | leaf h => simp at h | struct h => exact .struct fun f hf => ih f hf (h f hf)
  | map _ ih => intro hc; cases hc with | leaf h => simp at h | map h => exact .map (ih h)

/-- **C148.** A program serializes settings and saves them to a file, which is its last layer, in a format that gives back what was saved (as JSON does, where `None` is `null`). From then on it reads
them back — from all its layers, whatever the others say now — exactly if no entry that was removed from a map is there below: settings that are unset stay unset. -/
theorem C148_saved {cd : Codec} (structs : Nat → List (String × Ty))
    (hs : ∀ n, Survives (.struct (structs n))) (hsc : ∀ n, Concrete (.struct (structs n))) (hsm : ∀ n, TextMaps (.struct (structs n)))
    (fs : List (String × Ty)) (hT : Survives (.struct fs)) (hTc : Concrete (.struct fs)) (hTm : TextMaps (.struct fs))
    (d : Data) (hd : HasType structs (.struct fs) d) (x : Value) (hx : ser d = .ok x)
    (hcd : ∀ text, cd.print x.toData = .ok text → ∃ doc, cd.parse text = .ok doc ∧ Presents x doc) (w w' : World) (path : OsStr)
    (hok : (Layer.newFile (textHandler cd) path).writeValue w x = (.ok (), w')) (hread : ∀ bs code wr, w.disk (w.locate path) ≠ .file bs (some code) wr)
    (b : Build) (fm : Formats) (hf : FormatOf b fm path cd) (calls : List RegCall) (name : String) (hnew : ∀ a ∈ offers b fm calls, a.1 ≠ name)
    (w2 : World) (hsame : (Layer.newFile (textHandler cd) path).readValue w2 = (Layer.newFile (textHandler cd) path).readValue w')
    (skip : Bool) (v : Value) (h : (register b fm calls).buildValue w2 skip = .ok v) (hp : ∀ e ∈ firsts (offers b fm calls), Proper e.2) :
    ∃ v', (register b fm (calls ++ [.file name path])).buildValue w2 skip = .ok v' ∧
      ((∃ k d', deAt structs k (.struct fs) v' = .ok d' ∧ DSame d d') ↔ ¬ EntryBack v d) ∧
      (¬ EntryBack v d → ∃ k0, ∀ k, k0 ≤ k → ∃ d', deAt structs k (.struct fs) v' = .ok d' ∧ DSame d d') := by
  have hxu := uniqueKeys_ser d x hx
  have hprint : ∃ text, cd.print x.toData = .ok text := by
    rcases (C57_write cd w path x _ w' hok).2 with ⟨msg, -, he, -⟩ | ⟨text, _, hp, -⟩ | ⟨text, _, _, _, hp, -⟩ | ⟨text, _, hp, -⟩
    · cases he
    all_goals exact ⟨text, hp⟩
  obtain ⟨text, hpr⟩ := hprint
  obtain ⟨doc, hq, hpres⟩ := hcd text hpr
  obtain ⟨r, h1, hal, hur⟩ := C66_reads x hxu doc hpres
  have hr := C57_read_back cd w w' path x r text doc hok hread hpr hq h1
  obtain ⟨k0, hk0⟩ := back hs hd hT x hx x (Same.refl x) hxu
  have alone : ∀ k, k0 ≤ k → ∃ d1, deAt structs k (.struct fs) r = .ok d1 ∧ DSame d d1 := by
    intro k hk
    obtain ⟨d1, e1, e2⟩ := hk0 k hk
    obtain ⟨c1, c2⟩ := C66_deserialize structs (fun n => wellFormed_of_survives (hs n)) hsc _ (wellFormed_of_survives hT) hTc k x r hxu hur hal (noClash_ser hs hd hT x hx)
    obtain ⟨d', e3⟩ := c1.1 ⟨d1, e1⟩
    exact ⟨d', e3, DSame.trans e2 (c2 d1 d' e1 e3)⟩
  rw [hr] at hsame
  have hadd := C14_add_last b fm calls (.file name path) w2 skip (name, .file (textHandler cd) path) r v (TextFmt.offer hf name) hnew hsame h
  have hlo := all_named hs (fun n => plainSections_of (hsm n) (hsc n)) hd hT (plainSections_of hTm hTc) x hx r hal
  have main : ∀ k, k0 ≤ k → ((∃ d', deAt structs k (.struct fs) (v.merge r) = .ok d' ∧ DSame d d') ↔ ¬ EntryBack v d) := by
    intro k hk
    obtain ⟨d1, e1, e2⟩ := alone k hk
    have := C148_top b fm calls w2 skip v _ h hp (.file name path) (name, .file (textHandler cd) path) (TextFmt.offer hf name) hnew r hsame hur hadd structs
      (fun n => wellFormed_of_survives (hs n)) hsm fs (wellFormed_of_survives hT) hTm k d1 e1
    constructor
    · rintro ⟨d', g1, g2⟩ hb
      exact this.1 ⟨d', g1, DSame.trans (DSame.symm e2) g2⟩ (shows_same (shows_of_entry hb r hlo) _ e2)
    · intro hb
      obtain ⟨d', g1, g2⟩ := this.2 fun hb' => hb (entry_of_shows (shows_same hb' _ (DSame.symm e2)) hlo)
      exact ⟨d', g1, DSame.trans e2 g2⟩
  refine ⟨_, hadd, ⟨?_, fun hb => ?_⟩, fun hb => ⟨k0, fun k hk => (main k hk).2 hb⟩⟩
  · rintro ⟨k, d', g1, g2⟩
    exact (main (max k k0) (by omega)).1 ⟨d', reads_more g1 (by omega), g2⟩
  · obtain ⟨d', h⟩ := (main k0 (le_refl _)).2 hb
    exact ⟨k0, d', h⟩

/-- **C148.** The same with further layers above the file, if these say nothing about anything the settings type looks at. -/
theorem C148_under {cd : Codec} (structs : Nat → List (String × Ty))
    (hs : ∀ n, Survives (.struct (structs n))) (hsc : ∀ n, Concrete (.struct (structs n))) (hsm : ∀ n, TextMaps (.struct (structs n)))
    (fs : List (String × Ty)) (hT : Survives (.struct fs)) (hTc : Concrete (.struct fs)) (hTm : TextMaps (.struct fs))
    (d : Data) (hd : HasType structs (.struct fs) d) (x : Value) (hx : ser d = .ok x)
    (hcd : ∀ text, cd.print x.toData = .ok text → ∃ doc, cd.parse text = .ok doc ∧ Presents x doc) (w w' : World) (path : OsStr)
    (hok : (Layer.newFile (textHandler cd) path).writeValue w x = (.ok (), w')) (hread : ∀ bs code wr, w.disk (w.locate path) ≠ .file bs (some code) wr)
    (b : Build) (fm : Formats) (hf : FormatOf b fm path cd) (calls : List RegCall) (name : String) (hnew : ∀ a ∈ offers b fm calls, a.1 ≠ name)
    (w2 : World) (hsame : (Layer.newFile (textHandler cd) path).readValue w2 = (Layer.newFile (textHandler cd) path).readValue w')
    (skip : Bool) (v : Value) (h : (register b fm calls).buildValue w2 skip = .ok v) (hp : ∀ e ∈ firsts (offers b fm calls), Proper e.2)
    (more : List RegCall) (hmp : ∀ a ∈ offers b fm more, Proper a.2) (hno : ∀ a ∈ offers b fm more, ∀ p, Looks structs (.struct fs) p → p ≠ [] → ¬ Speaks w2 a.2 p)
    (v' : Value) (h' : (register b fm (calls ++ .file name path :: more)).buildValue w2 skip = .ok v') (hc : ¬ KeyClash structs (.struct fs) v') :
    (∃ k d', deAt structs k (.struct fs) v' = .ok d' ∧ DSame d d') ↔ ¬ EntryBack v d := by
  obtain ⟨v0, h0, hiff, -⟩ := C148_saved structs hs hsc hsm fs hT hTc hTm d hd x hx hcd w w' path hok hread b fm hf calls name hnew w2 hsame skip v h hp
  rw [← hiff]
  exact read_under hf hp h0 hmp (fun n => wellFormed_of_survives (hs n)) (wellFormed_of_survives hT) hno h' hc d

/-! ## Nothing else on top helps -/

theorem entry_some {y : Value} {d : Data} (h : EntryBack y (.some d)) : EntryBack y d := by
  cases h with
  | inner h h' => cases h; exact h'
  | field _ h => cases h
  | within _ h => cases h

theorem entry_newtype {y : Value} {d : Data} (h : EntryBack y (.newtypeStruct d)) : EntryBack y d := by
  cases h with
  | inner h h' => cases h; exact h'
  | field _ h => cases h
  | within _ h => cases h

theorem entry_struct {y : Value} {ds : List (String × Data)} (h : EntryBack y (.struct ds)) :
    ∃ m name x d, y = .map m ∧ hmGet m name = some x ∧ hmGet ds name = some d ∧ EntryBack x d := by
  cases h with
  | inner h => cases h
  | field hx h h' =>
    rw [dchild_struct] at h
    cases y with
    | map m => rw [child_key_map] at hx; exact ⟨m, _, _, _, rfl, hx, h, h'⟩
    | _ => cases hx
  | within _ h => cases h

theorem entry_texts {y : Value} {es : List (String × Data)} (h : EntryBack y (.map (es.map fun e => (.str e.1, e.2)))) :
    ∃ m key x, y = .map m ∧ hmGet m key = some x ∧ (hmGet es key = none ∨ ∃ d, hmGet es key = some d ∧ EntryBack x d) := by
  generalize hd : Data.map (es.map fun e => (.str e.1, e.2)) = d at h
  have hmap : ∀ {key : String} {x : Value}, child y (.key key) = some x → ∃ m, y = .map m ∧ hmGet m key = some x := by
    intro key x hx
    cases y with
    | map m => rw [child_key_map] at hx; exact ⟨m, rfl, hx⟩
    | _ => cases hx
  cases h with
  | inner h => rw [← hd] at h; cases h
  | field _ h => rw [← hd] at h; cases h
  | entry hx h =>
    rw [← hd, dchild_texts] at h
    obtain ⟨m, rfl, h1⟩ := hmap hx
    exact ⟨m, _, _, rfl, h1, Or.inl h⟩
  | within hx h h' =>
    rw [← hd, dchild_texts] at h
    obtain ⟨m, rfl, h1⟩ := hmap hx
    exact ⟨m, _, _, rfl, h1, Or.inr ⟨_, h, h'⟩⟩

theorem entry_same {y : Value} {a : Data} (h : EntryBack y a) : ∀ b, DSame a b → EntryBack y b := by
  induction h with
  | entry hx hk =>
    intro b hb
    have := hb []
    cases b <;> simp only [dview, dhead, Option.some.injEq, reduceCtorEq] at this
    exact .entry hx (dsame_no_step hb hk)
  | inner h1 _ ih =>
    intro b hb
    obtain ⟨b', h2, h3⟩ := dsame_step hb h1
    exact .inner h2 (ih _ h3)
  | field hx h1 _ ih =>
    intro b hb
    obtain ⟨b', h2, h3⟩ := dsame_step hb h1
    exact .field hx h2 (ih _ h3)
  | within hx h1 _ ih =>
    intro b hb
    obtain ⟨b', h2, h3⟩ := dsame_step hb h1
    exact .within hx h2 (ih _ h3)

theorem entry_flat {y : Value} {d : Data} (h2 : ∀ es, d ≠ .map es) (h3 : ∀ s, (∀ i, s ≠ .idx i) → dchild d s = none) : ¬ EntryBack y d := by
  intro h
  cases h with
  | entry => exact h2 _ rfl
  | inner h => rw [h3 _ (by simp)] at h; cases h
  | field _ h => rw [h3 _ (by simp)] at h; cases h
  | within _ h => rw [h3 _ (by simp)] at h; cases h

/-- What a place becomes, about which a layer on top says nothing or anything. -/
def Upon (y u : Value) : Prop := u = y ∨ ∃ x, UniqueKeys x ∧ u = overlaid (some y) x

theorem upon_child {m mu : Entries} (h : Upon (.map m) (.map mu)) {key : String} {z : Value} (hz : hmGet m key = some z) : ∃ z', hmGet mu key = some z' ∧ Upon z z' := by
  rcases h with h | ⟨x, hu, h⟩
  · cases h; exact ⟨z, hz, Or.inl rfl⟩
  · cases hm : x.isMap with
    | false =>
      rw [overlaid_other (Or.inr hm)] at h
      subst h; cases hm
    | true =>
      obtain ⟨n, rfl⟩ := isMap_entries hm
      rw [overlaid_maps] at h
      cases h
      have hun := uniqueKeys_map.1 hu
      rw [hmGet_overlaid hun.1, hz]
      cases hg : hmGet n key with
      | none => exact ⟨z, rfl, Or.inl rfl⟩
      | some x => exact ⟨_, rfl, Or.inr ⟨x, hun.2 _ (hmGet_mem hg), rfl⟩⟩

theorem value_no_entry (u : Value) : ∀ y, UniqueKeys u → Upon y u → ¬ EntryBack y u.toData := by
  have flat : ∀ (r y : Value), r.isMap = false → ¬ EntryBack y r.toData := by
    intro r y hm
    refine entry_flat ?_ ?_
    · intro es h
      cases r <;> first | (simp [Value.toData] at h; done) | cases hm
    · intro s hs
      cases r <;> first | (cases s <;> first | (simp only [Value.toData]; rfl) | exact absurd rfl (hs _)) | cases hm
  induction u using Value.ind with
  | map n ih =>
    intro y hu ho hb
    have hun := uniqueKeys_map.1 hu
    rw [toData_texts] at hb
    obtain ⟨m, key, x, rfl, g1, g2⟩ := entry_texts hb
    obtain ⟨z, hz, hov⟩ := upon_child ho g1
    rw [hmGet_datas, hz] at g2
    rcases g2 with g2 | ⟨d, g2, g3⟩
    · cases g2
    · cases g2
      exact ih _ (hmGet_mem hz) x (hun.2 _ (hmGet_mem hz)) hov g3
  | none | boolean | integer | longInteger | uInteger | uLongInteger | float | string | array => exact fun y _ _ => flat _ y rfl

theorem no_entry_back {structs : Nat → List (String × Ty)} {k : Nat}
    (hrefs : ∀ n y u d, UniqueKeys u → refsAt structs k n u = .ok d → Upon y u → ¬ EntryBack y d) (T : Ty) :
    WellFormed T → TextMaps T → ∀ y u d, UniqueKeys u → deAt structs k T u = .ok d → Upon y u → ¬ EntryBack y d := by
  unfold deAt
  have leaf : ∀ {α : Type} {o : Outcome ModelError α} {f : α → Data} {y : Value} {d : Data}, (o >>= fun a => Outcome.ok (f a)) = .ok d →
      (∀ a, (∀ es, f a ≠ .map es) ∧ ∀ s, (∀ i, s ≠ DStep.idx i) → dchild (f a) s = none) → ¬ EntryBack y d := by
    intro α o f y d h hf
    obtain ⟨a, -, h⟩ := bind_eq_ok.1 h
    cases h
    exact entry_flat (hf a).1 (hf a).2
  induction T using Ty.ind with
  | bool | int | f32 | f64 | char | string =>
    intro _ _ y u d _ h _
    rw [de] at h
    exact leaf h fun a => ⟨by simp, fun s hs => by cases s <;> first | rfl | exact absurd rfl (hs _)⟩
  | unit | unitStruct =>
    intro _ _ y u d _ h _
    cases u <;> simp only [de, reduceCtorEq, Outcome.ok.injEq] at h
    rw [← h]
    exact entry_flat (by simp) fun s hs => by cases s <;> first | rfl | exact absurd rfl (hs _)
  | bytes | enum => intro _ _ y u d _ h; rw [de] at h; cases h
  | value =>
    intro _ _ y u d hu h ho hb
    rw [de, deValue_ok u hu] at h
    cases h
    exact value_no_entry u y hu ho hb
  | seq | tuple | tupleStruct =>
    intro _ _ y u d _ h _
    cases u <;> simp only [de, reduceCtorEq] at h
    exact leaf h fun a => ⟨by simp, fun s hs => by cases s <;> first | rfl | exact absurd rfl (hs _)⟩
  | option t ih =>
    intro hw hp y u d hu h ho hb
    cases hw with | option hw =>
    have hp : TextMaps t := by
      cases hp with
      | leaf _ h => exact absurd rfl (h _)
      | option h => exact h
    by_cases hu0 : u = .none
    · subst hu0
      simp only [de, Outcome.ok.injEq] at h
      rw [← h] at hb
      exact entry_flat (by simp) (fun s hs => by cases s <;> first | rfl | exact absurd rfl (hs _)) hb
    · rw [de] at h
      · obtain ⟨e, he, h⟩ := bind_eq_ok.1 h
        cases h
        exact ih hw hp y u e hu he ho (entry_some hb)
      · exact fun e => absurd e hu0
  | newtype t ih =>
    intro hw hp y u d hu h ho hb
    cases hw with | newtype hw =>
    have hp : TextMaps t := by
      cases hp with
      | leaf _ _ h => exact absurd rfl (h _)
      | newtype h => exact h
    rw [de] at h
    obtain ⟨e, he, h⟩ := bind_eq_ok.1 h
    cases h
    exact ih hw hp y u e hu he ho (entry_newtype hb)
  | ref n => intro _ _ y u d hu h; rw [de] at h; exact hrefs n y u d hu h
  | struct fs ih =>
    intro hw hp y u d hu h ho hb
    cases hw with | struct hn hw =>
    have hp : ∀ f ∈ fs, TextMaps f.2 := by
      cases hp with
      | leaf _ _ _ h => exact absurd rfl (h _)
      | struct h => exact h
    obtain ⟨mu, rfl⟩ := struct_map h
    have huu := uniqueKeys_map.1 hu
    obtain ⟨ds, rfl, h1⟩ := (de_struct_ok _ _ hn _ huu.1 _).1 h
    obtain ⟨m, name, x, d, rfl, g1, g2, g3⟩ := entry_struct hb
    obtain ⟨f, hf, e1, e2⟩ := forall2_right h1 _ (hmGet_mem g2)
    dsimp only at e1 e2
    obtain ⟨z, hz, hov⟩ := upon_child ho g1
    rw [← e1, hz] at e2
    exact ih f hf (hw f hf) (hp f hf) x z d (huu.2 _ (hmGet_mem hz)) e2 hov g3
  | map kt t ih =>
    intro hw hp y u d hu h ho hb
    cases hw with | map hw =>
    have hp : kt = .string ∧ TextMaps t := by
      cases hp with
      | leaf h => exact absurd rfl (h _ _)
      | map h => exact ⟨rfl, h⟩
    obtain ⟨rfl, hpt⟩ := hp
    have hum : ∃ n, u = .map n := by
      cases u <;> simp only [de, reduceCtorEq] at h
      exact ⟨_, rfl⟩
    obtain ⟨mu, rfl⟩ := hum
    have huu := uniqueKeys_map.1 hu
    obtain ⟨es, rfl, h1⟩ := (text_map_ok huu.1).1 h
    have hkeys := text_keys (fun x d => de (refsAt structs k) t x = .ok d) h1
    obtain ⟨m, key, x, rfl, g1, g2⟩ := entry_texts hb
    obtain ⟨z, hz, hov⟩ := upon_child ho g1
    rcases g2 with g2 | ⟨d, g2, g3⟩
    · rw [hmGet_eq_none, hkeys] at g2
      exact g2 (List.mem_map_of_mem (hmGet_mem hz))
    · obtain ⟨e, he, e1, e2⟩ := forall2_right h1 _ (hmGet_mem g2)
      have := hmGet_of_mem' huu.1 he
      rw [← e1, hz] at this
      cases this
      exact ih hw hpt x _ d (huu.2 _ he) e2 hov g3

theorem no_entry_back_refs {structs : Nat → List (String × Ty)} (hs : ∀ n, WellFormed (.struct (structs n))) (hsm : ∀ n, TextMaps (.struct (structs n))) (k : Nat) :
    ∀ n y u d, UniqueKeys u → refsAt structs k n u = .ok d → Upon y u → ¬ EntryBack y d := by
  induction k with
  | zero => intro n y u d _ h; cases h
  | succ k ih => intro n y u d hu h; exact no_entry_back ih _ (hs n) (hsm n) y u d hu h

/-- **C148.** Then nothing on top helps, in whatever format: settings without an entry that a map of the layers below has are brought about by no layer on top, not even one that a program wrote itself,
`None` or not. -/
theorem C148_else (b : Build) (fm : Formats) (calls : List RegCall) (w : World) (skip : Bool) (v v' : Value)
    (h : (register b fm calls).buildValue w skip = .ok v) (hp : ∀ e ∈ firsts (offers b fm calls), Proper e.2)
    (call : RegCall) (hc : ∀ e, call.offer b fm = some e → Proper e.2 ∧ ∀ a ∈ offers b fm calls, a.1 ≠ e.1)
    (h' : (register b fm (calls ++ [call])).buildValue w skip = .ok v')
    (structs : Nat → List (String × Ty)) (hs : ∀ n, WellFormed (.struct (structs n))) (hsm : ∀ n, TextMaps (.struct (structs n)))
    (fs : List (String × Ty)) (hT : WellFormed (.struct fs)) (hTm : TextMaps (.struct fs)) (k : Nat) (d : Data) (hcb : EntryBack v d) :
    ¬ ∃ d', deAt structs k (.struct fs) v' = .ok d' ∧ DSame d d' := by
  rintro ⟨d', hd, hsd⟩
  replace hcb := entry_same hcb d' hsd
  clear hsd
  clear d
  rename' d' => d
  obtain ⟨hvm, hvu⟩ := C08_map b fm calls w skip v h
  have stay : v' ≠ v := by
    rintro rfl
    exact no_entry_back (no_entry_back_refs hs hsm k) _ hT hTm v' v' d (hvu hp) hd (Or.inl rfl) hcb
  cases ho : call.offer b fm with
  | none =>
    refine stay ?_
    have : offers b fm (calls ++ [call]) = offers b fm calls := by
      unfold offers; rw [List.filterMap_append]; simp [ho]
    rw [buildValue_is (is_register b fm _), this, ← buildValue_is (is_register b fm calls), h] at h'
    cases h'; rfl
  | some e =>
    obtain ⟨hpe, hn⟩ := hc e ho
    cases hr : e.2.readValue w with
    | error err =>
      rw [C14_failing b fm calls call w e err v ho hn hr skip h] at h'
      cases skip with
      | true => cases h'; exact stay rfl
      | false => cases h'
    | ok x =>
      rw [C14_add_last b fm calls call w skip e x v ho hn hr h] at h'
      cases h'
      have hxu : UniqueKeys x := hpe w x hr
      cases hxm : x.isMap with
      | false => exact stay (merge_other hxm)
      | true =>
        rw [← overlaid_top hvm hxm] at hd
        exact no_entry_back (no_entry_back_refs hs hsm k) _ hT hTm v _ d (overlaid_unique (by rintro y h; cases h; exact hvu hp) hxu) hd (Or.inr ⟨x, hxu, rfl⟩) hcb

/-! ## Examples -/

/-- A format that has a text for these settings and gives back what was saved, with a `null`. -/
def exNulls : Codec :=
  { parse := fun s => if s = "{proxy: null, a: 2}" then .ok (.map [(.str "proxy", .unit), (.str "a", .str "2")]) else .error "syntax",
    print := fun _ => .ok "{proxy: null, a: 2}" }

def exNullsB : Build := { toml := false, json := true, overflowChecks := true }

theorem exWhole_types : Survives (.struct exWhole) ∧ Concrete (.struct exWhole) ∧ TextMaps (.struct exWhole) := by
  have hall : ∀ f ∈ exWhole, f.2 = .option .string ∨ f.2 = .string := by simp [exWhole]
  refine ⟨.struct (by decide) fun f hf => ?_, .struct fun f hf => ?_, .struct fun f hf => ?_⟩
  · rcases hall f hf with h | h <;> rw [h]
    · exact .option .string rfl
    · exact .string
  · rcases hall f hf with h | h <;> rw [h]
    · exact .option (.leaf (by simp))
    · exact .leaf (by simp)
  · rcases hall f hf with h | h <;> rw [h]
    · exact .option (.leaf (by simp) (by simp) (by simp) (by simp))
    · exact .leaf (by simp) (by simp) (by simp) (by simp)

theorem exUnset_no_entry (y : Value) : ¬ EntryBack y exUnset := by
  intro h
  obtain ⟨m, name, x, d, e, h1, h2, h3⟩ := entry_struct h
  refine entry_flat ?_ ?_ h3
  all_goals
    simp only [hmGet] at h2
    split at h2
    · cases h2
      first | (simp; done) | exact fun s hs => by cases s <;> first | rfl | exact absurd rfl (hs _)
    · split at h2
      · cases h2
        first | (simp; done) | exact fun s hs => by cases s <;> first | rfl | exact absurd rfl (hs _)
      · cases h2

/-- A program saves settings without a proxy to its JSON file. Although the defaults have a proxy, it reads them back: the proxy stays unset. (With a TOML file it would be back, C147.) A further layer above
the file that says nothing about the two settings changes nothing. -/
example : ∃ (w' : World) (x v : Value), ser exUnset = .ok x ∧ (Layer.newFile (textHandler exNulls) (os "/c.json")).writeValue exDisk x = (.ok (), w') ∧
    (register exNullsB ⟨exNulls, exNulls⟩ [.memory "default" (.map [("proxy", .string "p"), ("a", .string "1")]), .file "file" (os "/c.json")]).buildValue w' false = .ok v ∧
    (∃ k d', deAt (fun _ => []) k (.struct exWhole) v = .ok d' ∧ DSame exUnset d') ∧
    ∃ v, (register exNullsB ⟨exNulls, exNulls⟩ [.memory "default" (.map [("proxy", .string "p"), ("a", .string "1")]), .file "file" (os "/c.json"),
        .memory "theme" (.map [("color", .string "red")])]).buildValue w' false = .ok v ∧
      ∃ k d', deAt (fun _ => []) k (.struct exWhole) v = .ok d' ∧ DSame exUnset d' := by
  have hempty : Survives (.struct []) ∧ Concrete (.struct []) ∧ TextMaps (.struct []) := ⟨.struct (by simp) (by simp), .struct (by simp), .struct (by simp)⟩
  have ht := C118_typed (fun _ => []) (fun _ => wellFormed_of_survives hempty.1) (.struct exWhole) (wellFormed_of_survives exWhole_types.1) 0
    (.map [("a", .string "2")]) (by simp [UniqueKeys, UniqueKeysMap, UniqueKeysEntry]) exUnset (by rfl)
  have hok : (Layer.newFile (textHandler exNulls) (os "/c.json")).writeValue exDisk (.map [("proxy", .none), ("a", .string "2")]) =
      (.ok (), ((Layer.newFile (textHandler exNulls) (os "/c.json")).writeValue exDisk (.map [("proxy", .none), ("a", .string "2")])).2) := Prod.ext (by rfl) rfl
  have hcd : ∀ text, exNulls.print (Value.map [("proxy", .none), ("a", .string "2")]).toData = .ok text → ∃ doc, exNulls.parse text = .ok doc ∧ Presents (.map [("proxy", .none), ("a", .string "2")]) doc := by
      intro text h
      cases h
      refine ⟨_, rfl, .map _ (List.Perm.refl _) rfl ?_ ?_⟩
      · intro i k x k' d h1 h2
        rcases i with - | - | i
        · cases h1; cases h2; exact .str _
        · cases h1; cases h2; exact .str _
        · cases h1
      · intro i k x k' d h1 h2
        rcases i with - | - | i
        · cases h1; cases h2; exact .unit
        · cases h1; cases h2; exact .str _
        · cases h1
  have hread : ∀ bs code wr, exDisk.disk (exDisk.locate (os "/c.json")) ≠ .file bs (some code) wr := by
      intro bs code wr h
      rw [show exDisk.locate (os "/c.json") = 3 by rfl] at h
      cases h
  have hnew : ∀ a ∈ offers exNullsB ⟨exNulls, exNulls⟩ [.memory "default" (.map [("proxy", .string "p"), ("a", .string "1")])], a.1 ≠ "file" := fun a ha => by
        simp only [offers, RegCall.offer, List.filterMap_cons, List.filterMap_nil, List.mem_singleton] at ha
        subst ha; simp
  have hprop : ∀ (n : String) (m : Entries), UniqueKeys (.map m) → ∀ e ∈ offers exNullsB ⟨exNulls, exNulls⟩ [.memory n (.map m)], Proper e.2 := by
    intro n m hu e he w v hv
    simp only [offers, RegCall.offer, List.filterMap_cons, List.filterMap_nil, List.mem_singleton] at he
    subst he
    cases hv
    exact hu
  have hprop0 : ∀ e ∈ firsts (offers exNullsB ⟨exNulls, exNulls⟩ [.memory "default" (.map [("proxy", .string "p"), ("a", .string "1")])]), Proper e.2 :=
    fun e he => hprop "default" [("proxy", .string "p"), ("a", .string "1")] (by simp [UniqueKeys, UniqueKeysMap, UniqueKeysEntry]) e (by simpa [firsts, offers, RegCall.offer] using he)
  have hf : FormatOf exNullsB ⟨exNulls, exNulls⟩ (os "/c.json") exNulls := Or.inr ⟨by decide, rfl, rfl⟩
  obtain ⟨v', h1, h2, -⟩ := C148_saved (cd := exNulls) (fun _ => []) (fun _ => hempty.1) (fun _ => hempty.2.1) (fun _ => hempty.2.2) exWhole exWhole_types.1 exWhole_types.2.1 exWhole_types.2.2
    exUnset ht (.map [("proxy", .none), ("a", .string "2")]) (by rfl) hcd exDisk _ (os "/c.json") hok hread exNullsB ⟨exNulls, exNulls⟩ hf
    [.memory "default" (.map [("proxy", .string "p"), ("a", .string "1")])] "file" hnew _ rfl false _ rfl hprop0
  have hl := C14_add_last exNullsB ⟨exNulls, exNulls⟩ ([.memory "default" (.map [("proxy", .string "p"), ("a", .string "1")])] ++ [.file "file" (os "/c.json")])
    (.memory "theme" (.map [("color", .string "red")])) _ false ("theme", .memory (.map [("color", .string "red")])) _ v' rfl (fun a ha => by
      unfold offers at ha
      rw [List.filterMap_append, List.mem_append] at ha
      rcases ha with ha | ha
      · simp only [RegCall.offer, List.filterMap_cons, List.filterMap_nil, List.mem_singleton] at ha
        subst ha; simp
      · simp only [List.filterMap_cons, List.filterMap_nil, TextFmt.offer hf "file", List.mem_singleton] at ha
        subst ha; simp) rfl h1
  refine ⟨_, _, v', by rfl, hok, h1, h2.2 (exUnset_no_entry _), _, hl, (C148_under (cd := exNulls) (fun _ => []) (fun _ => hempty.1) (fun _ => hempty.2.1) (fun _ => hempty.2.2) exWhole exWhole_types.1
    exWhole_types.2.1 exWhole_types.2.2 exUnset ht (.map [("proxy", .none), ("a", .string "2")]) (by rfl) hcd exDisk _ (os "/c.json") hok hread exNullsB ⟨exNulls, exNulls⟩ hf
    [.memory "default" (.map [("proxy", .string "p"), ("a", .string "1")])] "file" hnew _ rfl false _ rfl hprop0 [.memory "theme" (.map [("color", .string "red")])]
    (hprop "theme" _ (by simp [UniqueKeys, UniqueKeysMap, UniqueKeysEntry])) ?_ _ hl ?_).2 (exUnset_no_entry _)⟩
  · intro a ha p hp hne
    simp only [offers, RegCall.offer, List.filterMap_cons, List.filterMap_nil, List.mem_singleton] at ha
    subst ha
    rintro ⟨x, hx, -, hns⟩
    cases hx
    apply hns
    cases hp with
    | here => exact absurd rfl hne
    | @struct _ name t q hmem hl =>
      refine ⟨[], name, q, rfl, by intro q' hq; rw [List.prefix_nil] at hq; subst hq; rfl, ?_⟩
      simp only [exWhole, List.mem_cons, Prod.mk.injEq, List.not_mem_nil, or_false] at hmem
      rcases hmem with ⟨rfl, -⟩ | ⟨rfl, -⟩ <;> rfl
  · have hall : ∀ f ∈ exWhole, f.2 = .option .string ∨ f.2 = .string := by simp [exWhole]
    refine C44_string_keys_never_clash (fun _ => []) (fun _ => .struct (by simp)) _ (.struct fun f hf => ?_) _
    rcases hall f hf with h | h <;> rw [h]
    · exact .option (.leaf (by simp) (by simp) (by simp) (by simp) (by simp) (by simp) (by simp))
    · exact .leaf (by simp) (by simp) (by simp) (by simp) (by simp) (by simp) (by simp)

/-- A layer on top that leaves the proxy out does not unset it; one that says it is `None` does. -/
example : ShowsThrough (.map [("proxy", .string "p")]) (.map [("a", .string "2")]) exUnset ∧ ¬ ShowsThrough (.map [("proxy", .string "p")]) (.map [("proxy", .none), ("a", .string "2")]) exUnset := by
  refine ⟨.left (name := "proxy") rfl (by simp) rfl rfl, fun h => exUnset_no_entry _ (entry_of_shows h fun hl => ?_)⟩
  obtain ⟨name, d, h1, h2⟩ := leftOut_struct hl
  simp only [hmGet] at h1
  rcases h2 with h2 | ⟨x, h2, h3⟩
  · rw [child_key_map] at h2
    simp only [hmGet] at h2
    split at h1
    · rename_i hn; rw [if_pos hn] at h2; cases h2
    · rename_i hn
      rw [if_neg hn] at h2
      split at h1
      · rename_i hn; rw [if_pos hn] at h2; cases h2
      · cases h1
  · refine leftOut_flat ?_ h3
    split at h1
    · cases h1; exact fun s hs => by cases s <;> first | rfl | exact absurd rfl (hs _)
    · split at h1
      · cases h1; exact fun s hs => by cases s <;> first | rfl | exact absurd rfl (hs _)
      · cases h1

/-- Ports without one that the layers below have: no environment gives them, nor anything else that may be registered. -/
example (w : World) (call : RegCall) (hc : ∀ e, call.offer exB1 exFormats = some e → Proper e.2 ∧ e.1 ≠ "d") (v' : Value)
    (h : (register exB1 exFormats ([.memory "d" exPortsBelow] ++ [call])).buildValue w false = .ok v') (k : Nat) :
    ¬ ∃ d', deAt exNoStructs k (.struct exPortsTy) v' = .ok d' ∧ DSame (.struct [("ports", .map [(.str "a", .int .u16 ⟨80, by decide⟩)])]) d' := by
  refine C148_else exB1 exFormats [.memory "d" exPortsBelow] w false exPortsBelow v' rfl (exPortsBelow_proper _) call (fun e he => ⟨(hc e he).1, fun a ha => ?_⟩) h exNoStructs exNoStructs_wf
    (fun _ => .struct (by simp [exNoStructs])) exPortsTy exPortsTy_wf (textMaps_of_plain exPortsTy_plain) k _ (.field (name := "ports") rfl rfl (.entry (k := "b") rfl rfl))
  simp only [offers, RegCall.offer, List.filterMap_cons, List.filterMap_nil, List.mem_singleton] at ha
  subst ha
  exact (hc e he).2.symm

/-- The same with a setting of type `Value`. -/
example (w : World) (call : RegCall) (hc : ∀ e, call.offer exB1 exFormats = some e → Proper e.2 ∧ e.1 ≠ "d") (v' : Value)
    (h : (register exB1 exFormats ([.memory "d" exPortsBelow] ++ [call])).buildValue w false = .ok v') (k : Nat) :
    ¬ ∃ d', deAt exNoStructs k (.struct [("ports", .value)]) v' = .ok d' ∧ DSame (.struct [("ports", .map [(.str "a", .str "80")])]) d' := by
  refine C148_else exB1 exFormats [.memory "d" exPortsBelow] w false exPortsBelow v' rfl (exPortsBelow_proper _) call (fun e he => ⟨(hc e he).1, fun a ha => ?_⟩) h exNoStructs exNoStructs_wf
    (fun _ => .struct (by simp [exNoStructs])) [("ports", .value)] (.struct (by decide) fun f hf => by rw [List.mem_singleton] at hf; subst hf; exact .value)
    (.struct fun f hf => by rw [List.mem_singleton] at hf; subst hf; exact .leaf (by simp) (by simp) (by simp) (by simp)) k _ (.field (name := "ports") rfl rfl (.entry (k := "b") rfl rfl))
  simp only [offers, RegCall.offer, List.filterMap_cons, List.filterMap_nil, List.mem_singleton] at ha
  subst ha
  exact (hc e he).2.symm

end Verif.Props
