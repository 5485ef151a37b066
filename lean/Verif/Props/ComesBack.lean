import Verif.Spec.ComesBack
import Verif.Props.OnTop
import Verif.Props.Footprint
/-!
# C147: when saved settings are what is read
-/
namespace Verif.Props
open Verif Verif.Spec

theorem dsame_step {a b a' : Data} (h : DSame a b) {s : DStep} (ha : dchild a s = some a') : ∃ b', dchild b s = some b' ∧ DSame a' b' := by
  have h1 := h [s]
  simp only [dview, ha, Option.bind_some] at h1
  cases hb : dchild b s with
  | none => rw [hb] at h1; cases h1
  | some b' =>
    refine ⟨b', rfl, fun p => ?_⟩
    have := h (s :: p)
    simpa only [dview, ha, hb, Option.bind_some] using this

theorem dsame_no_step {a b : Data} (h : DSame a b) {s : DStep} (ha : dchild a s = none) : dchild b s = none := by
  cases hb : dchild b s with
  | none => rfl
  | some b' =>
    obtain ⟨a', h1, -⟩ := dsame_step (DSame.symm h) hb
    rw [ha] at h1; cases h1

theorem comesBack_same {y : Value} {a : Data} (h : ComesBack y a) : ∀ b, DSame a b → ComesBack y b := by
  induction h with
  | unset hz =>
    intro b hb
    have := hb []
    cases b <;> simp only [dview, dhead, Option.some.injEq, reduceCtorEq] at this
    exact .unset hz
  | entry hx hk =>
    intro b hb
    have := hb []
    cases b <;> simp only [dview, dhead, Option.some.injEq, reduceCtorEq] at this
    exact .entry hx (dsame_no_step hb hk)
  | inner h1 _ ih =>
    intro b hb
    obtain ⟨b', h2, h3⟩ := dsame_step hb h1
    exact .inner h2 (ih _ h3)
  | field hx h1 _ ih =>
    intro b hb
    obtain ⟨b', h2, h3⟩ := dsame_step hb h1
    exact .field hx h2 (ih _ h3)
  | within hx h1 _ ih =>
    intro b hb
    obtain ⟨b', h2, h3⟩ := dsame_step hb h1
    exact .within hx h2 (ih _ h3)

theorem dchild_texts (es : List (String × Data)) (k : String) : dchild (.map (es.map fun e => (.str e.1, e.2))) (.key (.str k)) = hmGet es k := by
  have e : es.map (fun e => (Data.str e.1, e.2)) = (es.map fun e => (Key.str e.1, e.2)).map fun e => (e.1.toData, e.2) := by
    rw [List.map_map]; rfl
  rw [e, dchild_key, keyGet_texts]

theorem dchild_struct (ds : List (String × Data)) (k : String) : dchild (.struct ds) (.field k) = hmGet ds k := by
  induction ds with
  | nil => rfl
  | cons e r ih =>
    obtain ⟨j, d⟩ := e
    simp only [dchild, List.find?_cons, hmGet] at ih ⊢
    by_cases h : j = k
    · subst h; simp
    · have hb : (j == k) = false := by simpa using h
      rw [hb, if_neg h]
      exact ih

theorem back_none {y : Value} (h : ComesBack y .none) : y ≠ .none := by
  cases h with
  | unset h => exact h
  | inner h => cases h
  | field _ h => cases h
  | within _ h => cases h

theorem back_some {y : Value} {d : Data} (h : ComesBack y (.some d)) : ComesBack y d := by
  cases h with
  | inner h h' => cases h; exact h'
  | field _ h => cases h
  | within _ h => cases h

theorem back_newtype {y : Value} {d : Data} (h : ComesBack y (.newtypeStruct d)) : ComesBack y d := by
  cases h with
  | inner h h' => cases h; exact h'
  | field _ h => cases h
  | within _ h => cases h

theorem back_struct {y : Value} {ds : List (String × Data)} (h : ComesBack y (.struct ds)) :
    ∃ m name x d, y = .map m ∧ hmGet m name = some x ∧ hmGet ds name = some d ∧ ComesBack x d := by
  cases h with
  | inner h => cases h
  | field hx h h' =>
    rw [dchild_struct] at h
    cases y with
    | map m => rw [child_key_map] at hx; exact ⟨m, _, _, _, rfl, hx, h, h'⟩
    | _ => cases hx
  | within _ h => cases h

theorem back_texts {y : Value} {es : List (String × Data)} (h : ComesBack y (.map (es.map fun e => (.str e.1, e.2)))) :
    ∃ m key x, y = .map m ∧ hmGet m key = some x ∧ (hmGet es key = none ∨ ∃ d, hmGet es key = some d ∧ ComesBack x d) := by
  generalize hd : Data.map (es.map fun e => (.str e.1, e.2)) = d at h
  have hmap : ∀ {key : String} {x : Value}, child y (.key key) = some x → ∃ m, y = .map m ∧ hmGet m key = some x := by
    intro key x hx
    cases y with
    | map m => rw [child_key_map] at hx; exact ⟨m, rfl, hx⟩
    | _ => cases hx
  cases h with
  | unset => cases hd
  | inner h => rw [← hd] at h; cases h
  | field _ h => rw [← hd] at h; cases h
  | entry hx h =>
    rw [← hd, dchild_texts] at h
    obtain ⟨m, rfl, h1⟩ := hmap hx
    exact ⟨m, _, _, rfl, h1, Or.inl h⟩
  | within hx h h' =>
    rw [← hd, dchild_texts] at h
    obtain ⟨m, rfl, h1⟩ := hmap hx
    exact ⟨m, _, _, rfl, h1, Or.inr ⟨_, h, h'⟩⟩

theorem back_flat {y : Value} {d : Data} (h1 : d ≠ .none) (h2 : ∀ es, d ≠ .map es) (h3 : ∀ s, (∀ i, s ≠ .idx i) → dchild d s = none) : ¬ ComesBack y d := by
  intro h
  cases h with
  | unset => exact h1 rfl
  | entry => exact h2 _ rfl
  | inner h => rw [h3 _ (by simp)] at h; cases h
  | field _ h => rw [h3 _ (by simp)] at h; cases h
  | within _ h => rw [h3 _ (by simp)] at h; cases h

/-- No entry of a map is `None`, nor the value. -/
def Solid (v : Value) : Prop := v ≠ .none ∧ ∀ p, ¬ NullEntry v p

theorem solid_child {n : Entries} (h : Solid (.map n)) {key : String} {x : Value} (hx : hmGet n key = some x) : Solid x := by
  have hc : child (.map n) (.key key) = some x := by rw [child_key_map]; exact hx
  refine ⟨?_, ?_⟩
  · rintro rfl
    exact h.2 [.key key] ⟨⟨[], key, rfl⟩, by simp [view, hc, head]⟩
  · rintro p ⟨⟨q, k, rfl⟩, h2⟩
    exact h.2 (.key key :: (q ++ [.key k])) ⟨⟨.key key :: q, k, rfl⟩, by rw [view, hc]; exact h2⟩

theorem solid_overlaid {y r : Value} (h : Solid r) : overlaid (some y) r ≠ .none := by
  intro e
  unfold overlaid at e
  dsimp only at e
  split at e
  · rename_i hm
    rw [Bool.and_eq_true] at hm
    obtain ⟨m, rfl⟩ := isMap_entries hm.1
    obtain ⟨n, rfl⟩ := isMap_entries hm.2
    rw [merge_map_map] at e; cases e
  · exact h.1 e

/-- With something on top that alone reads as `d`: the same is read, exactly if nothing comes back. -/
def TopReads (D : Decoder) (y r : Value) (d : Data) : Prop :=
  (¬ ComesBack y d → ∃ d', D (overlaid (some y) r) = .ok d' ∧ DSame d d') ∧ ∀ d', D (overlaid (some y) r) = .ok d' → DSame d d' → ¬ ComesBack y d

theorem topReads_same {D : Decoder} {y r : Value} {d : Data} (he : overlaid (some y) r = r) (h : D r = .ok d) (hb : ¬ ComesBack y d) : TopReads D y r d := by
  refine ⟨fun _ => ⟨d, by rw [he]; exact h, DSame.refl d⟩, fun _ _ _ => hb⟩

theorem textMaps_of_plain {T : Ty} (h : PlainSections T) : TextMaps T := by
  induction h with
  | leaf h1 _ h3 h4 h5 => exact .leaf h1 h3 h4 h5
  | option _ ih => exact .option ih
  | newtype _ ih => exact .newtype ih
  | struct _ ih => exact .struct ih
  | map _ ih => exact .map ih

theorem hmGet_datas (n : Entries) (key : String) : hmGet (n.map fun e => (e.1, e.2.toData)) key = (hmGet n key).map Value.toData := by
  induction n with
  | nil => rfl
  | cons e r ih =>
    obtain ⟨j, v⟩ := e
    simp only [List.map_cons, hmGet]
    split
    · rfl
    · exact ih

theorem toData_texts (n : Entries) : (Value.map n).toData = .map ((n.map fun e => (e.1, e.2.toData)).map fun e => (.str e.1, e.2)) := by
  rw [Value.toData, toDataEntries_eq, List.map_map]; rfl

/-- A `Value` as a setting: what the top has, exactly if nothing comes back. -/
theorem value_topReads (r : Value) : ∀ y, UniqueKeys y → UniqueKeys r → Solid r → (DSame r.toData (overlaid (some y) r).toData ↔ ¬ ComesBack y r.toData) := by
  have flat : ∀ (r y : Value), r.isMap = false → Solid r → (DSame r.toData (overlaid (some y) r).toData ↔ ¬ ComesBack y r.toData) := by
    intro r y hm hs
    rw [overlaid_other (Or.inr hm)]
    refine ⟨fun _ => back_flat ?_ ?_ ?_, fun _ => DSame.refl _⟩
    · intro h
      cases r <;> first | exact hs.1 rfl | (simp [Value.toData] at h; done)
    · intro es h
      cases r <;> first | (simp [Value.toData] at h; done) | cases hm
    · intro s hs
      cases r <;> first | (cases s <;> first | (simp only [Value.toData]; rfl) | exact absurd rfl (hs _)) | cases hm
  induction r using Value.ind with
  | map n ih =>
    intro y hy hr hsol
    by_cases hym : ∃ m, y = .map m
    swap
    · rw [overlaid_other (Or.inl fun m e => hym ⟨m, by cases e; rfl⟩)]
      refine ⟨fun _ h => ?_, fun _ => DSame.refl _⟩
      rw [toData_texts] at h
      obtain ⟨m, _, _, e, -⟩ := back_texts h
      exact hym ⟨m, e⟩
    obtain ⟨m, rfl⟩ := hym
    have hum := uniqueKeys_map.1 hy
    have hun := uniqueKeys_map.1 hr
    rw [overlaid_maps, toData_texts, toData_texts]
    have step : ∀ key x, hmGet n key = some x → ∀ z, hmGet m key = some z → (DSame x.toData (overlaid (some z) x).toData ↔ ¬ ComesBack z x.toData) := fun key x hx z hz =>
      ih _ (hmGet_mem hx) z (hum.2 _ (hmGet_mem hz)) (hun.2 _ (hmGet_mem hx)) (solid_child hsol hx)
    constructor
    · intro hsame hb
      obtain ⟨m', key, z, e, g1, g2⟩ := back_texts hb
      cases e
      rw [hmGet_datas] at g2
      rcases g2 with g2 | ⟨d, g2, g4⟩
      · have hn : hmGet n key = none := by simpa using g2
        have := dsame_no_step hsame (s := .key (.str key)) (by rw [dchild_texts, hmGet_datas, hn]; rfl)
        rw [dchild_texts, hmGet_datas, hmGet_overlaid hun.1, hn, g1] at this
        cases this
      · cases g3 : hmGet n key with
        | none => rw [g3] at g2; cases g2
        | some x =>
          rw [g3] at g2
          cases g2
          obtain ⟨d', c1, c2⟩ := dsame_step hsame (s := .key (.str key)) (a' := x.toData) (by rw [dchild_texts, hmGet_datas, g3]; rfl)
          rw [dchild_texts, hmGet_datas, hmGet_overlaid hun.1, g3, g1] at c1
          cases c1
          exact (step key x g3 z g1).1 c2 g4
    · intro hb
      have hb : ∀ key z, hmGet m key = some z → ∃ x, hmGet n key = some x ∧ ¬ ComesBack z x.toData := by
        intro key z hz
        have hc : child (.map m) (.key key) = some z := by rw [child_key_map]; exact hz
        cases hx : hmGet n key with
        | none => exact absurd (ComesBack.entry hc (by rw [dchild_texts, hmGet_datas, hx]; rfl)) hb
        | some x => exact ⟨x, rfl, fun h => hb (.within hc (by rw [dchild_texts, hmGet_datas, hx]; rfl) h)⟩
      refine dsame_texts fun key => ?_
      rw [hmGet_datas, hmGet_datas, hmGet_overlaid hun.1]
      cases hz : hmGet m key with
      | none =>
        cases hx : hmGet n key with
        | none => exact ⟨by simp, fun x y h => by cases h⟩
        | some x => exact ⟨by simp [overlaid], fun a c ha hc => by cases ha; cases hc; exact DSame.refl _⟩
      | some z =>
        obtain ⟨x, hx, hb⟩ := hb key z hz
        rw [hx]
        exact ⟨by simp, fun a c ha hc => by cases ha; cases hc; exact (step key x hx z hz).2 hb⟩
  | none | boolean | integer | longInteger | uInteger | uLongInteger | float | string | array => exact fun y _ _ hs => flat _ y rfl hs

theorem topReads_de {structs : Nat → List (String × Ty)} {k : Nat}
    (hrefs : ∀ n y r d, UniqueKeys y → UniqueKeys r → Solid r → refsAt structs k n r = .ok d → TopReads (refsAt structs k n) y r d) (T : Ty) :
    WellFormed T → TextMaps T → ∀ y r d, UniqueKeys y → UniqueKeys r → Solid r → deAt structs k T r = .ok d → TopReads (deAt structs k T) y r d := by
  have flat : ∀ {T : Ty}, PlainSections T → IsSection T = false → ∀ {y r : Value} {d : Data}, deAt structs k T r = .ok d → ¬ ComesBack y d → TopReads (deAt structs k T) y r d := by
    intro T hp hs y r d h hb
    refine topReads_same (overlaid_other (Or.inr ?_)) h hb
    cases hm : r.isMap with
    | false => rfl
    | true =>
      obtain ⟨m, rfl⟩ := isMap_entries hm
      exact absurd h (map_not_read hp hs m d)
  have leaf : ∀ {α : Type} {o : Outcome ModelError α} {f : α → Data} {y : Value} {d : Data}, (o >>= fun a => Outcome.ok (f a)) = .ok d →
      (∀ a, f a ≠ .none ∧ (∀ es, f a ≠ .map es) ∧ ∀ s, (∀ i, s ≠ DStep.idx i) → dchild (f a) s = none) → ¬ ComesBack y d := by
    intro α o f y d h hf
    obtain ⟨a, -, h⟩ := bind_eq_ok.1 h
    cases h
    exact back_flat (hf a).1 (hf a).2.1 (hf a).2.2
  have st : ∀ (s : DStep) (P : Prop), (∀ i, s ≠ DStep.idx i) → (s = .inner → P) → (∀ n, s = .field n → P) → (∀ n, s = .key n → P) → P := by
    intro s P h a b c
    cases s with
    | inner => exact a rfl
    | idx i => exact absurd rfl (h i)
    | field n => exact b n rfl
    | key n => exact c n rfl
  induction T using Ty.ind with
  | bool | int | f32 | f64 | char | string =>
    intro _ hp y r d _ _ _ h
    refine flat (.leaf (by simp) (by simp) (by simp) (by simp) (by simp)) rfl h ?_
    unfold deAt at h; rw [de] at h
    exact leaf h fun a => ⟨by simp, by simp, fun s hs => by cases s <;> first | rfl | exact absurd rfl (hs _)⟩
  | unit | unitStruct =>
    intro _ hp y r d _ _ _ h
    refine flat (.leaf (by simp) (by simp) (by simp) (by simp) (by simp)) rfl h ?_
    unfold deAt at h
    cases r <;> simp only [de, reduceCtorEq, Outcome.ok.injEq] at h
    rw [← h]
    exact back_flat (by simp) (by simp) fun s hs => by cases s <;> first | rfl | exact absurd rfl (hs _)
  | bytes | enum => intro _ _ y r d _ _ _ h; unfold deAt at h; rw [de] at h; cases h
  | value =>
    intro _ _ y r d hy hr hz h
    have read : ∀ v : Value, UniqueKeys v → deAt structs k .value v = .ok v.toData := by
      intro v hv
      unfold deAt
      rw [de, deValue_ok v hv]; rfl
    rw [read r hr] at h
    cases h
    have hv := value_topReads r y hy hr hz
    have huu := overlaid_unique (below := some y) (by rintro y h; cases h; exact hy) hr
    unfold TopReads
    rw [read _ huu]
    exact ⟨fun hb => ⟨_, rfl, hv.2 hb⟩, fun d' hd' hs => by cases hd'; exact hv.1 hs⟩
  | seq | tuple | tupleStruct =>
    intro _ hp y r d _ _ _ h
    refine flat (.leaf (by simp) (by simp) (by simp) (by simp) (by simp)) rfl h ?_
    unfold deAt at h
    cases r <;> simp only [de, reduceCtorEq] at h
    exact leaf h fun a => ⟨by simp, by simp, fun s hs => by cases s <;> first | rfl | exact absurd rfl (hs _)⟩
  | option t ih =>
    intro hw hp y r d hy hr hz h
    cases hw with | option hw =>
    have hp : TextMaps t := by
      cases hp with
      | leaf _ h => exact absurd rfl (h _)
      | option h => exact h
    unfold deAt at h ih ⊢
    rw [de] at h
    rotate_left
    · exact fun e => absurd e hz.1
    obtain ⟨e, he, h⟩ := bind_eq_ok.1 h
    cases h
    obtain ⟨i1, i2⟩ := ih hw hp y r e hy hr hz he
    have hu : ∀ d', de (refsAt structs k) (.option t) (overlaid (some y) r) = .ok d' ↔ ∃ e', de (refsAt structs k) t (overlaid (some y) r) = .ok e' ∧ d' = .some e' := by
      intro d'
      rw [de]
      · constructor
        · intro h
          obtain ⟨e', h1, h2⟩ := bind_eq_ok.1 h
          cases h2; exact ⟨e', h1, rfl⟩
        · rintro ⟨e', h1, rfl⟩; exact bind_eq_ok.2 ⟨e', h1, rfl⟩
      · exact fun e => absurd e (solid_overlaid hz)
    refine ⟨fun hb => ?_, fun d' hd' hs hb => ?_⟩
    · obtain ⟨e', h1, h2⟩ := i1 fun h => hb (.inner rfl h)
      exact ⟨.some e', (hu _).2 ⟨e', h1, rfl⟩, dsame_some h2⟩
    · obtain ⟨e', h1, rfl⟩ := (hu _).1 hd'
      obtain ⟨e'', h2, h3⟩ := dsame_step (s := .inner) hs rfl
      cases h2
      exact i2 e' h1 h3 (back_some hb)
  | newtype t ih =>
    intro hw hp y r d hy hr hz h
    cases hw with | newtype hw =>
    have hp : TextMaps t := by
      cases hp with
      | leaf _ _ h => exact absurd rfl (h _)
      | newtype h => exact h
    unfold deAt at h ih ⊢
    rw [de] at h
    obtain ⟨e, he, h⟩ := bind_eq_ok.1 h
    cases h
    obtain ⟨i1, i2⟩ := ih hw hp y r e hy hr hz he
    have hu : ∀ d', de (refsAt structs k) (.newtype t) (overlaid (some y) r) = .ok d' ↔ ∃ e', de (refsAt structs k) t (overlaid (some y) r) = .ok e' ∧ d' = .newtypeStruct e' := by
      intro d'
      rw [de]
      constructor
      · intro h
        obtain ⟨e', h1, h2⟩ := bind_eq_ok.1 h
        cases h2; exact ⟨e', h1, rfl⟩
      · rintro ⟨e', h1, rfl⟩; exact bind_eq_ok.2 ⟨e', h1, rfl⟩
    refine ⟨fun hb => ?_, fun d' hd' hs hb => ?_⟩
    · obtain ⟨e', h1, h2⟩ := i1 fun h => hb (.inner rfl h)
      exact ⟨.newtypeStruct e', (hu _).2 ⟨e', h1, rfl⟩, dsame_newtype h2⟩
    · obtain ⟨e', h1, rfl⟩ := (hu _).1 hd'
      obtain ⟨e'', h2, h3⟩ := dsame_step (s := .inner) hs rfl
      cases h2
      exact i2 e' h1 h3 (back_newtype hb)
  | ref n =>
    intro _ _ y r d hy hr hz h
    unfold deAt at h
    rw [de] at h
    obtain ⟨i1, i2⟩ := hrefs n y r d hy hr hz h
    refine ⟨fun hb => ?_, fun d' hd' => i2 d' (by unfold deAt at hd'; rw [de] at hd'; exact hd')⟩
    obtain ⟨d', h1, h2⟩ := i1 hb
    exact ⟨d', by unfold deAt; rw [de]; exact h1, h2⟩
  | struct fs ih =>
    intro hw hp y r d hy hr hz h
    cases hw with | struct hn hw =>
    have hp : ∀ f ∈ fs, TextMaps f.2 := by
      cases hp with
      | leaf _ _ _ h => exact absurd rfl (h _)
      | struct h => exact h
    unfold deAt at h ih ⊢
    obtain ⟨n, rfl⟩ := struct_map h
    have hun := uniqueKeys_map.1 hr
    obtain ⟨ds, rfl, h1⟩ := (de_struct_ok _ _ hn _ hun.1 _).1 h
    by_cases hym : ∃ m, y = .map m
    swap
    · refine topReads_same (overlaid_other (Or.inl fun m e => hym ⟨m, by cases e; rfl⟩)) h fun hb => ?_
      obtain ⟨m, _, _, _, e, -⟩ := back_struct hb
      exact hym ⟨m, e⟩
    obtain ⟨m, rfl⟩ := hym
    have hum := uniqueKeys_map.1 hy
    have huu := overlaid_unique (below := some (.map m)) (by rintro y h; cases h; exact hy) hr
    rw [overlaid_maps] at huu
    have huu := uniqueKeys_map.1 huu
    unfold TopReads
    rw [overlaid_maps]
    have hds : (ds.map Prod.fst) = fs.map Prod.fst := (fields_of h1).1
    have hdn : (ds.map Prod.fst).Nodup := by rw [hds]; exact hn
    obtain ⟨l1, h2⟩ := forall2_index h1
    -- one field
    have one : ∀ (i : Nat) f nd, fs[i]? = some f → ds[i]? = some nd →
        ((∀ x, hmGet m f.1 = some x → ¬ ComesBack x nd.2) → ∃ d', (match hmGet (mergeEntries m n) f.1 with | some v => de (refsAt structs k) f.2 v | none => missingField f.1 f.2) = .ok d' ∧ DSame nd.2 d') ∧
        ∀ d', (match hmGet (mergeEntries m n) f.1 with | some v => de (refsAt structs k) f.2 v | none => missingField f.1 f.2) = .ok d' → DSame nd.2 d' →
          ∀ x, hmGet m f.1 = some x → ¬ ComesBack x nd.2 := by
      intro i f nd hf hd
      have hmem := List.mem_of_getElem? hf
      have h3 := (h2 i f nd hf hd).2
      rw [hmGet_overlaid hun.1]
      cases hg : hmGet n f.1 with
      | none =>
        rw [hg] at h3
        obtain ⟨e1, u, e2⟩ := missing_cases h3
        cases hgm : hmGet m f.1 with
        | none => exact ⟨fun _ => ⟨_, h3, DSame.refl _⟩, fun d' _ _ x hx => nomatch hx⟩
        | some y =>
          rw [e1, e2]
          dsimp only
          refine ⟨fun hb => ?_, fun d' hd' hs x hx => ?_⟩
          · have hy0 : y = .none := by
              by_contra hne
              exact hb y rfl (.unset hne)
            subst hy0
            exact ⟨.none, by rw [de], DSame.refl _⟩
          · cases hx
            have : d' = .none := by
              have := hs []
              cases d' <;> simp only [dview, dhead, Option.some.injEq, reduceCtorEq] at this
              rfl
            subst this
            intro hb
            have hne := back_none hb
            rw [de] at hd'
            · obtain ⟨a, -, h⟩ := bind_eq_ok.1 hd'
              cases h
            · exact fun e => absurd e hne
      | some xv =>
        rw [hg] at h3
        dsimp only at h3 ⊢
        cases hgm : hmGet m f.1 with
        | none => exact ⟨fun _ => ⟨_, h3, DSame.refl _⟩, fun d' _ _ x hx => nomatch hx⟩
        | some y =>
          obtain ⟨i1, i2⟩ := ih f hmem (hw f hmem) (hp f hmem) y xv nd.2 (hum.2 _ (hmGet_mem hgm)) (hun.2 _ (hmGet_mem hg)) (solid_child hz hg) h3
          refine ⟨fun hb => i1 (hb y rfl), fun d' hd' hs x hx => ?_⟩
          cases hx
          exact i2 d' hd' hs
    have names : ∀ (i : Nat) f nd, fs[i]? = some f → ds[i]? = some nd → nd.1 = f.1 := fun i f nd hf hd => (h2 i f nd hf hd).1
    refine ⟨fun hb => ?_, fun d' hd' hs hb => ?_⟩
    · have each : ∀ (i : Nat) (f : String × Ty) (nd : String × Data), fs[i]? = some f → ds[i]? = some nd → ∃ d', (match hmGet (mergeEntries m n) f.1 with | some v => de (refsAt structs k) f.2 v | none => missingField f.1 f.2) = .ok d' ∧ DSame nd.2 d' := by
        intro i f nd hf hd
        refine (one i f nd hf hd).1 fun x hx hc => hb ?_
        refine .field (name := f.1) (by rw [child_key_map]; exact hx) (by rw [dchild_struct, ← names i f nd hf hd]; exact hmGet_of_mem' hdn (List.mem_of_getElem? hd)) hc
      have all : ∀ a ∈ fs.zip ds, ∃ nd' : String × Data, nd'.1 = a.1.1 ∧ (match hmGet (mergeEntries m n) a.1.1 with | some v => de (refsAt structs k) a.1.2 v | none => missingField a.1.1 a.1.2) = .ok nd'.2 ∧ DSame a.2.2 nd'.2 := by
        intro a ha
        obtain ⟨i, hi⟩ := List.mem_iff_getElem?.1 ha
        rw [List.getElem?_zip_eq_some] at hi
        obtain ⟨d', g1, g2⟩ := each i a.1 a.2 hi.1 hi.2
        exact ⟨(a.1.1, d'), rfl, g1, g2⟩
      obtain ⟨ds', hds'⟩ := forall2_exists all
      obtain ⟨l2, h4⟩ := forall2_index hds'
      have hzl : (fs.zip ds).length = fs.length := by rw [List.length_zip]; omega
      refine ⟨.struct ds', (de_struct_ok _ _ hn _ huu.1 _).2 ⟨ds', rfl, forall2_of_index (by omega) fun i f nd' hf hd' => ?_⟩, dsame_struct (forall2_of_index (by omega) fun i nd nd' hd hd' => ?_)⟩
      · obtain ⟨nd, hnd⟩ := get_of_lt (show i < ds.length by have := lt_of_get hf; omega)
        have := h4 i (f, nd) nd' (by rw [List.getElem?_zip_eq_some]; exact ⟨hf, hnd⟩) hd'
        exact ⟨this.1, this.2.1⟩
      · obtain ⟨f, hf⟩ := get_of_lt (show i < fs.length by have := lt_of_get hd; omega)
        have := h4 i (f, nd) nd' (by rw [List.getElem?_zip_eq_some]; exact ⟨hf, hd⟩) hd'
        exact ⟨(names i f nd hf hd).trans this.1.symm, this.2.2⟩
    · obtain ⟨m', name, x, d, e, g1, g2, g3⟩ := back_struct hb
      cases e
      obtain ⟨ds', rfl, h1'⟩ := (de_struct_ok _ _ hn _ huu.1 _).1 hd'
      obtain ⟨l1', h2'⟩ := forall2_index h1'
      obtain ⟨i, hi⟩ := List.mem_iff_getElem?.1 (hmGet_mem g2)
      obtain ⟨f, hf⟩ := get_of_lt (show i < fs.length by have := lt_of_get hi; omega)
      obtain ⟨nd', hnd'⟩ := get_of_lt (show i < ds'.length by have := lt_of_get hi; omega)
      have hname : name = f.1 := names i f _ hf hi
      obtain ⟨e1, e2⟩ := h2' i f nd' hf hnd'
      have hdn' : (ds'.map Prod.fst).Nodup := by rw [(fields_of h1').1]; exact hn
      obtain ⟨d'', c1, c2⟩ := dsame_step (s := .field name) hs (by rw [dchild_struct]; exact g2)
      rw [dchild_struct, hname, ← e1, hmGet_of_mem' hdn' (List.mem_of_getElem? hnd')] at c1
      cases c1
      exact (one i f (name, d) hf hi).2 nd'.2 e2 c2 x (by rw [← hname]; exact g1) g3
  | map kt t ih =>
    intro hw hp y r d hy hr hz h
    cases hw with | map hw =>
    have hp : kt = .string ∧ TextMaps t := by
      cases hp with
      | leaf h => exact absurd rfl (h _ _)
      | map h => exact ⟨rfl, h⟩
    obtain ⟨rfl, hpt⟩ := hp
    unfold deAt at h ih ⊢
    have hrm : ∃ n, r = .map n := by
      cases r <;> simp only [de, reduceCtorEq] at h
      exact ⟨_, rfl⟩
    obtain ⟨n, rfl⟩ := hrm
    have hun := uniqueKeys_map.1 hr
    obtain ⟨es, rfl, h1⟩ := (text_map_ok hun.1).1 h
    have hkeys := text_keys (fun x d => de (refsAt structs k) t x = .ok d) h1
    have hen : (es.map Prod.fst).Nodup := by rw [hkeys]; exact hun.1
    by_cases hym : ∃ m, y = .map m
    swap
    · refine topReads_same (overlaid_other (Or.inl fun m e => hym ⟨m, by cases e; rfl⟩)) h fun hb => ?_
      obtain ⟨m, _, _, e, -⟩ := back_texts hb
      exact hym ⟨m, e⟩
    obtain ⟨m, rfl⟩ := hym
    have hum := uniqueKeys_map.1 hy
    have huu := overlaid_unique (below := some (.map m)) (by rintro y h; cases h; exact hy) hr
    rw [overlaid_maps] at huu
    have huu := uniqueKeys_map.1 huu
    unfold TopReads
    rw [overlaid_maps]
    -- what an entry on top alone reads as
    have top : ∀ key d, hmGet es key = some d → ∃ x, hmGet n key = some x ∧ de (refsAt structs k) t x = .ok d := by
      intro key d hd
      obtain ⟨a, ha, a1, a2⟩ := forall2_right h1 _ (hmGet_mem hd)
      have := hmGet_of_mem' hun.1 ha
      rw [← a1] at this
      exact ⟨a.2, this, a2⟩
    refine ⟨fun hb => ?_, fun d' hd' hs hb => ?_⟩
    · have hall : ∀ key x, hmGet m key = some x → ∃ d, hmGet es key = some d ∧ ¬ ComesBack x d := by
        intro key x hx
        have hc : child (.map m) (.key key) = some x := by rw [child_key_map]; exact hx
        cases hg : hmGet es key with
        | none => exact absurd (ComesBack.entry hc (by rw [dchild_texts]; exact hg)) hb
        | some d => exact ⟨d, rfl, fun h => hb (.within hc (by rw [dchild_texts]; exact hg) h)⟩
      have hkey : ∀ key, key ∈ (mergeEntries m n).map Prod.fst ↔ key ∈ es.map Prod.fst := by
        intro key
        rw [keys_mergeEntries n m hun.1, hkeys, List.mem_append, List.mem_filter]
        constructor
        · rintro (h | h)
          · cases hg : hmGet m key with
            | none => exact absurd h (hmGet_eq_none.1 hg)
            | some x =>
              obtain ⟨d, h1, -⟩ := hall key x hg
              rw [← hkeys]
              exact List.mem_map_of_mem (hmGet_mem h1)
          · exact h.1
        · intro h
          by_cases hm : key ∈ m.map Prod.fst
          · exact Or.inl hm
          · exact Or.inr ⟨h, by simpa using hm⟩
      obtain ⟨es', he'⟩ := forall2_exists (l := mergeEntries m n) (R := fun (e : String × Value) (nd : String × Data) => nd.1 = e.1 ∧ de (refsAt structs k) t e.2 = .ok nd.2 ∧
          ∃ d, hmGet es e.1 = some d ∧ DSame d nd.2) (by
        intro e he
        obtain ⟨o, ho, hoe⟩ := List.mem_map.1 ((hkey e.1).1 (List.mem_map_of_mem he))
        have hd := hmGet_of_mem' hen ho
        rw [hoe] at hd
        obtain ⟨x, hx, hdx⟩ := top _ _ hd
        have hg := hmGet_of_mem' huu.1 he
        rw [hmGet_overlaid hun.1, hx] at hg
        dsimp only at hg
        rw [Option.some.injEq] at hg
        cases hm : hmGet m e.1 with
        | none =>
          rw [hm] at hg
          exact ⟨(e.1, o.2), rfl, by rw [← hg]; exact hdx, o.2, hd, DSame.refl _⟩
        | some z =>
          rw [hm] at hg
          obtain ⟨d, c1, c2⟩ := hall _ _ hm
          rw [hd] at c1
          cases c1
          obtain ⟨d', g1, g2⟩ := (ih hw hpt z x o.2 (hum.2 _ (hmGet_mem hm)) (hun.2 _ (hmGet_mem hx)) (solid_child hz hx) hdx).1 c2
          exact ⟨(e.1, d'), rfl, by rw [← hg]; exact g1, o.2, hd, g2⟩)
      have hk' := text_keys (fun _ _ => True) (he'.imp fun _ _ h => ⟨h.1, trivial⟩)
      refine ⟨_, (text_map_ok huu.1).2 ⟨es', rfl, he'.imp fun _ _ h => ⟨h.1, h.2.1⟩⟩, dsame_texts fun key => ⟨?_, fun x y hx hy => ?_⟩⟩
      · rw [hmGet_eq_none, hmGet_eq_none, hk', hkey]
      · obtain ⟨e, -, e1, -, d, e2, e3⟩ := forall2_right he' _ (hmGet_mem hy)
        rw [← e1, hx] at e2
        cases e2
        exact e3
    · obtain ⟨es', rfl, h1'⟩ := (text_map_ok huu.1).1 hd'
      obtain ⟨m', key, x, e, g1, g2⟩ := back_texts hb
      cases e
      rcases g2 with g2 | ⟨d, g2, g3⟩
      · have h5 := dsame_no_step hs (s := .key (.str key)) (by rw [dchild_texts]; exact g2)
        rw [dchild_texts, hmGet_eq_none, text_keys (fun x d => de (refsAt structs k) t x = .ok d) h1', keys_mergeEntries n m hun.1, List.mem_append] at h5
        exact h5 (Or.inl (List.mem_map_of_mem (hmGet_mem g1)))
      · obtain ⟨d', c1, c2⟩ := dsame_step hs (s := .key (.str key)) (by rw [dchild_texts]; exact g2)
        rw [dchild_texts] at c1
        obtain ⟨z, hzn, hdz⟩ := top key d g2
        obtain ⟨a, ha, a1, a2⟩ := forall2_right h1' _ (hmGet_mem c1)
        have hg := hmGet_of_mem' huu.1 ha
        rw [hmGet_overlaid hun.1, ← a1, hzn, g1] at hg
        dsimp only at hg
        rw [Option.some.injEq] at hg
        refine (ih hw hpt x z d (hum.2 _ (hmGet_mem g1)) (hun.2 _ (hmGet_mem hzn)) (solid_child hz hzn) hdz).2 d' (by rw [hg]; exact a2) c2 g3

theorem topReads_refs {structs : Nat → List (String × Ty)} (hs : ∀ n, WellFormed (.struct (structs n))) (hsm : ∀ n, TextMaps (.struct (structs n))) (k : Nat) :
    ∀ n y r d, UniqueKeys y → UniqueKeys r → Solid r → refsAt structs k n r = .ok d → TopReads (refsAt structs k n) y r d := by
  induction k with
  | zero => intro n y r d _ _ _ h; cases h
  | succ k ih => intro n y r d hy hr hz h; exact topReads_de ih _ (hs n) (hsm n) y r d hy hr hz h

/-! ## The theorems -/

/-- **C147.** Layers that say `v`, and a layer on top of them none of whose entries is `None`, from which alone the settings `d` can be read. The program reads these settings from all of them
together exactly if nothing of the layers below comes back. -/
theorem C147_top (b : Build) (fm : Formats) (calls : List RegCall) (w : World) (skip : Bool) (v v' : Value)
    (h : (register b fm calls).buildValue w skip = .ok v) (hp : ∀ e ∈ firsts (offers b fm calls), Proper e.2)
    (call : RegCall) (e : String × Layer) (ho : call.offer b fm = some e) (hnew : ∀ a ∈ offers b fm calls, a.1 ≠ e.1)
    (x : Value) (hx : e.2.readValue w = .ok x) (hxu : UniqueKeys x) (hz : ∀ p, ¬ NullEntry x p)
    (h' : (register b fm (calls ++ [call])).buildValue w skip = .ok v')
    (structs : Nat → List (String × Ty)) (hs : ∀ n, WellFormed (.struct (structs n))) (hsm : ∀ n, TextMaps (.struct (structs n)))
    (fs : List (String × Ty)) (hT : WellFormed (.struct fs)) (hTm : TextMaps (.struct fs)) (k : Nat) (d : Data) (hd : deAt structs k (.struct fs) x = .ok d) :
    (∃ d', deAt structs k (.struct fs) v' = .ok d' ∧ DSame d d') ↔ ¬ ComesBack v d := by
  obtain ⟨hvm, hvu⟩ := C08_map b fm calls w skip v h
  obtain ⟨n, rfl⟩ := struct_map hd
  rw [C14_add_last b fm calls call w skip e _ v ho hnew hx h] at h'
  cases h'
  obtain ⟨h1, h2⟩ := topReads_de (topReads_refs hs hsm k) _ hT hTm v (.map n) d (hvu hp) hxu ⟨by simp, hz⟩ hd
  rw [overlaid_top hvm rfl] at h1 h2
  exact ⟨fun ⟨d', e1, e2⟩ => h2 d' e1 e2, h1⟩

/-- **C147.** A program serializes settings and saves them to a TOML file, which is its last layer. From then on it reads them back — from all its layers, whatever the others say now — exactly if
nothing of the others comes back. -/
theorem C147_saved {limit : Nat} {cd : Codec} (htl : TomlLike limit cd) (structs : Nat → List (String × Ty))
    (hs : ∀ n, Survives (.struct (structs n))) (hsc : ∀ n, Concrete (.struct (structs n))) (hso : ∀ n, OmitsNone (.struct (structs n))) (hsm : ∀ n, TextMaps (.struct (structs n)))
    (fs : List (String × Ty)) (hT : Survives (.struct fs)) (hTc : Concrete (.struct fs)) (hTo : OmitsNone (.struct fs)) (hTm : TextMaps (.struct fs))
    (d : Data) (hd : HasType structs (.struct fs) d) (x : Value) (hx : ser d = .ok x) (hdepth : DepthBelow x limit) (w w' : World) (path : OsStr)
    (hok : (Layer.newFile (textHandler cd) path).writeValue w x = (.ok (), w')) (hread : ∀ bs code wr, w.disk (w.locate path) ≠ .file bs (some code) wr)
    (b : Build) (fm : Formats) (hf : FormatOf b fm path cd) (calls : List RegCall) (name : String) (hnew : ∀ a ∈ offers b fm calls, a.1 ≠ name)
    (w2 : World) (hsame : (Layer.newFile (textHandler cd) path).readValue w2 = (Layer.newFile (textHandler cd) path).readValue w')
    (skip : Bool) (v : Value) (h : (register b fm calls).buildValue w2 skip = .ok v) (hp : ∀ e ∈ firsts (offers b fm calls), Proper e.2) :
    ∃ v', (register b fm (calls ++ [.file name path])).buildValue w2 skip = .ok v' ∧
      ((∃ k d', deAt structs k (.struct fs) v' = .ok d' ∧ DSame d d') ↔ ¬ ComesBack v d) ∧
      (¬ ComesBack v d → ∃ k0, ∀ k, k0 ≤ k → ∃ d', deAt structs k (.struct fs) v' = .ok d' ∧ DSame d d') := by
  obtain ⟨r, hr, k0, hk0⟩ := C84_typed htl structs hs hsc hso _ hT hTc hTo d hd x hx hdepth w w' path hok hread
  obtain ⟨-, s, r', h3, hom, -, hal, hur⟩ := toml_stored htl (uniqueKeys_ser d x hx) hdepth hok hread
  rw [hr] at h3
  cases h3
  have hz : ∀ p, ¬ NullEntry r p := by
    rintro p ⟨hp, hn⟩
    have ha := alikeOmitting_of hom hal
    by_cases hv : NullEntry x p
    · rw [(ha p).1 hv] at hn; cases hn
    · rcases (ha p).2 hv with ⟨-, h2⟩ | ⟨a, c, h1, h2, h3⟩
      · rw [h2] at hn; cases hn
      · rw [h2, Option.some.injEq] at hn
        subst hn
        rcases h3 with rfl | ⟨n, -, h3⟩
        · exact hv ⟨hp, h1⟩
        · cases h3
  rw [hr] at hsame
  have hadd := C14_add_last b fm calls (.file name path) w2 skip (name, .file (textHandler cd) path) r v (TextFmt.offer hf name) hnew hsame h
  have main : ∀ k, k0 ≤ k → ((∃ d', deAt structs k (.struct fs) (v.merge r) = .ok d' ∧ DSame d d') ↔ ¬ ComesBack v d) := by
    intro k hk
    obtain ⟨d1, e1, e2⟩ := hk0 k hk
    have := C147_top b fm calls w2 skip v _ h hp (.file name path) (name, .file (textHandler cd) path) (TextFmt.offer hf name) hnew r hsame hur hz hadd structs
      (fun n => wellFormed_of_survives (hs n)) hsm fs (wellFormed_of_survives hT) hTm k d1 e1
    constructor
    · rintro ⟨d', g1, g2⟩ hb
      exact this.1 ⟨d', g1, DSame.trans (DSame.symm e2) g2⟩ (comesBack_same hb _ e2)
    · intro hb
      obtain ⟨d', g1, g2⟩ := this.2 fun hb' => hb (comesBack_same hb' _ (DSame.symm e2))
      exact ⟨d', g1, DSame.trans e2 g2⟩
  refine ⟨_, hadd, ⟨?_, fun hb => ?_⟩, fun hb => ⟨k0, fun k hk => (main k hk).2 hb⟩⟩
  · rintro ⟨k, d', g1, g2⟩
    exact (main (max k k0) (by omega)).1 ⟨d', reads_more g1 (by omega), g2⟩
  · obtain ⟨d', h⟩ := (main k0 (le_refl _)).2 hb
    exact ⟨k0, d', h⟩

/-! ## Layers above the file -/

theorem firsts_more {α : Type} (a b : List (String × α)) : ∃ c, firsts (a ++ b) = firsts a ++ c ∧ ∀ e ∈ c, e ∈ b := by
  induction a with
  | nil =>
    refine ⟨firsts b, rfl, ?_⟩
    induction b with
    | nil => intro e he; cases he
    | cons x r ih =>
      intro e he
      rcases List.mem_cons.1 he with rfl | he
      · simp
      · exact List.mem_cons_of_mem _ (ih e (List.mem_filter.1 he).1)
  | cons x r ih =>
    obtain ⟨c, h1, h2⟩ := ih
    refine ⟨c.filter fun e => e.1 ≠ x.1, ?_, fun e he => h2 e (List.mem_filter.1 he).1⟩
    obtain ⟨k, v⟩ := x
    rw [List.cons_append, firsts, h1, List.filter_append, firsts, List.cons_append]

/-- Layers added after all others that say nothing about a path change nothing there. -/
theorem quiet_above {b : Build} {fm : Formats} {calls more : List RegCall} {w : World} {skip : Bool} {v v' : Value}
    (h : (register b fm calls).buildValue w skip = .ok v) (h' : (register b fm (calls ++ more)).buildValue w skip = .ok v')
    (hp : ∀ a ∈ firsts (offers b fm calls), Proper a.2) (hp' : ∀ a ∈ offers b fm more, Proper a.2) (p : Path) (hno : ∀ a ∈ offers b fm more, ¬ Speaks w a.2 p) :
    view v p = view v' p := by
  obtain ⟨c, h1, h2⟩ := firsts_more (offers b fm calls) (offers b fm more)
  have e : firsts (offers b fm (calls ++ more)) = firsts (offers b fm calls) ++ c := by
    rw [← h1]; unfold offers; rw [List.filterMap_append]
  have hpc : ∀ a ∈ firsts (offers b fm calls) ++ c, Proper a.2 := by
    intro a ha
    rcases List.mem_append.1 ha with ha | ha
    · exact hp a ha
    · exact hp' a (h2 a ha)
  rw [build_ok h, build_ok h', e]
  rcases C07_cases w (firsts (offers b fm calls)) p with hb | ⟨b1, e1, a1, x, e2, hx, hm, hs, hlast⟩
  · rw [(build_speaks hp p).2 hb, (build_speaks hpc p).2]
    intro a ha
    rcases List.mem_append.1 ha with ha | ha
    · exact hb a ha
    · exact hno a (h2 a ha)
  · rw [(build_speaks hp p).1 b1 e1 a1 x e2 hx hm hs hlast, (build_speaks hpc p).1 b1 e1 (a1 ++ c) x (by rw [e2]; simp) hx hm hs]
    intro a ha
    rcases List.mem_append.1 ha with ha | ha
    · exact hlast a ha
    · exact hno a (h2 a ha)

/-- The same settings are read with further layers above that say nothing where the type looks. -/
theorem read_under {b : Build} {fm : Formats} {calls more : List RegCall} {cd : Codec} {name : String} {path : OsStr} (hf : FormatOf b fm path cd)
    (hp : ∀ e ∈ firsts (offers b fm calls), Proper e.2) {w2 : World} {skip : Bool} {v0 v' : Value}
    (h0 : (register b fm (calls ++ [.file name path])).buildValue w2 skip = .ok v0) (hmp : ∀ a ∈ offers b fm more, Proper a.2)
    {structs : Nat → List (String × Ty)} (hs : ∀ n, WellFormed (.struct (structs n))) {fs : List (String × Ty)} (hT : WellFormed (.struct fs))
    (hno : ∀ a ∈ offers b fm more, ∀ p, Looks structs (.struct fs) p → p ≠ [] → ¬ Speaks w2 a.2 p)
    (h' : (register b fm (calls ++ .file name path :: more)).buildValue w2 skip = .ok v') (hc : ¬ KeyClash structs (.struct fs) v') (d : Data) :
    (∃ k d', deAt structs k (.struct fs) v' = .ok d' ∧ DSame d d') ↔ ∃ k d', deAt structs k (.struct fs) v0 = .ok d' ∧ DSame d d' := by
  have hoff : offers b fm (calls ++ [.file name path]) = offers b fm calls ++ [(name, .file (textHandler cd) path)] := by
    unfold offers
    rw [List.filterMap_append]
    simp [TextFmt.offer hf name]
  have hp0 : ∀ e ∈ firsts (offers b fm (calls ++ [.file name path])), Proper e.2 := by
    obtain ⟨c, h1, h2⟩ := firsts_more (offers b fm calls) [(name, .file (textHandler cd) path)]
    rw [hoff, h1]
    intro e he
    rcases List.mem_append.1 he with he | he
    · exact hp e he
    · exact C08_builtin_proper b fm (.file name path) e trivial (by simp) (by rw [TextFmt.offer hf name, List.mem_singleton.1 (h2 e he)])
  have e : calls ++ .file name path :: more = (calls ++ [.file name path]) ++ more := by simp
  have hu0 := (C08_map b fm _ w2 skip v0 h0).2 hp0
  have hu' := (C08_map b fm _ w2 skip v' h').2 (by
    rw [e]
    intro a ha
    obtain ⟨c, h1, h2⟩ := firsts_more (offers b fm (calls ++ [.file name path])) (offers b fm more)
    rw [show offers b fm ((calls ++ [.file name path]) ++ more) = _ from List.filterMap_append, show List.filterMap (RegCall.offer b fm) _ = offers b fm (calls ++ [.file name path]) from rfl,
      show List.filterMap (RegCall.offer b fm) _ = offers b fm more from rfl, h1] at ha
    rcases List.mem_append.1 ha with ha | ha
    · exact hp0 a ha
    · exact hmp a (h2 a ha))
  have hview : ∀ p, Looks structs (.struct fs) p → view v' p = view v0 p := by
    intro p hl
    by_cases hne : p = []
    · subst hne
      obtain ⟨m, rfl⟩ := isMap_entries (C08_map b fm _ w2 skip v0 h0).1
      obtain ⟨n, rfl⟩ := isMap_entries (C08_map b fm _ w2 skip v' h').1
      rfl
    · rw [e] at h'
      exact (quiet_above h0 h' hp0 hmp p fun a ha => hno a ha p hl hne).symm
  have foot := fun k => C119_footprint structs hs (.struct fs) hT k v' v0 hu' hu0 hview hc
  constructor
  · rintro ⟨k, d', g1, g2⟩
    obtain ⟨d0, g3⟩ := (foot k).1.1 ⟨d', g1⟩
    exact ⟨k, d0, g3, DSame.trans g2 ((foot k).2 d' d0 g1 g3)⟩
  · rintro ⟨k, d0, g1, g2⟩
    obtain ⟨d', g3⟩ := (foot k).1.2 ⟨d0, g1⟩
    exact ⟨k, d', g3, DSame.trans g2 (DSame.symm ((foot k).2 d' d0 g3 g1))⟩

/-- **C147.** The same with further layers above the file, if these say nothing about anything the settings type looks at: what is saved is what is read, exactly if nothing comes back from below. -/
theorem C147_under {limit : Nat} {cd : Codec} (htl : TomlLike limit cd) (structs : Nat → List (String × Ty))
    (hs : ∀ n, Survives (.struct (structs n))) (hsc : ∀ n, Concrete (.struct (structs n))) (hso : ∀ n, OmitsNone (.struct (structs n))) (hsm : ∀ n, TextMaps (.struct (structs n)))
    (fs : List (String × Ty)) (hT : Survives (.struct fs)) (hTc : Concrete (.struct fs)) (hTo : OmitsNone (.struct fs)) (hTm : TextMaps (.struct fs))
    (d : Data) (hd : HasType structs (.struct fs) d) (x : Value) (hx : ser d = .ok x) (hdepth : DepthBelow x limit) (w w' : World) (path : OsStr)
    (hok : (Layer.newFile (textHandler cd) path).writeValue w x = (.ok (), w')) (hread : ∀ bs code wr, w.disk (w.locate path) ≠ .file bs (some code) wr)
    (b : Build) (fm : Formats) (hf : FormatOf b fm path cd) (calls : List RegCall) (name : String) (hnew : ∀ a ∈ offers b fm calls, a.1 ≠ name)
    (w2 : World) (hsame : (Layer.newFile (textHandler cd) path).readValue w2 = (Layer.newFile (textHandler cd) path).readValue w')
    (skip : Bool) (v : Value) (h : (register b fm calls).buildValue w2 skip = .ok v) (hp : ∀ e ∈ firsts (offers b fm calls), Proper e.2)
    (more : List RegCall) (hmp : ∀ a ∈ offers b fm more, Proper a.2) (hno : ∀ a ∈ offers b fm more, ∀ p, Looks structs (.struct fs) p → p ≠ [] → ¬ Speaks w2 a.2 p)
    (v' : Value) (h' : (register b fm (calls ++ .file name path :: more)).buildValue w2 skip = .ok v') (hc : ¬ KeyClash structs (.struct fs) v') :
    (∃ k d', deAt structs k (.struct fs) v' = .ok d' ∧ DSame d d') ↔ ¬ ComesBack v d := by
  obtain ⟨v0, h0, hiff, -⟩ := C147_saved htl structs hs hsc hso hsm fs hT hTc hTo hTm d hd x hx hdepth w w' path hok hread b fm hf calls name hnew w2 hsame skip v h hp
  rw [← hiff]
  exact read_under hf hp h0 hmp (fun n => wellFormed_of_survives (hs n)) (wellFormed_of_survives hT) hno h' hc d

/-! ## Nothing else on top helps -/

/-- What a place becomes, about which a layer on top says nothing or something. -/
def Over (y u : Value) : Prop := u = y ∨ ∃ x, UniqueKeys x ∧ Solid x ∧ u = overlaid (some y) x

theorem over_none {y : Value} (h : Over y .none) : y = .none := by
  rcases h with h | ⟨x, -, hz, h⟩
  · exact h.symm
  · exact absurd h.symm (solid_overlaid hz)

theorem over_child {m mu : Entries} (h : Over (.map m) (.map mu)) {key : String} {z : Value} (hz : hmGet m key = some z) : ∃ z', hmGet mu key = some z' ∧ Over z z' := by
  rcases h with h | ⟨x, hu, hs, h⟩
  · cases h; exact ⟨z, hz, Or.inl rfl⟩
  · cases hm : x.isMap with
    | false =>
      rw [overlaid_other (Or.inr hm)] at h
      subst h; cases hm
    | true =>
      obtain ⟨n, rfl⟩ := isMap_entries hm
      rw [overlaid_maps] at h
      cases h
      have hun := uniqueKeys_map.1 hu
      rw [hmGet_overlaid hun.1, hz]
      cases hg : hmGet n key with
      | none => exact ⟨z, rfl, Or.inl rfl⟩
      | some x => exact ⟨_, rfl, Or.inr ⟨x, hun.2 _ (hmGet_mem hg), solid_child hs hg, rfl⟩⟩

theorem value_nothing_back (u : Value) : ∀ y, UniqueKeys u → Over y u → ¬ ComesBack y u.toData := by
  have flat : ∀ (r y : Value), r.isMap = false → Over y r → ¬ ComesBack y r.toData := by
    intro r y hm ho
    by_cases hn : r = .none
    · subst hn
      intro h
      simp only [Value.toData] at h
      exact back_none h (over_none ho)
    refine back_flat ?_ ?_ ?_
    · intro h
      cases r <;> first | exact hn rfl | (simp [Value.toData] at h; done)
    · intro es h
      cases r <;> first | (simp [Value.toData] at h; done) | cases hm
    · intro s hs
      cases r <;> first | (cases s <;> first | (simp only [Value.toData]; rfl) | exact absurd rfl (hs _)) | cases hm
  induction u using Value.ind with
  | map n ih =>
    intro y hu ho hb
    have hun := uniqueKeys_map.1 hu
    rw [toData_texts] at hb
    obtain ⟨m, key, x, rfl, g1, g2⟩ := back_texts hb
    obtain ⟨z, hz, hov⟩ := over_child ho g1
    rw [hmGet_datas, hz] at g2
    rcases g2 with g2 | ⟨d, g2, g3⟩
    · cases g2
    · cases g2
      exact ih _ (hmGet_mem hz) x (hun.2 _ (hmGet_mem hz)) hov g3
  | none | boolean | integer | longInteger | uInteger | uLongInteger | float | string | array => exact fun y _ ho => flat _ y rfl ho

theorem nothing_back {structs : Nat → List (String × Ty)} {k : Nat}
    (hrefs : ∀ n y u d, UniqueKeys u → refsAt structs k n u = .ok d → Over y u → ¬ ComesBack y d) (T : Ty) :
    WellFormed T → TextMaps T → ∀ y u d, UniqueKeys u → deAt structs k T u = .ok d → Over y u → ¬ ComesBack y d := by
  unfold deAt
  have leaf : ∀ {α : Type} {o : Outcome ModelError α} {f : α → Data} {y : Value} {d : Data}, (o >>= fun a => Outcome.ok (f a)) = .ok d →
      (∀ a, f a ≠ .none ∧ (∀ es, f a ≠ .map es) ∧ ∀ s, (∀ i, s ≠ DStep.idx i) → dchild (f a) s = none) → ¬ ComesBack y d := by
    intro α o f y d h hf
    obtain ⟨a, -, h⟩ := bind_eq_ok.1 h
    cases h
    exact back_flat (hf a).1 (hf a).2.1 (hf a).2.2
  induction T using Ty.ind with
  | bool | int | f32 | f64 | char | string =>
    intro _ _ y u d _ h _
    rw [de] at h
    exact leaf h fun a => ⟨by simp, by simp, fun s hs => by cases s <;> first | rfl | exact absurd rfl (hs _)⟩
  | unit | unitStruct =>
    intro _ _ y u d _ h _
    cases u <;> simp only [de, reduceCtorEq, Outcome.ok.injEq] at h
    rw [← h]
    exact back_flat (by simp) (by simp) fun s hs => by cases s <;> first | rfl | exact absurd rfl (hs _)
  | bytes | enum => intro _ _ y u d _ h; rw [de] at h; cases h
  | value =>
    intro _ _ y u d hu h ho hb
    rw [de, deValue_ok u hu] at h
    cases h
    exact value_nothing_back u y hu ho hb
  | seq | tuple | tupleStruct =>
    intro _ _ y u d _ h _
    cases u <;> simp only [de, reduceCtorEq] at h
    exact leaf h fun a => ⟨by simp, by simp, fun s hs => by cases s <;> first | rfl | exact absurd rfl (hs _)⟩
  | option t ih =>
    intro hw hp y u d hu h ho hb
    cases hw with | option hw =>
    have hp : TextMaps t := by
      cases hp with
      | leaf _ h => exact absurd rfl (h _)
      | option h => exact h
    by_cases hu0 : u = .none
    · subst hu0
      simp only [de, Outcome.ok.injEq] at h
      rw [← h] at hb
      exact back_none hb (over_none ho)
    · rw [de] at h
      · obtain ⟨e, he, h⟩ := bind_eq_ok.1 h
        cases h
        exact ih hw hp y u e hu he ho (back_some hb)
      · exact fun e => absurd e hu0
  | newtype t ih =>
    intro hw hp y u d hu h ho hb
    cases hw with | newtype hw =>
    have hp : TextMaps t := by
      cases hp with
      | leaf _ _ h => exact absurd rfl (h _)
      | newtype h => exact h
    rw [de] at h
    obtain ⟨e, he, h⟩ := bind_eq_ok.1 h
    cases h
    exact ih hw hp y u e hu he ho (back_newtype hb)
  | ref n => intro _ _ y u d hu h; rw [de] at h; exact hrefs n y u d hu h
  | struct fs ih =>
    intro hw hp y u d hu h ho hb
    cases hw with | struct hn hw =>
    have hp : ∀ f ∈ fs, TextMaps f.2 := by
      cases hp with
      | leaf _ _ _ h => exact absurd rfl (h _)
      | struct h => exact h
    obtain ⟨mu, rfl⟩ := struct_map h
    have huu := uniqueKeys_map.1 hu
    obtain ⟨ds, rfl, h1⟩ := (de_struct_ok _ _ hn _ huu.1 _).1 h
    obtain ⟨m, name, x, d, rfl, g1, g2, g3⟩ := back_struct hb
    obtain ⟨f, hf, e1, e2⟩ := forall2_right h1 _ (hmGet_mem g2)
    dsimp only at e1 e2
    obtain ⟨z, hz, hov⟩ := over_child ho g1
    rw [← e1, hz] at e2
    exact ih f hf (hw f hf) (hp f hf) x z d (huu.2 _ (hmGet_mem hz)) e2 hov g3
  | map kt t ih =>
    intro hw hp y u d hu h ho hb
    cases hw with | map hw =>
    have hp : kt = .string ∧ TextMaps t := by
      cases hp with
      | leaf h => exact absurd rfl (h _ _)
      | map h => exact ⟨rfl, h⟩
    obtain ⟨rfl, hpt⟩ := hp
    have hum : ∃ n, u = .map n := by
      cases u <;> simp only [de, reduceCtorEq] at h
      exact ⟨_, rfl⟩
    obtain ⟨mu, rfl⟩ := hum
    have huu := uniqueKeys_map.1 hu
    obtain ⟨es, rfl, h1⟩ := (text_map_ok huu.1).1 h
    have hkeys := text_keys (fun x d => de (refsAt structs k) t x = .ok d) h1
    obtain ⟨m, key, x, rfl, g1, g2⟩ := back_texts hb
    obtain ⟨z, hz, hov⟩ := over_child ho g1
    rcases g2 with g2 | ⟨d, g2, g3⟩
    · rw [hmGet_eq_none, hkeys] at g2
      exact g2 (List.mem_map_of_mem (hmGet_mem hz))
    · obtain ⟨e, he, e1, e2⟩ := forall2_right h1 _ (hmGet_mem g2)
      have := hmGet_of_mem' huu.1 he
      rw [← e1, hz] at this
      cases this
      exact ih hw hpt x _ d (huu.2 _ he) e2 hov g3

theorem nothing_back_refs {structs : Nat → List (String × Ty)} (hs : ∀ n, WellFormed (.struct (structs n))) (hsm : ∀ n, TextMaps (.struct (structs n))) (k : Nat) :
    ∀ n y u d, UniqueKeys u → refsAt structs k n u = .ok d → Over y u → ¬ ComesBack y d := by
  induction k with
  | zero => intro n y u d _ h; cases h
  | succ k ih => intro n y u d hu h; exact nothing_back ih _ (hs n) (hsm n) y u d hu h

/-- **C147.** Then nothing else on top helps: settings for which something would come back are brought about by no layer of the crate on top — no TOML file, whatever is in it, no environment, no
memory layer without `None`. -/
theorem C147_else (b : Build) (fm : Formats) (calls : List RegCall) (w : World) (skip : Bool) (v v' : Value)
    (h : (register b fm calls).buildValue w skip = .ok v) (hp : ∀ e ∈ firsts (offers b fm calls), Proper e.2)
    (call : RegCall) (hb : call.BuiltIn) (hm : ∀ n x, call = .memory n x → UniqueKeys x ∧ NoNone x)
    (hc : ∀ n p cd, call = .file n p → FormatOf b fm p cd → NullFreeFormat cd)
    (hnew : ∀ a ∈ offers b fm calls, ∀ e, call.offer b fm = some e → a.1 ≠ e.1)
    (h' : (register b fm (calls ++ [call])).buildValue w skip = .ok v')
    (structs : Nat → List (String × Ty)) (hs : ∀ n, WellFormed (.struct (structs n))) (hsm : ∀ n, TextMaps (.struct (structs n)))
    (fs : List (String × Ty)) (hT : WellFormed (.struct fs)) (hTm : TextMaps (.struct fs)) (k : Nat) (d : Data) (hcb : ComesBack v d) :
    ¬ ∃ d', deAt structs k (.struct fs) v' = .ok d' ∧ DSame d d' := by
  rintro ⟨d', hd, hsd⟩
  replace hcb := comesBack_same hcb d' hsd
  clear hsd
  clear d
  rename' d' => d
  obtain ⟨hvm, hvu⟩ := C08_map b fm calls w skip v h
  have stay : v' ≠ v := by
    rintro rfl
    exact nothing_back (nothing_back_refs hs hsm k) _ hT hTm v' v' d (hvu hp) hd (Or.inl rfl) hcb
  cases ho : call.offer b fm with
  | none =>
    refine stay ?_
    have : offers b fm (calls ++ [call]) = offers b fm calls := by
      unfold offers; rw [List.filterMap_append]; simp [ho]
    rw [buildValue_is (is_register b fm _), this, ← buildValue_is (is_register b fm calls), h] at h'
    cases h'; rfl
  | some e =>
    have hn := fun a ha => hnew a ha e ho
    cases hr : e.2.readValue w with
    | error err =>
      rw [C14_failing b fm calls call w e err v ho hn hr skip h] at h'
      cases skip with
      | true => cases h'; exact stay rfl
      | false => cases h'
    | ok x =>
      rw [C14_add_last b fm calls call w skip e x v ho hn hr h] at h'
      cases h'
      have hxu : UniqueKeys x := C08_builtin_proper b fm call e hb (fun n y hy => (hm n y hy).1) ho w x hr
      have hz : NoNone x := by
        cases call with
        | layer => exact hb.elim
        | memory n y => simp only [RegCall.offer, Option.some.injEq] at ho; subst ho; cases hr; exact (hm n _ rfl).2
        | environment n pre => simp only [RegCall.offer, Option.some.injEq] at ho; subst ho; exact noNone_env hr
        | file n p =>
          obtain ⟨cd, rfl, hf⟩ := offer_file ho
          cases he : w.pathExists p with
          | false => rw [show (Layer.file (textHandler cd) p).readValue w = .ok (.map []) from C56_missing _ w p he] at hr; cases hr; exact noNone_map (by simp)
          | true =>
            obtain ⟨text, doc, we, -, h2, h3⟩ := (C56_content cd w p he x).1 hr
            exact noNone_visit h3 (hc n p cd rfl hf text doc h2)
      cases hxm : x.isMap with
      | false => exact stay (merge_other hxm)
      | true =>
        rw [← overlaid_top hvm hxm] at hd
        exact nothing_back (nothing_back_refs hs hsm k) _ hT hTm v _ d (overlaid_unique (by rintro y h; cases h; exact hvu hp) hxu) hd
          (Or.inr ⟨x, hxu, ⟨noNone_ne hz, fun p hn => hz p hn.2⟩, rfl⟩) hcb

/-! ## Examples -/

/-- The settings saved: the proxy is unset. -/
def exUnset : Data := .struct [("proxy", .none), ("a", .str "2")]

/-- Where nothing is below, nothing comes back; where the layers below have a proxy, it does. -/
theorem exUnset_back : ¬ ComesBack (.map [("a", .string "1")]) exUnset ∧ ComesBack (.map [("proxy", .string "p")]) exUnset := by
  refine ⟨fun h => ?_, .field (name := "proxy") rfl rfl (.unset (by simp))⟩
  obtain ⟨m, name, x, d, e, h1, h2, h3⟩ := back_struct h
  cases e
  simp only [hmGet] at h1 h2
  split at h1
  · rename_i h
    subst h
    simp only [String.reduceEq, if_false, if_true, Option.some.injEq] at h2
    subst h2
    exact back_flat (by simp) (by simp) (fun s hs => by cases s <;> first | rfl | exact absurd rfl (hs _)) h3
  · cases h1

/-- A program saves settings without a proxy to its TOML file. With a default for the other setting only, it reads them back; if the defaults have a proxy, it does not, whatever its type makes of
the proxy: it is back. A further layer above the file that says nothing about the two settings changes nothing. -/
example : ∃ (w w' : World) (x : Value), ser exUnset = .ok x ∧ exTSFile.writeValue w x = (.ok (), w') ∧
    (∃ v k d', (register exB1 ⟨exToml, exToml⟩ [.memory "default" (.map [("a", .string "1")]), .file "file" (os "/c.toml")]).buildValue w' false = .ok v ∧
      deAt (fun _ => []) k (.struct exWhole) v = .ok d' ∧ DSame exUnset d') ∧
    ∃ v, (register exB1 ⟨exToml, exToml⟩ [.memory "default" (.map [("proxy", .string "p")]), .file "file" (os "/c.toml")]).buildValue w' false = .ok v ∧
      (¬ ∃ k d', deAt (fun _ => []) k (.struct exWhole) v = .ok d' ∧ DSame exUnset d') ∧
    ∃ v, (register exB1 ⟨exToml, exToml⟩ [.memory "default" (.map [("a", .string "1")]), .file "file" (os "/c.toml"), .memory "theme" (.map [("color", .string "red")])]).buildValue w' false = .ok v ∧
      ∃ k d', deAt (fun _ => []) k (.struct exWhole) v = .ok d' ∧ DSame exUnset d' := by
  obtain ⟨w1, hr1, hw1, -⟩ := exEd_start
  obtain ⟨hh, hd⟩ := exEd_flat [("proxy", .none), ("a", .string "2")] (by simp)
  obtain ⟨w2, hok, hr2, -⟩ := exTS_step hw1 (v := .map [("proxy", .none), ("a", .string "2")]) (r := .map [("a", .string "2")]) rfl hh (by
    rw [show prune (.map [("proxy", .none), ("a", .string "2")]) = .map [("a", .string "2")] from rfl]
    simp only [docOf, List.attach, List.attachWith, List.pmap, List.map]; rfl)
  have hread : ∀ bs code wr, w1.disk (w1.locate (os "/c.toml")) ≠ .file bs (some code) wr := by
    intro bs code wr h
    obtain ⟨-, h2, bs', h3⟩ := hw1
    rw [show w1.locate (os "/c.toml") = 3 by rw [h2]; rfl] at h
    rcases h3 with h3 | h3 <;> rw [h3] at h <;> cases h
  have hempty : Survives (.struct []) ∧ Concrete (.struct []) ∧ OmitsNone (.struct []) ∧ TextMaps (.struct []) :=
    ⟨.struct (by simp) (by simp), .struct (by simp), .struct (by simp) (by simp), .struct (by simp)⟩
  have hall : ∀ f ∈ exWhole, f.2 = .option .string ∨ f.2 = .string := by simp [exWhole]
  have hS : Survives (.struct exWhole) := .struct (by decide) fun f hf => by
    rcases hall f hf with h | h <;> rw [h]
    · exact .option .string rfl
    · exact .string
  have hC : Concrete (.struct exWhole) := .struct fun f hf => by
    rcases hall f hf with h | h <;> rw [h]
    · exact .option (.leaf (by simp))
    · exact .leaf (by simp)
  have hO : OmitsNone (.struct exWhole) := .struct (fun f hf => by
    rcases hall f hf with h | h <;> rw [h]
    · exact Or.inr ⟨_, rfl⟩
    · exact Or.inl rfl) fun f hf => by
    rcases hall f hf with h | h <;> rw [h]
    · exact .option (.leaf (by simp))
    · exact .leaf (by simp)
  have hP : TextMaps (.struct exWhole) := .struct fun f hf => by
    rcases hall f hf with h | h <;> rw [h]
    · exact .option (.leaf (by simp) (by simp) (by simp) (by simp))
    · exact .leaf (by simp) (by simp) (by simp) (by simp)
  have ht := C118_typed (fun _ => []) (fun _ => wellFormed_of_survives hempty.1) (.struct exWhole) (wellFormed_of_survives hS) 0
    (.map [("a", .string "2")]) (by simp [UniqueKeys, UniqueKeysMap, UniqueKeysEntry]) exUnset (by rfl)
  have saved := fun (m : Entries) (hu : UniqueKeys (.map m)) (v : Value) (hv : (register exB1 ⟨exToml, exToml⟩ [.memory "default" (.map m)]).buildValue w2 false = .ok v) =>
    C147_saved (exToml_like 80) (fun _ => []) (fun _ => hempty.1) (fun _ => hempty.2.1) (fun _ => hempty.2.2.1) (fun _ => hempty.2.2.2)
      exWhole hS hC hO hP exUnset ht (.map [("proxy", .none), ("a", .string "2")]) (by rfl) hd w1 w2 (os "/c.toml") hok hread exB1 ⟨exToml, exToml⟩ (Or.inl ⟨by decide, rfl, rfl⟩)
      [.memory "default" (.map m)] "file" (fun a ha => by
        simp only [offers, RegCall.offer, List.filterMap_cons, List.filterMap_nil, List.mem_singleton] at ha
        subst ha; simp) w2 rfl false v hv (fun e he w v hv => by
        simp only [offers, RegCall.offer, List.filterMap_cons, List.filterMap_nil, firsts, List.filter_nil, List.mem_singleton] at he
        subst he
        cases hv
        exact hu)
  refine ⟨w1, w2, _, by rfl, hok, ?_, ?_⟩
  · obtain ⟨v', h1, h2, -⟩ := saved [("a", .string "1")] (by simp [UniqueKeys, UniqueKeysMap, UniqueKeysEntry]) _ rfl
    obtain ⟨k, d', h3, h4⟩ := h2.2 exUnset_back.1
    exact ⟨v', k, d', h1, h3, h4⟩
  · obtain ⟨v', h1, h2, -⟩ := saved [("proxy", .string "p")] (by simp [UniqueKeys, UniqueKeysMap, UniqueKeysEntry]) _ rfl
    refine ⟨v', h1, fun h => h2.1 h exUnset_back.2, ?_⟩
    obtain ⟨v0, h0, -⟩ := saved [("a", .string "1")] (by simp [UniqueKeys, UniqueKeysMap, UniqueKeysEntry]) _ rfl
    have hl := C14_add_last exB1 ⟨exToml, exToml⟩ ([.memory "default" (.map [("a", .string "1")])] ++ [.file "file" (os "/c.toml")]) (.memory "theme" (.map [("color", .string "red")])) w2 false
      ("theme", .memory (.map [("color", .string "red")])) _ v0 rfl (fun a ha => by
        unfold offers at ha
        rw [List.filterMap_append, List.mem_append] at ha
        rcases ha with ha | ha
        · simp only [RegCall.offer, List.filterMap_cons, List.filterMap_nil, List.mem_singleton] at ha
          subst ha; simp
        · simp only [List.filterMap_cons, List.filterMap_nil, TextFmt.offer (b := exB1) (fm := ⟨exToml, exToml⟩) (p := os "/c.toml") (cd := exToml) (Or.inl ⟨by decide, rfl, rfl⟩) "file", List.mem_singleton] at ha
          subst ha; simp) rfl h0
    refine ⟨_, hl, (C147_under (exToml_like 80) (fun _ => []) (fun _ => hempty.1) (fun _ => hempty.2.1) (fun _ => hempty.2.2.1) (fun _ => hempty.2.2.2)
      exWhole hS hC hO hP exUnset ht (.map [("proxy", .none), ("a", .string "2")]) (by rfl) hd w1 w2 (os "/c.toml") hok hread exB1 ⟨exToml, exToml⟩ (Or.inl ⟨by decide, rfl, rfl⟩)
      [.memory "default" (.map [("a", .string "1")])] "file" (fun a ha => by
        simp only [offers, RegCall.offer, List.filterMap_cons, List.filterMap_nil, List.mem_singleton] at ha
        subst ha; simp) w2 rfl false _ rfl (fun e he w v hv => by
        simp only [offers, RegCall.offer, List.filterMap_cons, List.filterMap_nil, firsts, List.filter_nil, List.mem_singleton] at he
        subst he
        cases hv
        simp [UniqueKeys, UniqueKeysMap, UniqueKeysEntry])
      [.memory "theme" (.map [("color", .string "red")])] (fun e he w v hv => by
        simp only [offers, RegCall.offer, List.filterMap_cons, List.filterMap_nil, List.mem_singleton] at he
        subst he
        cases hv
        simp [UniqueKeys, UniqueKeysMap, UniqueKeysEntry]) ?_ _ hl ?_).2 exUnset_back.1⟩
    · intro a ha p hp hne
      simp only [offers, RegCall.offer, List.filterMap_cons, List.filterMap_nil, List.mem_singleton] at ha
      subst ha
      rintro ⟨x, hx, -, hns⟩
      cases hx
      apply hns
      cases hp with
      | here => exact absurd rfl hne
      | @struct _ name t q hmem hl =>
        refine ⟨[], name, q, rfl, by intro q' hq; rw [List.prefix_nil] at hq; subst hq; rfl, ?_⟩
        simp only [exWhole, List.mem_cons, Prod.mk.injEq, List.not_mem_nil, or_false] at hmem
        rcases hmem with ⟨rfl, -⟩ | ⟨rfl, -⟩ <;> rfl
    · refine C44_string_keys_never_clash (fun _ => []) (fun _ => .struct (by simp)) _ (.struct fun f hf => ?_) _
      rcases hall f hf with h | h <;> rw [h]
      · exact .option (.leaf (by simp) (by simp) (by simp) (by simp) (by simp) (by simp) (by simp))
      · exact .leaf (by simp) (by simp) (by simp) (by simp) (by simp) (by simp) (by simp)

/-- An environment variable does not help either: with the defaults that have a proxy, no environment gives settings without one. -/
example (w : World) (v' : Value) (h : (register exB1 exFormats [.memory "default" (.map [("proxy", .string "p")]), .environment "e" "APP_"]).buildValue w false = .ok v') (k : Nat) :
    ¬ ∃ d', deAt (fun _ => []) k (.struct exWhole) v' = .ok d' ∧ DSame exUnset d' := by
  have hall : ∀ f ∈ exWhole, f.2 = .option .string ∨ f.2 = .string := by simp [exWhole]
  refine C147_else exB1 exFormats [.memory "default" (.map [("proxy", .string "p")])] w false (.map [("proxy", .string "p")]) v' rfl ?_ (.environment "e" "APP_") trivial (by simp) (by simp) ?_ h
    (fun _ => []) (fun _ => .struct (by simp) (by simp)) (fun _ => .struct (by simp)) exWhole ?_ ?_ k exUnset exUnset_back.2
  · intro e he w v hv
    simp only [offers, RegCall.offer, List.filterMap_cons, List.filterMap_nil, firsts, List.filter_nil, List.mem_singleton] at he
    subst he
    cases hv
    simp [UniqueKeys, UniqueKeysMap, UniqueKeysEntry]
  · intro a ha e he
    simp only [offers, RegCall.offer, List.filterMap_cons, List.filterMap_nil, List.mem_singleton] at ha
    simp only [RegCall.offer, Option.some.injEq] at he
    subst ha; subst he; simp
  · exact .struct (by decide) fun f hf => by
      rcases hall f hf with h | h <;> rw [h]
      · exact .option .string
      · exact .string
  · exact .struct fun f hf => by
      rcases hall f hf with h | h <;> rw [h]
      · exact .option (.leaf (by simp) (by simp) (by simp) (by simp))
      · exact .leaf (by simp) (by simp) (by simp) (by simp)

/-- An entry removed from a map comes back; one that is changed does not. -/
example : ComesBack (.map [("ports", .map [("a", .string "80"), ("b", .string "81")])]) (.struct [("ports", .map [(.str "a", .int .u16 ⟨80, by decide⟩)])]) :=
  .field (name := "ports") rfl rfl (.entry (k := "b") rfl rfl)

/-- The two layers of the example: what a memory layer on top with all of them says is what is read. -/
example (w : World) : ∃ v' d', (register exB1 exFormats ([.memory "d" exPortsBelow] ++ [.memory "t" (.map [("ports", .map [("b", .string "1"), ("a", .string "2")])])])).buildValue w false = .ok v' ∧
    deAt exNoStructs 0 (.struct exPortsTy) v' = .ok d' ∧ DSame (.struct [("ports", .map [(.str "b", .int .u16 ⟨1, by decide⟩), (.str "a", .int .u16 ⟨2, by decide⟩)])]) d' := by
  refine ⟨_, (C147_top exB1 exFormats [.memory "d" exPortsBelow] w false exPortsBelow _ rfl (exPortsBelow_proper _) (.memory "t" (.map [("ports", .map [("b", .string "1"), ("a", .string "2")])])) _ rfl
    (fun a ha => exPorts_new _ a ha) _ rfl (by simp [UniqueKeys, UniqueKeysMap, UniqueKeysEntry]) ?_ rfl exNoStructs exNoStructs_wf (fun _ => .struct (by simp [exNoStructs])) exPortsTy exPortsTy_wf (textMaps_of_plain exPortsTy_plain)
    0 (.struct [("ports", .map [(.str "b", .int .u16 ⟨1, by decide⟩), (.str "a", .int .u16 ⟨2, by decide⟩)])]) rfl).2 ?_ |> fun ⟨d', h⟩ => ⟨d', rfl, h⟩⟩
  · intro p hp
    refine (noNone_map fun e he => ?_ : NoNone (.map [("ports", .map [("b", .string "1"), ("a", .string "2")])])) p hp.2
    rw [List.mem_singleton] at he; subst he
    refine noNone_map fun e he => ?_
    simp only [List.mem_cons, List.not_mem_nil, or_false] at he
    rcases he with rfl | rfl <;> exact noNone_leaf (by simp) fun s => by cases s <;> rfl
  · intro h
    obtain ⟨m, name, x, d, e, h1, h2, h3⟩ := back_struct h
    cases e
    simp only [hmGet] at h1 h2
    split at h1
    · rename_i hn
      rw [if_pos hn] at h2
      cases h1; cases h2
      obtain ⟨m, key, x, e, g1, g2⟩ := back_texts (es := [("b", .int .u16 ⟨1, by decide⟩), ("a", .int .u16 ⟨2, by decide⟩)]) h3
      cases e
      have hflat : ∀ (y : Value) (n : IntOf .u16), ¬ ComesBack y (.int .u16 n) := fun y n =>
        back_flat (by simp) (by simp) fun s hs => by cases s <;> first | rfl | exact absurd rfl (hs _)
      simp only [hmGet] at g1 g2
      split at g1
      · rename_i hk
        subst hk
        rcases g2 with g2 | ⟨d, g2, g3⟩
        · cases g2
        · cases g2; exact hflat _ _ g3
      · split at g1
        · rename_i hk
          subst hk
          rcases g2 with g2 | ⟨d, g2, g3⟩
          · cases g2
          · cases g2; exact hflat _ _ g3
        · cases g1
    · cases h1

/-- The same with a setting of type `Value`: a port that the layer on top leaves out is back. -/
example (w : World) (v' : Value) (h' : (register exB1 exFormats ([.memory "d" exPortsBelow] ++ [.memory "t" (.map [("ports", .map [("a", .string "2")])])])).buildValue w false = .ok v') :
    deAt exNoStructs 0 (.struct [("ports", .value)]) (.map [("ports", .map [("a", .string "2")])]) = .ok (.struct [("ports", .map [(.str "a", .str "2")])]) ∧
    ¬ ∃ d', deAt exNoStructs 0 (.struct [("ports", .value)]) v' = .ok d' ∧ DSame (.struct [("ports", .map [(.str "a", .str "2")])]) d' := by
  refine ⟨rfl, fun h => (C147_top exB1 exFormats [.memory "d" exPortsBelow] w false exPortsBelow v' rfl (exPortsBelow_proper _) (.memory "t" (.map [("ports", .map [("a", .string "2")])])) _ rfl
    (fun a ha => exPorts_new _ a ha) _ rfl (by simp [UniqueKeys, UniqueKeysMap, UniqueKeysEntry]) ?_ h' exNoStructs exNoStructs_wf (fun _ => .struct (by simp [exNoStructs])) [("ports", .value)]
    (.struct (by decide) fun f hf => by rw [List.mem_singleton] at hf; subst hf; exact .value)
    (.struct fun f hf => by rw [List.mem_singleton] at hf; subst hf; exact .leaf (by simp) (by simp) (by simp) (by simp)) 0 _ rfl).1 h
    (.field (name := "ports") rfl rfl (.entry (k := "b") rfl rfl))⟩
  intro p hp
  refine (noNone_map fun e he => ?_ : NoNone (.map [("ports", .map [("a", .string "2")])])) p hp.2
  rw [List.mem_singleton] at he; subst he
  refine noNone_map fun e he => ?_
  rw [List.mem_singleton] at he; subst he
  exact noNone_leaf (by simp) fun s => by cases s <;> rfl

end Verif.Props
