import Verif.Spec.OnTop
import Verif.Props.Sayable
/-!
# C142: which settings a layer on top can bring about
-/
namespace Verif.Props
open Verif Verif.Spec

/-- What a value becomes that a layer on top says something about. -/
def overlaid (below : Option Value) (x : Value) : Value :=
  match below with
  | some y => if y.isMap && x.isMap then y.merge x else x
  | none => x

theorem overlaid_other {below : Option Value} {x : Value} (h : (∀ m, below ≠ some (.map m)) ∨ x.isMap = false) : overlaid below x = x := by
  cases below with
  | none => rfl
  | some y =>
    rcases h with h | h
    · cases y <;> first | rfl | exact absurd rfl (h _)
    · simp [overlaid, h]

theorem overlaid_maps (m n : Entries) : overlaid (some (.map m)) (.map n) = .map (mergeEntries m n) := by
  simp [overlaid, Value.isMap, merge_map_map]

theorem hmGet_overlaid {m n : Entries} (hn : (n.map Prod.fst).Nodup) (k : String) :
    hmGet (mergeEntries m n) k = match hmGet n k with | none => hmGet m k | some x => some (overlaid (hmGet m k) x) := by
  rw [hmGet_mergeEntries n m hn k]
  cases hmGet n k with
  | none => rfl
  | some x => cases hmGet m k <;> rfl

theorem isMap_entries {v : Value} (h : v.isMap = true) : ∃ m, v = .map m := by
  cases v <;> first | exact ⟨_, rfl⟩ | cases h

/-- Reading a map as a type that is not a section and names no map. -/
theorem map_not_read {structs : Nat → List (String × Ty)} {k : Nat} {T : Ty} (h : PlainSections T) : IsSection T = false → ∀ m d, deAt structs k T (.map m) ≠ .ok d := by
  unfold deAt
  induction h with
  | @leaf t h1 h2 h3 h4 h5 =>
    intro hs m d h
    cases t with
    | map kt u => exact absurd rfl (h1 kt u)
    | value => exact absurd rfl h2
    | option u => exact absurd rfl (h3 u)
    | newtype u => exact absurd rfl (h4 u)
    | struct fs => exact absurd rfl (h5 fs)
    | ref n => cases hs
    | int t => rw [de] at h; obtain ⟨a, ha, -⟩ := bind_eq_ok.1 h; cases t <;> cases ha
    | _ => simp only [de, reduceCtorEq] at h <;> cases h
  | option _ ih =>
    intro hs m d h
    rw [de] at h
    · obtain ⟨a, ha, -⟩ := bind_eq_ok.1 h
      exact ih hs m a ha
    · simp
  | newtype _ ih =>
    intro hs m d h
    rw [de] at h
    obtain ⟨a, ha, -⟩ := bind_eq_ok.1 h
    exact ih hs m a ha
  | struct => intro hs; cases hs
  | map => intro hs; cases hs

theorem none_nothing {structs : Nat → List (String × Ty)} {k : Nat} (t : Ty) : ∀ d, deAt structs k t .none = .ok d → Nothing d := by
  induction t using Ty.ind with
  | newtype t ih =>
    intro d h
    rw [deAt, de] at h
    obtain ⟨x, hx, h⟩ := bind_eq_ok.1 h
    cases h
    exact .newtype (ih _ hx)
  | option t _ => intro d h; simp only [deAt, de, Outcome.ok.injEq] at h; rw [← h]; exact .none
  | unit => intro d h; simp only [deAt, de, Outcome.ok.injEq] at h; rw [← h]; exact .unit
  | unitStruct => intro d h; simp only [deAt, de, Outcome.ok.injEq] at h; rw [← h]; exact .unitStruct
  | value => intro d h; rw [deAt, de, deValue_ok _ (by simp [UniqueKeys])] at h; cases h; exact .none
  | ref n => intro d h; exact absurd h (refsAt_none structs k n d)
  | int t => intro d h; rw [deAt, de] at h; obtain ⟨x, hx, -⟩ := bind_eq_ok.1 h; cases t <;> cases hx
  | struct fs _ => intro d h; rw [deAt, de] at h; simp [deStruct] at h
  | _ => intros; rename_i h; simp only [deAt, de] at h; cases h

theorem alike_none_eq {r : Value} (h : Alike .none r) : r = .none := by
  rcases h [] with ⟨h1, -⟩ | ⟨a, b, h1, h2, h3⟩
  · cases h1
  · cases h1
    cases h2
    rcases h3 with e | ⟨n, e, -⟩
    · cases r <;> first | rfl | (simp [head] at e)
    · cases e

/-! ## Maps with text keys -/

/-- The keys of a merged map: those of the first, then the new ones of the second. -/
theorem keys_mergeEntries (n : Entries) : ∀ m : Entries, (n.map Prod.fst).Nodup →
    (mergeEntries m n).map Prod.fst = m.map Prod.fst ++ (n.map Prod.fst).filter fun k => decide (k ∉ m.map Prod.fst) := by
  induction n with
  | nil => intro m _; rw [mergeEntries]; simp
  | cons e r ih =>
    obtain ⟨k, v⟩ := e
    intro m hn
    simp only [List.map_cons, List.nodup_cons] at hn
    rw [mergeEntries, ih _ hn.2, mergeEntry_eq, keys_insert]
    by_cases hk : k ∈ m.map Prod.fst
    · rw [if_pos hk, List.map_cons, List.filter_cons_of_neg (by simpa using hk)]
    · rw [if_neg hk, List.map_cons, List.filter_cons_of_pos (by simpa using hk), List.append_assoc, List.singleton_append]
      congr 2
      refine List.filter_congr fun j hj => ?_
      have : j ≠ k := by rintro rfl; exact hn.1 hj
      simp [this]

theorem text_map_ok {refs : Nat → Decoder} {t : Ty} {M : Entries} (hM : (M.map Prod.fst).Nodup) {d : Data} :
    de refs (.map .string t) (.map M) = .ok d ↔
      ∃ es : List (String × Data), d = .map (es.map fun e => (.str e.1, e.2)) ∧ List.Forall₂ (fun e nd => nd.1 = Prod.fst e ∧ de refs t e.2 = .ok nd.2) M es := by
  have toKeys : ∀ {es : List (String × Data)}, List.Forall₂ (fun e nd => nd.1 = Prod.fst e ∧ de refs t e.2 = .ok nd.2) M es →
      List.Forall₂ (fun e kd => deKey .string e.1 = .ok kd.1 ∧ de refs t e.2 = .ok kd.2) M (es.map fun e => (Key.str e.1, e.2)) := by
    intro es h
    rw [List.forall₂_map_right_iff]
    exact h.imp fun e nd h => ⟨by rw [h.1]; rfl, h.2⟩
  have ofKeys : ∀ {l : Entries} {kds : List (Key × Data)}, List.Forall₂ (fun e kd => deKey .string e.1 = .ok kd.1 ∧ de refs t e.2 = .ok kd.2) l kds →
      ∃ es : List (String × Data), kds = es.map (fun e => (Key.str e.1, e.2)) ∧ List.Forall₂ (fun e nd => nd.1 = Prod.fst e ∧ de refs t e.2 = .ok nd.2) l es := by
    intro l kds h
    induction h with
    | nil => exact ⟨[], rfl, .nil⟩
    | @cons e kd l r h _ ih =>
      obtain ⟨es, rfl, h2⟩ := ih
      obtain ⟨j, d⟩ := kd
      have h1 := h.1
      simp only [deKey] at h1
      injection h1 with h1
      exact ⟨(e.1, d) :: es, by rw [← h1]; rfl, .cons ⟨rfl, h.2⟩ h2⟩
  have fresh : ∀ {es : List (String × Data)}, List.Forall₂ (fun e nd => nd.1 = Prod.fst e ∧ de refs t e.2 = .ok nd.2) M es →
      keyInsAll [] (es.map fun e => (Key.str e.1, e.2)) = es.map fun e => (Key.str e.1, e.2) := by
    intro es h
    rw [keyInsAll_fresh _ [] ?_]; · rfl
    have hk : es.map Prod.fst = M.map Prod.fst := by
      clear hM toKeys ofKeys
      induction h with
      | nil => rfl
      | cons h _ ih => simp only [List.map_cons, ih, h.1]
    rw [List.nil_append, List.map_map, show (Prod.fst ∘ fun e : String × Data => (Key.str e.1, e.2)) = Key.str ∘ Prod.fst from rfl, ← List.map_map, hk]
    exact hM.map (fun a b h => by cases h; rfl)
  rw [de]
  constructor
  · intro h
    obtain ⟨kds, h1, h2⟩ := bind_eq_ok.1 h
    cases h2
    obtain ⟨kds', h3, rfl⟩ := (deMapLoop_ok _ _ _ _ _).1 h1
    obtain ⟨es, rfl, h4⟩ := ofKeys h3
    exact ⟨es, by rw [fresh h4, List.map_map]; rfl, h4⟩
  · rintro ⟨es, rfl, h⟩
    have : deMapLoop .string (fun x => de refs t x) [] M = .ok (es.map fun e => (Key.str e.1, e.2)) := (deMapLoop_ok _ _ _ _ _).2 ⟨_, toKeys h, (fresh h).symm⟩
    rw [this]
    simp only [bind, Outcome.bind, List.map_map]
    rfl

theorem text_keys (R : Value → Data → Prop) {M : Entries} {es : List (String × Data)} (h : List.Forall₂ (fun e nd => nd.1 = Prod.fst e ∧ R e.2 nd.2) M es) :
    es.map Prod.fst = M.map Prod.fst := by
  induction h with
  | nil => rfl
  | cons h _ ih => simp only [List.map_cons, ih, h.1]

theorem keyGet_texts (es : List (String × Data)) (k : Key) : keyGet (es.map fun e => (Key.str e.1, e.2)) k = match k with | .str s => hmGet es s | _ => none := by
  induction es with
  | nil => cases k <;> rfl
  | cons e r ih =>
    obtain ⟨j, d⟩ := e
    have step : keyGet ((Key.str j, d) :: r.map fun e => (Key.str e.1, e.2)) k = if Key.str j = k then some d else keyGet (r.map fun e => (Key.str e.1, e.2)) k := by
      simp only [keyGet, List.find?_cons]
      by_cases h : Key.str j = k
      · subst h; simp
      · have hb : (Key.str j == k) = false := by simpa using h
        rw [hb, if_neg h]
    rw [List.map_cons, step, ih]
    cases k with
    | str s => simp only [Key.str.injEq, hmGet]
    | _ => simp

/-- Maps with the same keys and under each key the same. -/
theorem dsame_texts {as bs : List (String × Data)} (h : ∀ k, (hmGet as k = none ↔ hmGet bs k = none) ∧ ∀ x y, hmGet as k = some x → hmGet bs k = some y → DSame x y) :
    DSame (.map (as.map fun e => (.str e.1, e.2))) (.map (bs.map fun e => (.str e.1, e.2))) := by
  have e : ∀ l : List (String × Data), l.map (fun e => (Data.str e.1, e.2)) = (l.map fun e => (Key.str e.1, e.2)).map fun e => (e.1.toData, e.2) := by
    intro l; rw [List.map_map]; rfl
  rw [e, e]
  refine dsame_map fun k => ?_
  rw [keyGet_texts, keyGet_texts]
  cases k with
  | str s => exact h s
  | _ => exact ⟨Iff.rfl, fun x y h => nomatch h⟩

/-! ## What is brought about is of this kind -/

theorem onTop_de {nulls : Bool} {structs : Nat → List (String × Ty)} (hs : ∀ n, WellFormed (.struct (structs n))) {k : Nat}
    (hrefs : ∀ n below x d, (∀ y, below = some y → UniqueKeys y) → UniqueKeys x → (nulls = false → NoNone x) → refsAt structs k n (overlaid below x) = .ok d →
      OnTop nulls structs (.struct (structs n)) below d) (T : Ty) :
    WellFormed T → PlainSections T → ∀ below x d, (∀ y, below = some y → UniqueKeys y) → UniqueKeys x → (nulls = false → NoNone x) →
      deAt structs k T (overlaid below x) = .ok d → OnTop nulls structs T below d := by
  have plain : ∀ (T : Ty), WellFormed T → PlainSections T → ∀ below x d, UniqueKeys x → (nulls = false → NoNone x) →
      deAt structs k T (overlaid below x) = .ok d → (IsSection T = true → ∀ m, below ≠ some (.map m)) → OnTop nulls structs T below d := by
    intro T hw hT below x d hx hz h hsec
    refine .said ((C140_say nulls structs hs T hw d).1 ⟨x, k, hx, hz, ?_⟩) hsec
    cases hS : IsSection T with
    | true => rw [overlaid_other (Or.inl (hsec hS))] at h; exact h
    | false =>
      cases hm : x.isMap with
      | false => rw [overlaid_other (Or.inr hm)] at h; exact h
      | true =>
        obtain ⟨n, rfl⟩ := isMap_entries hm
        by_cases hb : ∃ m, below = some (.map m)
        · obtain ⟨m, rfl⟩ := hb
          rw [overlaid_maps] at h
          exact absurd h (map_not_read hT hS _ _)
        · rw [overlaid_other (Or.inl fun m e => hb ⟨m, e⟩)] at h; exact h
  have pick : ∀ (T : Ty), (∀ below x d, IsSection T = true → (∃ m, below = some (.map m)) → (∀ y, below = some y → UniqueKeys y) → UniqueKeys x → (nulls = false → NoNone x) →
      deAt structs k T (overlaid below x) = .ok d → OnTop nulls structs T below d) → WellFormed T → PlainSections T → ∀ below x d, (∀ y, below = some y → UniqueKeys y) →
      UniqueKeys x → (nulls = false → NoNone x) → deAt structs k T (overlaid below x) = .ok d → OnTop nulls structs T below d := by
    intro T hh hw hT below x d hb hx hz h
    by_cases hc : IsSection T = true ∧ ∃ m, below = some (.map m)
    · exact hh below x d hc.1 hc.2 hb hx hz h
    · exact plain T hw hT below x d hx hz h fun hS m e => hc ⟨hS, m, e⟩
  induction T using Ty.ind with
  | option t ih =>
    intro hw hT
    refine pick _ ?_ hw hT
    rintro below x d hS ⟨m, rfl⟩ hb hx hz h
    cases hw with | option hw =>
    cases hT with
    | leaf _ _ h _ _ => exact absurd rfl (h t)
    | option hT =>
    by_cases hv : overlaid (some (.map m)) x = .none
    · rw [hv] at h
      simp only [deAt, de, Outcome.ok.injEq] at h
      rw [← h]
      refine .none ?_
      cases hm : x.isMap with
      | true => obtain ⟨n, rfl⟩ := isMap_entries hm; rw [overlaid_maps] at hv; cases hv
      | false =>
        rw [overlaid_other (Or.inr hm)] at hv
        cases nulls with
        | true => rfl
        | false => exact absurd hv (noNone_ne (hz rfl))
    · rw [deAt, de] at h
      · obtain ⟨e, he, h⟩ := bind_eq_ok.1 h
        cases h
        refine .some (ih hw hT _ x e hb hx hz he) fun hn => hv ?_
        refine nothing_source (refs_not_nothing k) t _ e ?_ he hn
        cases hm : x.isMap with
        | true =>
          obtain ⟨n, rfl⟩ := isMap_entries hm
          rw [overlaid_maps, ← merge_map_map]
          exact uniqueKeys_merge (hb _ rfl) hx
        | false => rw [overlaid_other (Or.inr hm)]; exact hx
      · exact fun e => absurd e hv
  | newtype t ih =>
    intro hw hT
    refine pick _ ?_ hw hT
    rintro below x d hS ⟨m, rfl⟩ hb hx hz h
    cases hw with | newtype hw =>
    cases hT with
    | leaf _ _ _ h _ => exact absurd rfl (h t)
    | newtype hT =>
    rw [deAt, de] at h
    obtain ⟨e, he, h⟩ := bind_eq_ok.1 h
    cases h
    exact .newtype (ih hw hT _ x e hb hx hz he)
  | struct fs ih =>
    intro hw hT
    refine pick _ ?_ hw hT
    rintro below x d hS ⟨m, rfl⟩ hb hx hz h
    cases hw with | struct hn hw =>
    cases hT with
    | leaf _ _ _ _ h => exact absurd rfl (h fs)
    | struct hT =>
    cases hm : x.isMap with
    | false =>
      rw [overlaid_other (Or.inr hm)] at h
      obtain ⟨n, rfl⟩ := struct_map h
      cases hm
    | true =>
      obtain ⟨n, rfl⟩ := isMap_entries hm
      rw [overlaid_maps] at h
      have hum := uniqueKeys_map.1 (hb _ rfl)
      have hun := uniqueKeys_map.1 hx
      have huu : UniqueKeys (.map (mergeEntries m n)) := by rw [← merge_map_map]; exact uniqueKeys_merge (hb _ rfl) hx
      rw [deAt] at h
      obtain ⟨ds, rfl, h1⟩ := (de_struct_ok _ _ hn _ (uniqueKeys_map.1 huu).1 _).1 h
      obtain ⟨l1, h2⟩ := forall2_index h1
      refine .struct (fields_of h1).1 fun i f nd hf hd hstay => ?_
      have h3 := (h2 i f nd hf hd).2
      rw [hmGet_overlaid hun.1] at h3
      rw [child_key_map] at hstay ⊢
      cases hg : hmGet n f.1 with
      | none =>
        refine absurd ?_ hstay
        rw [hg] at h3
        cases hgm : hmGet m f.1 with
        | none =>
          simp only [hgm] at h3
          exact Or.inr ⟨rfl, missing_cases h3⟩
        | some z =>
          simp only [hgm] at h3
          exact Or.inl ⟨z, k, rfl, h3⟩
      | some y =>
        rw [hg] at h3
        exact ih f (List.mem_of_getElem? hf) (hw f (List.mem_of_getElem? hf)) (hT f (List.mem_of_getElem? hf)) _ y _
          (fun z hz => hum.2 _ (hmGet_mem hz)) (hun.2 _ (hmGet_mem hg)) (fun he => noNone_child (hz he) (by rw [child_key_map]; exact hg)) h3
  | map kt t ih =>
    intro hw hT
    refine pick _ ?_ hw hT
    rintro below x d hS ⟨m, rfl⟩ hb hx hz h
    cases hw with | map hw =>
    cases hT with
    | leaf h => exact absurd rfl (h _ _)
    | map hT =>
    cases hm : x.isMap with
    | false =>
      rw [overlaid_other (Or.inr hm)] at h
      cases x <;> first | (rw [deAt, de] at h; cases h; done) | (cases hm; done) | (simp only [deAt, de] at h; cases h)
    | true =>
      obtain ⟨n, rfl⟩ := isMap_entries hm
      rw [overlaid_maps] at h
      have hum := uniqueKeys_map.1 (hb _ rfl)
      have hun := uniqueKeys_map.1 hx
      have huu : UniqueKeys (.map (mergeEntries m n)) := by rw [← merge_map_map]; exact uniqueKeys_merge (hb _ rfl) hx
      have huu := uniqueKeys_map.1 huu
      rw [deAt] at h
      obtain ⟨es, rfl, h1⟩ := (text_map_ok huu.1).1 h
      have hk := text_keys (fun a b => de (refsAt structs k) t a = .ok b) h1
      refine .map (by rw [hk]; exact huu.1) ⟨_, by rw [hk, keys_mergeEntries n m hun.1]⟩ fun e he hstay => ?_
      obtain ⟨e', he', h3, h4⟩ := forall2_right h1 e he
      have hg := hmGet_of_mem' huu.1 he'
      rw [hmGet_overlaid hun.1] at hg
      rw [child_key_map] at hstay ⊢
      rw [h3] at hstay ⊢
      cases hgn : hmGet n e'.1 with
      | none =>
        rw [hgn] at hg
        exact absurd ⟨_, k, hg, h4⟩ hstay
      | some y =>
        rw [hgn] at hg
        simp only [Option.some.injEq] at hg
        rw [← hg] at h4
        exact ih hw hT _ y _ (fun z hz => hum.2 _ (hmGet_mem hz)) (hun.2 _ (hmGet_mem hgn)) (fun he => noNone_child (hz he) (by rw [child_key_map]; exact hgn)) h4
  | ref n =>
    intro hw hT below x d hb hx hz h
    exact .ref (hrefs n below x d hb hx hz h)
  | _ =>
    intro hw hT
    exact pick _ (fun _ _ _ hS => by cases hS) hw hT

theorem onTop_refs {nulls : Bool} {structs : Nat → List (String × Ty)} (hs : ∀ n, WellFormed (.struct (structs n))) (hsm : ∀ n, PlainSections (.struct (structs n))) (k : Nat) :
    ∀ n below x d, (∀ y, below = some y → UniqueKeys y) → UniqueKeys x → (nulls = false → NoNone x) → refsAt structs k n (overlaid below x) = .ok d →
      OnTop nulls structs (.struct (structs n)) below d := by
  induction k with
  | zero => intro n below x d _ _ _ h; cases h
  | succ k ih => intro n below x d hb hx hz h; exact onTop_de hs ih _ (hs n) (hsm n) below x d hb hx hz h

theorem alike_entries {n n' : Entries} (ha : Alike (.map n) (.map n')) (key : String) :
    (hmGet n key = none ∧ hmGet n' key = none) ∨ ∃ x y, hmGet n key = some x ∧ hmGet n' key = some y ∧ Alike x y := by
  have h0 := alike_none ha [.key key]
  have h1 := alike_child ha (.key key)
  have e : ∀ l : Entries, view (.map l) [.key key] = none ↔ hmGet l key = none := by
    intro l; rw [view_cons, child_key_map]; cases hmGet l key <;> simp [view]
  rw [e, e] at h0
  rw [child_key_map, child_key_map] at h1
  cases hx : hmGet n key with
  | none => exact Or.inl ⟨rfl, h0.1 hx⟩
  | some x =>
    cases hy : hmGet n' key with
    | none => rw [h0.2 hy] at hx; cases hx
    | some y => rw [hx, hy] at h1; exact Or.inr ⟨x, y, rfl, rfl, h1⟩

/-! ## And everything of this kind is brought about -/

/-- A value that, on top of what is below, makes the setting this data; and likewise does everything like it, up to the kind of integers. -/
structure Tops (nulls : Bool) (structs : Nat → List (String × Ty)) (T : Ty) (below : Option Value) (d : Data) (x : Value) (k : Nat) : Prop where
  unique : UniqueKeys x
  noNone : nulls = false → NoNone x
  toml : (∀ n, Concrete (.struct (structs n))) → Concrete T → nulls = false → TomlHolds x
  depth : ∀ n, NestedBelow d n → DepthBelow x n
  reads : deAt structs k T (overlaid below x) = .ok d
  alike : (∀ n, Concrete (.struct (structs n))) → Concrete T → ∀ r, UniqueKeys r → Alike x r → ∃ d', deAt structs k T (overlaid below r) = .ok d' ∧ DSame d d'

theorem Tops.more {nulls : Bool} {structs : Nat → List (String × Ty)} {T : Ty} {below : Option Value} {d : Data} {x : Value} {k j : Nat}
    (h : Tops nulls structs T below d x k) (hj : k ≤ j) : Tops nulls structs T below d x j :=
  ⟨h.unique, h.noNone, h.toml, h.depth, reads_more h.reads hj, fun a b r hr ha => by
    obtain ⟨d', h1, h2⟩ := h.alike a b r hr ha
    exact ⟨d', reads_more h1 hj, h2⟩⟩

/-- The setting stays, with this stack. -/
def StaysAt (structs : Nat → List (String × Ty)) (k : Nat) (f : String × Ty) (below : Option Value) (d : Data) : Prop :=
  (match below with | some z => deAt structs k f.2 z | none => missingField f.1 f.2) = .ok d

theorem StaysAt.more {structs : Nat → List (String × Ty)} {k j : Nat} {f : String × Ty} {below : Option Value} {d : Data} (h : StaysAt structs k f below d)
    (hj : k ≤ j) : StaysAt structs j f below d := by
  unfold StaysAt at *
  cases below with
  | none => exact h
  | some z => exact reads_more h hj

theorem staysAt_of {structs : Nat → List (String × Ty)} {f : String × Ty} {below : Option Value} {d : Data} (h : Stays structs f.2 below d) :
    ∃ k, StaysAt structs k f below d := by
  rcases h with ⟨z, k, rfl, h⟩ | ⟨rfl, rfl, t, ht⟩
  · exact ⟨k, h⟩
  · refine ⟨0, ?_⟩
    unfold StaysAt
    rw [ht]; rfl

theorem tops_struct {nulls : Bool} {structs : Nat → List (String × Ty)} (m : Entries) : ∀ (fs : List (String × Ty)) (ds : List (String × Data)), (fs.map Prod.fst).Nodup →
    List.Forall₂ (fun f nd => nd.1 = Prod.fst f ∧ (¬ Stays structs f.2 (hmGet m f.1) nd.2 → ∃ x k, Tops nulls structs f.2 (hmGet m f.1) nd.2 x k)) fs ds →
    ∃ n k, (n.map Prod.fst).Nodup ∧ (∀ e ∈ n, ∃ f ∈ fs, ∃ nd ∈ ds, f.1 = e.1 ∧ Tops nulls structs f.2 (hmGet m f.1) (Prod.snd nd) (Prod.snd e) k) ∧
      List.Forall₂ (fun f nd => nd.1 = Prod.fst f ∧ (∀ x, hmGet n f.1 = some x → Tops nulls structs f.2 (hmGet m f.1) nd.2 x k) ∧
        (hmGet n f.1 = none → StaysAt structs k f (hmGet m f.1) nd.2)) fs ds := by
  intro fs ds hn h
  induction h with
  | nil => exact ⟨[], 0, by simp, by simp, .nil⟩
  | @cons f nd fr dr h hr ih =>
    simp only [List.map_cons, List.nodup_cons] at hn
    obtain ⟨n, k, h1, h2, h3⟩ := ih hn.2
    have hfm : f.1 ∉ n.map Prod.fst := by
      intro hm
      obtain ⟨e, he, hef⟩ := List.mem_map.1 hm
      obtain ⟨g, hg, nd, _, hge, -⟩ := h2 e he
      exact hn.1 (by rw [← hef, ← hge]; exact List.mem_map_of_mem hg)
    by_cases ho : Stays structs f.2 (hmGet m f.1) nd.2
    · obtain ⟨j, hj⟩ := staysAt_of ho
      refine ⟨n, max j k, h1, fun e he => ?_, .cons ⟨h.1, fun x hx => ?_, fun _ => hj.more (le_max_left _ _)⟩ ?_⟩
      · obtain ⟨g, hg, nd', hnd, hge, hw⟩ := h2 e he
        exact ⟨g, by simp [hg], nd', by simp [hnd], hge, hw.more (le_max_right _ _)⟩
      · rw [hmGet_eq_none.2 hfm] at hx; cases hx
      · exact h3.imp fun g nd' h => ⟨h.1, fun x hx => (h.2.1 x hx).more (le_max_right _ _), fun hx => (h.2.2 hx).more (le_max_right _ _)⟩
    · obtain ⟨x, j, hx⟩ := h.2 ho
      refine ⟨(f.1, x) :: n, max j k, by simp only [List.map_cons, List.nodup_cons]; exact ⟨hfm, h1⟩, fun e he => ?_, .cons ⟨h.1, fun y hy => ?_, fun hy => ?_⟩ ?_⟩
      · rcases List.mem_cons.1 he with rfl | he
        · exact ⟨f, by simp, nd, by simp, rfl, hx.more (le_max_left _ _)⟩
        · obtain ⟨g, hg, nd', hnd, hge, hw⟩ := h2 e he
          exact ⟨g, by simp [hg], nd', by simp [hnd], hge, hw.more (le_max_right _ _)⟩
      · simp [hmGet] at hy; subst hy; exact hx.more (le_max_left _ _)
      · simp [hmGet] at hy
      · have hmem : ∀ g ∈ fr, g.1 ≠ f.1 := fun g hg e => hn.1 (by rw [← e]; exact List.mem_map_of_mem hg)
        clear ih hr h2 hn h
        induction h3 with
        | nil => exact .nil
        | @cons g nd' gr dr' h3 _ ih =>
          refine .cons ?_ (ih fun g hg => hmem g (by simp [hg]))
          have hne := hmem g (by simp)
          rw [show hmGet ((f.1, x) :: n) g.1 = hmGet n g.1 by simp [hmGet, Ne.symm hne]]
          exact ⟨h3.1, fun x hx => (h3.2.1 x hx).more (le_max_right _ _), fun hx => (h3.2.2 hx).more (le_max_right _ _)⟩

/-- The entries of a map that do not stay, in their order. -/
theorem tops_map {nulls : Bool} {structs : Nat → List (String × Ty)} (m : Entries) (t : Ty) : ∀ es : List (String × Data), (es.map Prod.fst).Nodup →
    (∀ e ∈ es, ¬ (∃ z k, hmGet m (Prod.fst e) = some z ∧ deAt structs k t z = .ok e.2) → ∃ x k, Tops nulls structs t (hmGet m e.1) e.2 x k) →
    ∃ n k, (n.map Prod.fst).Nodup ∧ (n.map Prod.fst).Sublist (es.map Prod.fst) ∧ (∀ e ∈ n, ∃ nd ∈ es, nd.1 = e.1 ∧ Tops nulls structs t (hmGet m nd.1) (Prod.snd nd) (Prod.snd e) k) ∧
      ∀ e ∈ es, hmGet n e.1 = none → ∃ z, hmGet m e.1 = some z ∧ deAt structs k t z = .ok e.2 := by
  intro es hn h
  induction es with
  | nil => exact ⟨[], 0, by simp, by simp, by simp, by simp⟩
  | cons e r ih =>
    simp only [List.map_cons, List.nodup_cons] at hn
    obtain ⟨n, k, h1, h2, h3, h4⟩ := ih hn.2 fun e he => h e (by simp [he])
    have hem : e.1 ∉ n.map Prod.fst := fun hm => hn.1 (h2.subset hm)
    by_cases ho : ∃ z k, hmGet m e.1 = some z ∧ deAt structs k t z = .ok e.2
    · obtain ⟨z, j, hz, hd⟩ := ho
      refine ⟨n, max j k, h1, h2.cons _, fun a ha => ?_, fun a ha hg => ?_⟩
      · obtain ⟨nd, hnd, ha, ht⟩ := h3 a ha
        exact ⟨nd, by simp [hnd], ha, ht.more (le_max_right _ _)⟩
      · rcases List.mem_cons.1 ha with rfl | ha
        · exact ⟨z, hz, reads_more hd (le_max_left _ _)⟩
        · obtain ⟨y, hy, hd⟩ := h4 a ha hg
          exact ⟨y, hy, reads_more hd (le_max_right _ _)⟩
    · obtain ⟨x, j, hx⟩ := h e (by simp) ho
      refine ⟨(e.1, x) :: n, max j k, by simp only [List.map_cons, List.nodup_cons]; exact ⟨hem, h1⟩, h2.cons₂ _, fun a ha => ?_, fun a ha hg => ?_⟩
      · rcases List.mem_cons.1 ha with rfl | ha
        · exact ⟨e, by simp, rfl, hx.more (le_max_left _ _)⟩
        · obtain ⟨nd, hnd, ha, ht⟩ := h3 a ha
          exact ⟨nd, by simp [hnd], ha, ht.more (le_max_right _ _)⟩
      · rcases List.mem_cons.1 ha with rfl | ha
        · simp [hmGet] at hg
        · have hne : a.1 ≠ e.1 := fun he => hn.1 (by rw [← he]; exact List.mem_map_of_mem ha)
          rw [show hmGet ((e.1, x) :: n) a.1 = hmGet n a.1 by simp [hmGet, Ne.symm hne]] at hg
          obtain ⟨y, hy, hd⟩ := h4 a ha hg
          exact ⟨y, hy, reads_more hd (le_max_right _ _)⟩

theorem sublist_all {α : Type} {a b : List α} (h : a.Sublist b) (hb : b.Nodup) (hall : ∀ x ∈ b, x ∈ a) : a = b :=
  h.eq_of_length_le (hb.length_le_of_subset hall)

theorem overlaid_unique {below : Option Value} {x : Value} (hb : ∀ y, below = some y → UniqueKeys y) (hx : UniqueKeys x) : UniqueKeys (overlaid below x) := by
  cases below with
  | none => exact hx
  | some y =>
    unfold overlaid
    dsimp only
    split
    · exact uniqueKeys_merge (hb y rfl) hx
    · exact hx

theorem bring {nulls : Bool} {structs : Nat → List (String × Ty)} (hs : ∀ n, WellFormed (.struct (structs n))) (hsm : ∀ n, PlainSections (.struct (structs n)))
    {T : Ty} {below : Option Value} {d : Data} (h : OnTop nulls structs T below d) : WellFormed T → PlainSections T → (∀ y, below = some y → UniqueKeys y) →
    ∃ x k, Tops nulls structs T below d x k := by
  induction h with
  | @said T below d hsay hsec =>
    intro hw hT hb
    obtain ⟨x, k, w⟩ := say hs hsay hw
    have hout : ∀ r : Value, r.isMap = x.isMap → overlaid below r = r := by
      intro r hr
      cases hS : IsSection T with
      | true => exact overlaid_other (Or.inl (hsec hS))
      | false =>
        refine overlaid_other (Or.inr ?_)
        rw [hr]
        cases hm : x.isMap with
        | false => rfl
        | true => obtain ⟨n, rfl⟩ := isMap_entries hm; exact absurd w.reads (map_not_read hT hS _ _)
    refine ⟨x, k, w.unique, w.noNone, w.toml, w.depth, by rw [hout x rfl]; exact w.reads, fun hsc hc r hr ha => ?_⟩
    obtain ⟨e1, e2⟩ := C66_deserialize structs hs hsc T hw hc k x r w.unique hr ha w.noClash
    obtain ⟨d', hd'⟩ := e1.1 ⟨d, w.reads⟩
    exact ⟨d', by rw [hout r (alike_isMap ha).symm]; exact hd', e2 d d' w.reads hd'⟩
  | @none t below hn =>
    intro hw hT hb
    have ho : ∀ r : Value, Alike .none r → overlaid below r = .none := by
      intro r hr
      rw [alike_none_eq hr]
      exact overlaid_other (Or.inr rfl)
    refine ⟨.none, 0, by simp [UniqueKeys], (fun h => ?_), (fun _ _ h => ?_), (fun _ h => nested_flat h fun s => by cases s <;> rfl), ?_, fun _ _ r _ ha => ⟨.none, ?_, DSame.refl _⟩⟩
    · rw [hn] at h; cases h
    · rw [hn] at h; cases h
    · rw [ho _ (Alike.refl _)]; rfl
    · rw [ho r ha]; rfl
  | @some t below d _ hn ih =>
    intro hw hT hb
    cases hw with | option hw =>
    cases hT with
    | leaf _ _ h _ _ => exact absurd rfl (h t)
    | option hT =>
    obtain ⟨x, k, w⟩ := ih hw hT hb
    have ne : ∀ r d', deAt structs k t r = .ok d' → ¬ Nothing d' → deAt structs k (.option t) r = .ok (.some d') := by
      intro r d' h hno
      rw [deAt] at h ⊢
      rw [de]
      · rw [h]; rfl
      · rintro rfl
        exact hno (none_nothing t _ h)
    refine ⟨x, k, w.unique, w.noNone, fun a b => ?_, fun n h => ?_, ne _ _ w.reads hn, fun a b r hr ha => ?_⟩
    · cases b with
      | leaf h => simp at h
      | option b => exact w.toml a b
    · cases h with
      | flat h => cases h
      | some h => exact w.depth n h
    · cases b with
      | leaf h => simp at h
      | option b =>
      obtain ⟨d', h1, h2⟩ := w.alike a b r hr ha
      refine ⟨.some d', ne _ _ h1 fun hno => hn ?_, dsame_some h2⟩
      have e := nothing_source (refs_not_nothing k) t _ d' (overlaid_unique hb hr) h1 hno
      -- then `x` is `None` too, and so is what is read from it
      have hmr : r.isMap = false := by
        cases hm : r.isMap with
        | false => rfl
        | true =>
          obtain ⟨n, rfl⟩ := isMap_entries hm
          cases hbe : below with
          | none => rw [hbe] at e; cases e
          | some y =>
            rw [hbe] at e
            cases hy : y.isMap with
            | true => obtain ⟨m, rfl⟩ := isMap_entries hy; rw [overlaid_maps] at e; cases e
            | false => rw [overlaid_other (Or.inl fun m hm => by cases hm; cases hy)] at e; cases e
      have e2 := e
      rw [overlaid_other (Or.inr hmr)] at e2
      subst e2
      have hx : x = .none := alike_none_eq (Alike.symm ha)
      subst hx
      have := w.reads
      rw [overlaid_other (Or.inr rfl)] at this
      exact none_nothing t _ this
  | @newtype t below d _ ih =>
    intro hw hT hb
    cases hw with | newtype hw =>
    cases hT with
    | leaf _ _ _ h _ => exact absurd rfl (h t)
    | newtype hT =>
    obtain ⟨x, k, w⟩ := ih hw hT hb
    have ne : ∀ r d', deAt structs k t r = .ok d' → deAt structs k (.newtype t) r = .ok (.newtypeStruct d') := by
      intro r d' h
      rw [deAt] at h ⊢
      rw [de, h]; rfl
    refine ⟨x, k, w.unique, w.noNone, fun a b => ?_, fun n h => ?_, ne _ _ w.reads, fun a b r hr ha => ?_⟩
    · cases b with
      | leaf h => simp at h
      | newtype b => exact w.toml a b
    · cases h with
      | flat h => cases h
      | newtype h => exact w.depth n h
    · cases b with
      | leaf h => simp at h
      | newtype b =>
      obtain ⟨d', h1, h2⟩ := w.alike a b r hr ha
      exact ⟨_, ne _ _ h1, dsame_newtype h2⟩
  | @struct fs m ds hnames hall ih =>
    intro hw hT hb
    cases hw with | struct hn hw =>
    cases hT with
    | leaf _ _ _ _ h => exact absurd rfl (h fs)
    | struct hT =>
    have hum := uniqueKeys_map.1 (hb _ rfl)
    have hl : fs.length = ds.length := by have := congrArg List.length hnames; simpa using this.symm
    obtain ⟨n, k, h1, h2, h3⟩ := tops_struct (nulls := nulls) (structs := structs) m fs ds hn (forall2_of_index hl (by
      intro i f nd hf hd
      refine ⟨?_, fun hno => ?_⟩
      · have := congrArg (fun l => l[i]?) hnames
        simpa [hf, hd] using this
      · have hmem := List.mem_of_getElem? hf
        have := ih i f nd hf hd (by rw [child_key_map]; exact hno) (hw f hmem) (hT f hmem)
          (fun y hy => by rw [child_key_map] at hy; exact hum.2 _ (hmGet_mem hy))
        rw [child_key_map] at this
        exact this))
    have hun : UniqueKeys (.map n) := uniqueKeys_map.2 ⟨h1, fun e he => by obtain ⟨f, _, nd, _, _, w⟩ := h2 e he; exact w.unique⟩
    refine ⟨.map n, k, hun, fun hz => noNone_map fun e he => ?_, fun a b hz => .map fun e he _ => ?_, fun j hd => ?_, ?_, fun a b r hr ha => ?_⟩
    · obtain ⟨f, _, nd, _, _, w⟩ := h2 e he; exact w.noNone hz
    · obtain ⟨f, hf, nd, _, _, w⟩ := h2 e he
      cases b with
      | leaf h => simp at h
      | struct b => exact w.toml a (b f hf) hz
    · cases hd with
      | flat h => cases h
      | struct hd => exact depth_map fun e he => by obtain ⟨_, _, nd, hnd, _, w⟩ := h2 e he; exact w.depth _ (hd _ hnd)
    · rw [overlaid_maps, deAt, de_struct_ok _ _ hn]
      · refine ⟨ds, rfl, h3.imp fun f nd h => ⟨h.1, ?_⟩⟩
        rw [hmGet_overlaid h1]
        cases hg : hmGet n f.1 with
        | none => have := h.2.2 hg; exact this
        | some x => exact (h.2.1 x hg).reads
      · have := overlaid_unique hb hun
        rw [overlaid_maps] at this
        exact (uniqueKeys_map.1 this).1
    · cases b with
      | leaf h => simp at h
      | struct b =>
      obtain ⟨n', rfl⟩ := isMap_entries (v := r) (by rw [← alike_isMap ha]; rfl)
      have hun' := uniqueKeys_map.1 hr
      have hch : ∀ key, (hmGet n key = none ∧ hmGet n' key = none) ∨ ∃ x y, hmGet n key = some x ∧ hmGet n' key = some y ∧ Alike x y := by
        intro key
        have h0 := alike_none ha [.key key]
        have h1 := alike_child ha (.key key)
        have e : ∀ l : Entries, view (.map l) [.key key] = none ↔ hmGet l key = none := by
          intro l; rw [view_cons, child_key_map]; cases hmGet l key <;> simp [view]
        rw [e, e] at h0
        rw [child_key_map, child_key_map] at h1
        cases hx : hmGet n key with
        | none => exact Or.inl ⟨rfl, h0.1 hx⟩
        | some x =>
          cases hy : hmGet n' key with
          | none => rw [h0.2 hy] at hx; cases hx
          | some y => rw [hx, hy] at h1; exact Or.inr ⟨x, y, rfl, rfl, h1⟩
      have hds : ∃ ds' : List (String × Data), List.Forall₂ (fun f nd => nd.1 = Prod.fst f ∧
          (match hmGet (mergeEntries m n') f.1 with | some v => de (refsAt structs k) f.2 v | none => missingField f.1 f.2) = .ok nd.2) fs ds' ∧
          List.Forall₂ (fun a b => a.1 = b.1 ∧ DSame a.2 b.2) ds ds' := by
        have hcf : ∀ f ∈ fs, Concrete (Prod.snd f) := b
        clear ih hall hw hT h2 hnames hn hl b
        induction h3 with
        | nil => exact ⟨[], .nil, .nil⟩
        | @cons f nd fr dr h _ ih =>
          obtain ⟨ds', e1, e2⟩ := ih fun f hf => hcf f (by simp [hf])
          rcases hch f.1 with ⟨c1, c2⟩ | ⟨x, y, c1, c2, c3⟩
          · refine ⟨nd :: ds', .cons ⟨h.1, ?_⟩ e1, .cons ⟨rfl, DSame.refl _⟩ e2⟩
            rw [hmGet_overlaid hun'.1, c2]
            exact h.2.2 c1
          · obtain ⟨d', g1, g2⟩ := (h.2.1 x c1).alike a (hcf f (by simp)) y (hun'.2 _ (hmGet_mem c2)) c3
            refine ⟨(nd.1, d') :: ds', .cons ⟨h.1, ?_⟩ e1, .cons ⟨rfl, g2⟩ e2⟩
            rw [hmGet_overlaid hun'.1, c2]
            exact g1
      obtain ⟨ds', e1, e2⟩ := hds
      refine ⟨.struct ds', ?_, dsame_struct e2⟩
      rw [overlaid_maps, deAt, de_struct_ok _ _ hn]
      · exact ⟨ds', rfl, e1⟩
      · have := overlaid_unique hb hr
        rw [overlaid_maps] at this
        exact (uniqueKeys_map.1 this).1
  | @map t m es hnd hkeys _ ih =>
    intro hw hT hb
    cases hw with | map hw =>
    cases hT with
    | leaf h => exact absurd rfl (h _ _)
    | map hT =>
    have hum := uniqueKeys_map.1 (hb _ rfl)
    obtain ⟨n, k, h1, h2, h3, h4⟩ := tops_map (nulls := nulls) (structs := structs) m t es hnd (by
      intro e he hno
      have := ih e he (by rw [child_key_map]; exact hno) hw hT (fun y hy => by rw [child_key_map] at hy; exact hum.2 _ (hmGet_mem hy))
      rw [child_key_map] at this
      exact this)
    have tops : ∀ e ∈ es, ∀ x, hmGet n e.1 = some x → Tops nulls structs t (hmGet m e.1) e.2 x k := by
      intro e he x hx
      obtain ⟨nd, hnd', hk, ht⟩ := h3 _ (hmGet_mem hx)
      have : nd = e := List.inj_on_of_nodup_map hnd hnd' he hk
      rw [this] at ht
      exact ht
    have keys : ∀ n' : Entries, (n'.map Prod.fst).Nodup → (∀ key, key ∈ n'.map Prod.fst ↔ key ∈ n.map Prod.fst) → ∀ key, key ∈ (mergeEntries m n').map Prod.fst ↔ key ∈ es.map Prod.fst := by
      intro n' hn' hsame key
      rw [keys_mergeEntries n' m hn', List.mem_append, List.mem_filter]
      obtain ⟨new, hnew⟩ := hkeys
      constructor
      · rintro (h | ⟨h, -⟩)
        · rw [hnew]; simp [h]
        · exact h2.subset ((hsame key).1 h)
      · intro h
        by_cases hm : key ∈ m.map Prod.fst
        · exact Or.inl hm
        · refine Or.inr ⟨(hsame key).2 ?_, by simpa using hm⟩
          obtain ⟨e, he, rfl⟩ := List.mem_map.1 h
          cases hg : hmGet n e.1 with
          | some x => exact List.mem_map_of_mem (hmGet_mem hg)
          | none =>
            obtain ⟨z, hz, -⟩ := h4 e he hg
            exact absurd (List.mem_map_of_mem (hmGet_mem hz)) hm
    have hun : UniqueKeys (.map n) := uniqueKeys_map.2 ⟨h1, fun e he => by obtain ⟨nd, _, _, w⟩ := h3 e he; exact w.unique⟩
    refine ⟨.map n, k, hun, fun hz => noNone_map fun e he => ?_, fun a b hz => .map fun e he _ => ?_, fun j hd => ?_, ?_, fun a b r hr ha => ?_⟩
    · obtain ⟨nd, _, _, w⟩ := h3 e he; exact w.noNone hz
    · obtain ⟨nd, _, _, w⟩ := h3 e he
      cases b with
      | leaf h => simp at h
      | map b => exact w.toml a b hz
    · cases hd with
      | flat h => cases h
      | map hd =>
        refine depth_map fun e he => ?_
        obtain ⟨nd, hnd, _, w⟩ := h3 e he
        exact w.depth _ (hd _ (List.mem_map_of_mem (f := fun e : String × Data => (Data.str e.1, e.2)) hnd))
    · have huu := overlaid_unique hb hun
      rw [overlaid_maps] at huu ⊢
      have huu := uniqueKeys_map.1 huu
      rw [deAt, text_map_ok huu.1]
      refine ⟨es, rfl, ?_⟩
      have hkk : es.map Prod.fst = (mergeEntries m n).map Prod.fst := by
        rw [keys_mergeEntries n m h1]
        obtain ⟨new, hnew⟩ := hkeys
        rw [hnew]
        congr 1
        rw [hnew] at hnd h2
        rw [List.nodup_append] at hnd
        have e1 : new = (m.map Prod.fst ++ new).filter fun k => decide (k ∉ m.map Prod.fst) := by
          rw [List.filter_append, List.filter_eq_nil_iff.2 (by intro a ha; simpa using ha), List.nil_append, List.filter_eq_self.2]
          intro a ha
          simp only [decide_eq_true_eq]
          exact fun hm => hnd.2.2 a hm a ha rfl
        rw [e1]
        refine (sublist_all (h2.filter _) (by rw [← e1]; exact hnd.2.1) fun key hkey => ?_).symm
        obtain ⟨g1, g2⟩ := List.mem_filter.1 hkey
        refine List.mem_filter.2 ⟨?_, g2⟩
        have := (keys n h1 (fun _ => Iff.rfl) key).2 (by rw [hnew]; exact g1)
        rw [keys_mergeEntries n m h1, List.mem_append] at this
        rcases this with h | h
        · simp only [decide_eq_true_eq] at g2; exact absurd h g2
        · exact (List.mem_filter.1 h).1
      refine forall2_of_index (by have := congrArg List.length hkk; simpa using this.symm) fun i e nd he hnd' => ?_
      have hk1 : nd.1 = e.1 := by
        have := congrArg (fun l => l[i]?) hkk
        simpa [he, hnd'] using this
      refine ⟨hk1, ?_⟩
      have hg := hmGet_of_mem' huu.1 (List.mem_of_getElem? he)
      rw [hmGet_overlaid h1, ← hk1] at hg
      have hmem := List.mem_of_getElem? hnd'
      cases hgn : hmGet n nd.1 with
      | none =>
        rw [hgn] at hg
        obtain ⟨z, hz, hd⟩ := h4 nd hmem hgn
        rw [hz] at hg
        cases hg
        exact hd
      | some x =>
        rw [hgn] at hg
        simp only [Option.some.injEq] at hg
        have hr := (tops nd hmem x hgn).reads
        rw [show overlaid (hmGet m nd.1) x = e.2 from hg.symm ▸ rfl] at hr
        exact hr
    · cases b with
      | leaf h => simp at h
      | map b =>
      obtain ⟨n', rfl⟩ := isMap_entries (v := r) (by rw [← alike_isMap ha]; rfl)
      have hun' := uniqueKeys_map.1 hr
      have hch := alike_entries ha
      have hsame : ∀ key, key ∈ n'.map Prod.fst ↔ key ∈ n.map Prod.fst := by
        intro key
        rw [← not_iff_not, ← hmGet_eq_none, ← hmGet_eq_none]
        rcases hch key with ⟨c1, c2⟩ | ⟨x, y, c1, c2, -⟩
        · simp [c1, c2]
        · simp [c1, c2]
      have huu := overlaid_unique hb hr
      rw [overlaid_maps] at huu ⊢
      have huu := uniqueKeys_map.1 huu
      obtain ⟨es', he'⟩ := forall2_exists (l := mergeEntries m n') (R := fun (e : String × Value) (nd : String × Data) => nd.1 = e.1 ∧ de (refsAt structs k) t e.2 = .ok nd.2 ∧
          ∃ o ∈ es, o.1 = e.1 ∧ DSame o.2 nd.2) (by
        intro e he
        obtain ⟨o, ho, hoe⟩ := List.mem_map.1 ((keys n' hun'.1 hsame e.1).1 (List.mem_map_of_mem he))
        have hg := hmGet_of_mem' huu.1 he
        rw [hmGet_overlaid hun'.1, ← hoe] at hg
        rcases hch o.1 with ⟨c1, c2⟩ | ⟨x, y, c1, c2, c3⟩
        · rw [c2] at hg
          obtain ⟨z, hz, hd⟩ := h4 o ho c1
          rw [hz] at hg
          cases hg
          exact ⟨(e.1, o.2), rfl, hd, o, ho, hoe, DSame.refl _⟩
        · rw [c2] at hg
          simp only [Option.some.injEq] at hg
          obtain ⟨d', g1, g2⟩ := (tops o ho x c1).alike a b y (hun'.2 _ (hmGet_mem c2)) c3
          rw [show overlaid (hmGet m o.1) y = e.2 from hg.symm ▸ rfl] at g1
          exact ⟨(e.1, d'), rfl, g1, o, ho, hoe, g2⟩)
      have hk' := text_keys (fun _ _ => True) (he'.imp fun _ _ h => ⟨h.1, trivial⟩)
      refine ⟨_, by rw [deAt, text_map_ok huu.1]; exact ⟨es', rfl, he'.imp fun _ _ h => ⟨h.1, h.2.1⟩⟩, dsame_texts fun key => ⟨?_, fun x y hx hy => ?_⟩⟩
      · rw [hmGet_eq_none, hmGet_eq_none, hk', keys n' hun'.1 hsame]
      · obtain ⟨e, _, e1, -, o, ho, e2, e3⟩ := forall2_right he' _ (hmGet_mem hy)
        have hox := hmGet_of_mem' hnd ho
        rw [show o.1 = key from e2.trans e1.symm, hx] at hox
        cases hox
        exact e3
  | @ref n below d _ ih =>
    intro hw hT hb
    obtain ⟨x, k, w⟩ := ih (hs n) (hsm n) hb
    refine ⟨x, k + 1, w.unique, w.noNone, fun a _ => w.toml a (a n), w.depth, ?_, fun a _ r hr ha => ?_⟩
    · rw [deAt, de, refsAt]; exact w.reads
    · obtain ⟨d', h1, h2⟩ := w.alike a (a n) r hr ha
      exact ⟨d', by rw [deAt, de, refsAt]; exact h1, h2⟩

/-! ## The theorems -/

theorem overlaid_top {v x : Value} (hv : v.isMap = true) (hx : x.isMap = true) : overlaid (some v) x = v.merge x := by
  obtain ⟨m, rfl⟩ := isMap_entries hv
  obtain ⟨n, rfl⟩ := isMap_entries hx
  rw [overlaid_maps, merge_map_map]

theorem merge_other {v x : Value} (hx : x.isMap = false) : v.merge x = v := by
  cases x <;> simp only [Value.isMap, reduceCtorEq] at hx <;> cases v <;> rfl

/-- Reading what comes of merging something on top. -/
theorem onTop_merge {nulls : Bool} {structs : Nat → List (String × Ty)} (hs : ∀ n, WellFormed (.struct (structs n))) (hsm : ∀ n, PlainSections (.struct (structs n)))
    {fs : List (String × Ty)} (hT : WellFormed (.struct fs)) (hTm : PlainSections (.struct fs)) {v x : Value} (hvm : v.isMap = true) (hvu : UniqueKeys v)
    (hxu : UniqueKeys x) (hz : nulls = false → NoNone x) {k : Nat} {d : Data} (h : deAt structs k (.struct fs) (v.merge x) = .ok d) :
    OnTop nulls structs (.struct fs) (some v) d := by
  have hb : ∀ y, some v = some y → UniqueKeys y := by rintro y h; cases h; exact hvu
  cases hm : x.isMap with
  | true =>
    rw [← overlaid_top hvm hm] at h
    exact onTop_de hs (onTop_refs hs hsm k) _ hT hTm _ x d hb hxu hz h
  | false =>
    have e : v.merge x = overlaid (some v) (.map []) := by rw [merge_other hm, overlaid_top hvm rfl, C02_merge_empty]
    rw [e] at h
    exact onTop_de hs (onTop_refs hs hsm k) _ hT hTm _ (.map []) d hb (uniqueKeys_map.2 ⟨by simp, by simp⟩) (fun _ => noNone_map (by simp)) h

/-- **C142.** Layers that say `v`, and a memory layer on top of them. The settings (of types whose maps in sections have text keys, and that have no `Value` in sections) that some value in it brings about are exactly those described by
`OnTop`; likewise for values that are nowhere `None`. -/
theorem C142_top (nulls : Bool) (b : Build) (fm : Formats) (calls : List RegCall) (w : World) (skip : Bool) (v : Value)
    (h : (register b fm calls).buildValue w skip = .ok v) (hp : ∀ e ∈ firsts (offers b fm calls), Proper e.2) (name : String) (hnew : ∀ a ∈ offers b fm calls, a.1 ≠ name)
    (structs : Nat → List (String × Ty)) (hs : ∀ n, WellFormed (.struct (structs n))) (hsm : ∀ n, PlainSections (.struct (structs n)))
    (fs : List (String × Ty)) (hT : WellFormed (.struct fs)) (hTm : PlainSections (.struct fs)) (d : Data) :
    (∃ x, UniqueKeys x ∧ (nulls = false → NoNone x) ∧
      ∃ v' k, (register b fm (calls ++ [.memory name x])).buildValue w skip = .ok v' ∧ deAt structs k (.struct fs) v' = .ok d) ↔
    OnTop nulls structs (.struct fs) (some v) d := by
  obtain ⟨hvm, hvu⟩ := C08_map b fm calls w skip v h
  have hadd := fun x : Value => C14_add_last b fm calls (.memory name x) w skip (name, .memory x) x v rfl hnew rfl h
  constructor
  · rintro ⟨x, hxu, hz, v', k, hv', hd⟩
    rw [hadd x] at hv'
    cases hv'
    exact onTop_merge hs hsm hT hTm hvm (hvu hp) hxu hz hd
  · intro ho
    obtain ⟨x, k, t⟩ := bring hs hsm ho hT hTm (by rintro y h; cases h; exact hvu hp)
    refine ⟨x, t.unique, t.noNone, _, k, hadd x, ?_⟩
    have hr := t.reads
    cases hm : x.isMap with
    | true => rw [overlaid_top hvm hm] at hr; exact hr
    | false =>
      rw [overlaid_other (Or.inr hm)] at hr
      obtain ⟨n, rfl⟩ := struct_map hr
      cases hm

/-- **C142.** No layer of the crate on top brings about anything else, whatever is in the file or the environment; and a layer of a format without nulls (or the environment) nothing but what
is brought about without `None`. -/
theorem C142_only (nulls : Bool) (b : Build) (fm : Formats) (calls : List RegCall) (w : World) (skip : Bool) (v v' : Value)
    (h : (register b fm calls).buildValue w skip = .ok v) (hp : ∀ e ∈ firsts (offers b fm calls), Proper e.2)
    (call : RegCall) (hb : call.BuiltIn) (hm : ∀ n x, call = .memory n x → UniqueKeys x ∧ (nulls = false → NoNone x))
    (hc : ∀ n p cd, call = .file n p → FormatOf b fm p cd → nulls = false → NullFreeFormat cd)
    (hnew : ∀ a ∈ offers b fm calls, ∀ e, call.offer b fm = some e → a.1 ≠ e.1)
    (h' : (register b fm (calls ++ [call])).buildValue w skip = .ok v')
    (structs : Nat → List (String × Ty)) (hs : ∀ n, WellFormed (.struct (structs n))) (hsm : ∀ n, PlainSections (.struct (structs n)))
    (fs : List (String × Ty)) (hT : WellFormed (.struct fs)) (hTm : PlainSections (.struct fs)) (k : Nat) (d : Data) (hd : deAt structs k (.struct fs) v' = .ok d) :
    OnTop nulls structs (.struct fs) (some v) d := by
  obtain ⟨hvm, hvu⟩ := C08_map b fm calls w skip v h
  have stay : v' = v → OnTop nulls structs (.struct fs) (some v) d := by
    rintro rfl
    rw [← C02_merge_empty v'] at hd
    exact onTop_merge hs hsm hT hTm hvm (hvu hp) (uniqueKeys_map.2 ⟨by simp, by simp⟩) (fun _ => noNone_map (by simp)) hd
  cases ho : call.offer b fm with
  | none =>
    refine stay ?_
    have : offers b fm (calls ++ [call]) = offers b fm calls := by
      unfold offers; rw [List.filterMap_append]; simp [ho]
    rw [buildValue_is (is_register b fm _), this, ← buildValue_is (is_register b fm calls), h] at h'
    cases h'; rfl
  | some e =>
    have hn := fun a ha => hnew a ha e ho
    cases hr : e.2.readValue w with
    | error err =>
      rw [C14_failing b fm calls call w e err v ho hn hr skip h] at h'
      cases skip with
      | true => cases h'; exact stay rfl
      | false => cases h'
    | ok x =>
      rw [C14_add_last b fm calls call w skip e x v ho hn hr h] at h'
      cases h'
      refine onTop_merge hs hsm hT hTm hvm (hvu hp) ?_ (fun hz => ?_) hd
      · exact C08_builtin_proper b fm call e hb (fun n y hy => (hm n y hy).1) ho w x hr
      · cases call with
        | layer => exact hb.elim
        | memory n y => simp only [RegCall.offer, Option.some.injEq] at ho; subst ho; cases hr; exact (hm n _ rfl).2 hz
        | environment n pre => simp only [RegCall.offer, Option.some.injEq] at ho; subst ho; exact noNone_env hr
        | file n p =>
          obtain ⟨cd, rfl, hf⟩ := offer_file ho
          cases he : w.pathExists p with
          | false => rw [show (Layer.file (textHandler cd) p).readValue w = .ok (.map []) from C56_missing _ w p he] at hr; cases hr; exact noNone_map (by simp)
          | true =>
            obtain ⟨text, doc, we, -, h2, h3⟩ := (C56_content cd w p he x).1 hr
            exact noNone_visit h3 (hc n p cd rfl hf hz text doc h2)

/-- **C142.** And all of it, but for what needs a `None`, can be brought about by a TOML file on top (for types that name no `Value`, and settings nested less deep than the format's limit): there is a map
such that any format like TOML has a text for it, and with a file with this text on top, over layers that still say `v`, the program reads these settings. -/
theorem C142_file (v : Value) (hvm : v.isMap = true) (hvu : UniqueKeys v) (structs : Nat → List (String × Ty)) (hs : ∀ n, WellFormed (.struct (structs n)))
    (hsm : ∀ n, PlainSections (.struct (structs n))) (hsc : ∀ n, Concrete (.struct (structs n)))
    (fs : List (String × Ty)) (hT : WellFormed (.struct fs)) (hTm : PlainSections (.struct fs)) (hTc : Concrete (.struct fs)) (d : Data)
    (hd : OnTop false structs (.struct fs) (some v) d) :
    ∃ x, UniqueKeys x ∧ ∀ (limit : Nat) (cd : Codec), TomlLike limit cd → NestedBelow d limit → ∃ text, cd.print x.toData = .ok text ∧
      ∀ (b : Build) (fm : Formats) (calls : List RegCall) (name : String) (p : OsStr) (w : World) (skip : Bool) (writeErr : Option Nat), FormatOf b fm p cd →
        (∀ a ∈ offers b fm calls, a.1 ≠ name) → (register b fm calls).buildValue w skip = .ok v → w.disk (w.locate p) = .file (utf8 text) none writeErr →
        ∃ v' k d', (register b fm (calls ++ [.file name p])).buildValue w skip = .ok v' ∧ deAt structs k (.struct fs) v' = .ok d' ∧ DSame d d' := by
  obtain ⟨x, k, t⟩ := bring hs hsm hd hT hTm (by rintro y h; cases h; exact hvu)
  have hxm : x.isMap = true := by
    cases hm : x.isMap with
    | true => rfl
    | false =>
      have hr := t.reads
      rw [overlaid_other (Or.inr hm)] at hr
      obtain ⟨n, rfl⟩ := struct_map hr
      cases hm
  refine ⟨x, t.unique, fun limit cd htl hdepth => ?_⟩
  obtain ⟨text, ht⟩ := (htl.prints x).2 ⟨hxm, t.toml hsc hTc rfl⟩
  refine ⟨text, ht, fun b fm calls name p w skip we hf hnew hbelow hdisk => ?_⟩
  obtain ⟨doc, s, h1, h2, h3, h4⟩ := htl.parses x text t.unique (t.depth _ hdepth) ht
  obtain ⟨r, h5, h6, h7⟩ := C66_reads s h4 doc h2
  have hal : Alike x r := by
    intro q
    rw [← (h3 q).2 fun hne => t.noNone rfl q hne.2]
    exact h6 q
  obtain ⟨d', e1, e2⟩ := t.alike hsc hTc r h7 hal
  have he : w.pathExists p = true := by simp [World.pathExists, hdisk]
  have hr := (C56_content cd w p he r).2 ⟨text, doc, we, hdisk, h1, h5⟩
  refine ⟨_, k, d', C14_add_last b fm calls (.file name p) w skip (name, .file (textHandler cd) p) _ v (TextFmt.offer hf name) hnew hr hbelow, ?_, e2⟩
  rw [overlaid_top hvm (by rw [← alike_isMap hal]; exact hxm)] at e1
  exact e1

theorem keeps_keys (kds : List (Key × Data)) : ∀ (es : List (Key × Data)) (k : Key), k ∈ (keyInsAll es kds).map Prod.fst ↔ k ∈ es.map Prod.fst ∨ k ∈ kds.map Prod.fst := by
  have one : ∀ (es : List (Key × Data)) (k : Key) (d : Data) (j : Key), j ∈ (keyInsert es k d).map Prod.fst ↔ j ∈ es.map Prod.fst ∨ j = k := by
    intro es k d j
    induction es with
    | nil => simp [keyInsert]
    | cons e r ih =>
      obtain ⟨k', d'⟩ := e
      rw [keyInsert]
      split
      · rename_i h
        subst h
        simp only [List.map_cons, List.mem_cons]
        tauto
      · simp only [List.map_cons, List.mem_cons, ih]
        tauto
  induction kds with
  | nil => intro es k; simp [keyInsAll]
  | cons e r ih =>
    intro es k
    show k ∈ (keyInsAll (keyInsert es e.1 e.2) r).map Prod.fst ↔ _
    rw [ih, one]
    simp only [List.map_cons, List.mem_cons]
    tauto

theorem keeps_text {kt : KeyTy} {k s : String} (h : deKey kt k = .ok (.str s)) : kt = .string ∧ s = k := by
  cases kt with
  | string => simp only [deKey] at h; cases h; exact ⟨rfl, rfl⟩
  | _ => simp only [deKey] at h; obtain ⟨a, -, h⟩ := bind_eq_ok.1 h; cases h

theorem keeps_fresh {dec : Decoder} {m : Entries} {kds : List (Key × Data)} (h : List.Forall₂ (fun e kd => deKey .string e.1 = .ok kd.1 ∧ dec e.2 = .ok kd.2) m kds)
    (hn : (m.map Prod.fst).Nodup) : keyInsAll [] kds = kds := by
  rw [keyInsAll_fresh kds [] ?_]; · rfl
  have : (kds.map Prod.fst) = (m.map Prod.fst).map Key.str := by
    clear hn
    induction h with
    | nil => rfl
    | cons h _ ih =>
      have h1 := h.1
      simp only [deKey] at h1
      injection h1 with h1
      simp only [List.map_cons, ih, ← h1]
  rw [List.nil_append, this]
  exact hn.map (fun a b h => by cases h; rfl)

theorem key_toData_inj {a b : Key} (h : a.toData = b.toData) : a = b := by
  cases a <;> cases b <;> simp only [Key.toData, Data.bool.injEq, Data.char.injEq, Data.str.injEq, reduceCtorEq] at h <;> first | rw [h] | skip
  cases h; rfl

/-- In a `Value`. -/
theorem keeps_value (y : Value) : UniqueKeys y → ∀ x, UniqueKeys x → KeepsSet y.toData (overlaid (some y) x).toData := by
  induction y using Value.ind with
  | map m ih =>
    intro hy x hx
    cases hm : x.isMap with
    | false =>
      rw [overlaid_other (Or.inr hm), Value.toData]
      refine .replaced fun es' h => ?_
      cases x <;> first | (simp [Value.toData] at h; done) | cases hm
    | true =>
      obtain ⟨n, rfl⟩ := isMap_entries hm
      have huu := overlaid_unique (below := some (.map m)) (by rintro y h; cases h; exact hy) hx
      rw [overlaid_maps] at huu ⊢
      have hum := uniqueKeys_map.1 hy
      have hun := uniqueKeys_map.1 hx
      have huu := uniqueKeys_map.1 huu
      rw [Value.toData, Value.toData, toDataEntries_eq, toDataEntries_eq]
      have find : ∀ e ∈ m, ∃ z, hmGet (mergeEntries m n) e.1 = some z ∧ KeepsSet e.2.toData z.toData := by
        intro e he
        rw [hmGet_overlaid hun.1, hmGet_of_mem' hum.1 he]
        cases hg : hmGet n e.1 with
        | none => exact ⟨_, rfl, .same _⟩
        | some xv => exact ⟨_, rfl, ih e he (hum.2 _ he) xv (hun.2 _ (hmGet_mem hg))⟩
      refine .map ?_ ?_
      · intro e he
        obtain ⟨a, ha, rfl⟩ := List.mem_map.1 he
        obtain ⟨z, hz, -⟩ := find a ha
        exact ⟨_, List.mem_map_of_mem (hmGet_mem hz), rfl⟩
      · intro e he e' he' s hs hs'
        obtain ⟨a, ha, rfl⟩ := List.mem_map.1 he
        obtain ⟨c, hc, rfl⟩ := List.mem_map.1 he'
        obtain ⟨z, hz, hk⟩ := find a ha
        have : c.1 = a.1 := by
          simp only [Data.str.injEq] at hs hs'
          rw [hs, hs']
        have h2 := hmGet_of_mem' huu.1 hc
        rw [this, hz] at h2
        cases h2
        exact hk
  | _ => intros; exact .other (by simp [Value.toData]) (by simp [Value.toData]) (by simp [Value.toData]) (by simp [Value.toData])

/-- What is set stays set, under a value without `None`. -/
theorem keeps_de {structs : Nat → List (String × Ty)} {k : Nat}
    (hrefs : ∀ n y x d d', UniqueKeys y → UniqueKeys x → NoNone x → refsAt structs k n y = .ok d → refsAt structs k n (overlaid (some y) x) = .ok d' → KeepsSet d d') (T : Ty) :
    WellFormed T → ∀ y x d d', UniqueKeys y → UniqueKeys x → NoNone x → deAt structs k T y = .ok d → deAt structs k T (overlaid (some y) x) = .ok d' → KeepsSet d d' := by
  unfold deAt
  have leaf : ∀ {α : Type} {o : Outcome ModelError α} {f : α → Data} {d d' : Data}, (o >>= fun a => Outcome.ok (f a)) = .ok d →
      (∀ a, (∀ x, f a ≠ .some x) ∧ (∀ x, f a ≠ .newtypeStruct x) ∧ (∀ ds, f a ≠ .struct ds) ∧ (∀ es, f a ≠ .map es)) → KeepsSet d d' := by
    intro α o f d d' h hf
    obtain ⟨a, -, h⟩ := bind_eq_ok.1 h
    cases h
    exact .other (hf a).1 (hf a).2.1 (hf a).2.2.1 (hf a).2.2.2
  have hnn : ∀ {y x : Value}, NoNone x → overlaid (some y) x ≠ .none := by
    intro y x hx h
    unfold overlaid at h
    dsimp only at h
    split at h
    · rename_i hm
      rw [Bool.and_eq_true] at hm
      obtain ⟨m, rfl⟩ := isMap_entries hm.1
      obtain ⟨n, rfl⟩ := isMap_entries hm.2
      rw [merge_map_map] at h; cases h
    · exact noNone_ne hx h
  induction T using Ty.ind with
  | bool | int | f32 | f64 | char | string => intro _ y x d d' _ _ _ h _; rw [de] at h; exact leaf h fun a => ⟨by simp, by simp, by simp, by simp⟩
  | unit | unitStruct =>
    intro _ y x d d' _ _ _ h _
    cases y <;> simp only [de, reduceCtorEq, Outcome.ok.injEq] at h
    rw [← h]; exact .other (by simp) (by simp) (by simp) (by simp)
  | bytes | enum => intro _ y x d d' _ _ _ h _; rw [de] at h; cases h
  | value =>
    intro _ y x d d' hy hx _ h h'
    rw [de, deValue_ok y hy] at h
    rw [de, deValue_ok _ (overlaid_unique (by rintro z h; cases h; exact hy) hx)] at h'
    cases h; cases h'
    exact keeps_value y hy x hx
  | option t ih =>
    intro hw y x d d' hy hx hz h h'
    cases hw with | option hw =>
    have hne := hnn (y := y) hz
    rw [de] at h'
    rotate_left
    · exact fun e => absurd e hne
    obtain ⟨e', he', h'⟩ := bind_eq_ok.1 h'
    cases h'
    by_cases hv : y = .none
    · subst hv
      simp only [de, Outcome.ok.injEq] at h
      rw [← h]; exact .none _
    · rw [de] at h
      · obtain ⟨e, he, h⟩ := bind_eq_ok.1 h
        cases h
        exact .some (ih hw y x e e' hy hx hz he he')
      · exact fun e => absurd e hv
  | newtype t ih =>
    intro hw y x d d' hy hx hz h h'
    cases hw with | newtype hw =>
    rw [de] at h h'
    obtain ⟨e, he, h⟩ := bind_eq_ok.1 h
    obtain ⟨e', he', h'⟩ := bind_eq_ok.1 h'
    cases h; cases h'
    exact .newtype (ih hw y x e e' hy hx hz he he')
  | map kt t ih =>
    intro hw y x d d' hy hx hz h h'
    cases hw with | map hw =>
    cases y with
    | map m =>
      have hisM : x.isMap = true := by
        cases hm : x.isMap with
        | true => rfl
        | false =>
          rw [overlaid_other (Or.inr hm)] at h'
          cases x <;> first | (simp only [de, reduceCtorEq] at h'; done) | cases hm
      obtain ⟨n, rfl⟩ := isMap_entries hisM
      have huu := overlaid_unique (below := some (.map m)) (by rintro y h; cases h; exact hy) hx
      rw [overlaid_maps] at h' huu
      have hum := uniqueKeys_map.1 hy
      have hun := uniqueKeys_map.1 hx
      have huu := uniqueKeys_map.1 huu
      rw [de] at h h'
      obtain ⟨es, he, h⟩ := bind_eq_ok.1 h
      obtain ⟨es', he', h'⟩ := bind_eq_ok.1 h'
      cases h; cases h'
      obtain ⟨kds, h1, rfl⟩ := (deMapLoop_ok _ _ _ _ _).1 he
      obtain ⟨kds', h1', rfl⟩ := (deMapLoop_ok _ _ _ _ _).1 he'
      have find : ∀ e ∈ m, ∃ z, hmGet (mergeEntries m n) e.1 = some z ∧ (z = e.2 ∨ ∃ xv, hmGet n e.1 = some xv ∧ z = overlaid (some e.2) xv) := by
        intro e he
        rw [hmGet_overlaid hun.1, hmGet_of_mem' hum.1 he]
        cases hg : hmGet n e.1 with
        | none => exact ⟨_, rfl, Or.inl rfl⟩
        | some xv => exact ⟨_, rfl, Or.inr ⟨xv, rfl, rfl⟩⟩
      refine .map ?_ ?_
      · intro e he
        obtain ⟨kd, hkd, rfl⟩ := List.mem_map.1 he
        have hkey := (keeps_keys kds [] kd.1).1 (List.mem_map_of_mem hkd)
        simp only [List.map_nil, List.not_mem_nil, false_or, List.mem_map] at hkey
        obtain ⟨c, hc, hck⟩ := hkey
        obtain ⟨a, ha, h2, -⟩ := forall2_right h1 c hc
        obtain ⟨z, hz, -⟩ := find a ha
        obtain ⟨c', hc', h3, -⟩ := forall2_left h1' _ (hmGet_mem hz)
        have : c'.1 = kd.1 := by
          rw [← hck]
          have := h3.symm.trans h2
          injection this
        obtain ⟨g, hg, hgk⟩ := List.mem_map.1 ((keeps_keys kds' [] kd.1).2 (Or.inr (by rw [← this]; exact List.mem_map_of_mem hc')))
        exact ⟨_, List.mem_map_of_mem hg, by rw [hgk]⟩
      · intro e he e' he' s hs hs'
        obtain ⟨kd, hkd, rfl⟩ := List.mem_map.1 he
        obtain ⟨kd', hkd', rfl⟩ := List.mem_map.1 he'
        have hk : kd.1 = .str s := key_toData_inj hs
        have hk' : kd'.1 = .str s := key_toData_inj hs'
        have hkey := (keeps_keys kds [] kd.1).1 (List.mem_map_of_mem hkd)
        simp only [List.map_nil, List.not_mem_nil, false_or, List.mem_map] at hkey
        obtain ⟨c, hc, hck⟩ := hkey
        obtain ⟨a, ha, h2, -⟩ := forall2_right h1 c hc
        rw [hck, hk] at h2
        obtain ⟨rfl, -⟩ := keeps_text h2
        rw [keeps_fresh h1 hum.1] at hkd
        rw [keeps_fresh h1' huu.1] at hkd'
        obtain ⟨a, ha, ha1, ha2⟩ := forall2_right h1 kd hkd
        obtain ⟨c, hc, hc1, hc2⟩ := forall2_right h1' kd' hkd'
        rw [hk] at ha1
        rw [hk'] at hc1
        have hac : c.1 = a.1 := (keeps_text hc1).2.symm.trans (keeps_text ha1).2
        obtain ⟨z, hgz, hzz⟩ := find a ha
        have h2 := hmGet_of_mem' huu.1 hc
        rw [hac, hgz] at h2
        cases h2
        rcases hzz with e | ⟨xv, hxv, e⟩
        · rw [e] at hc2
          have := ha2.symm.trans hc2
          injection this with this
          show KeepsSet kd.2 kd'.2
          rw [this]; exact .same _
        · rw [e] at hc2
          exact ih hw a.2 xv _ _ (hum.2 _ ha) (hun.2 _ (hmGet_mem hxv)) (noNone_child hz (by rw [child_key_map]; exact hxv)) ha2 hc2
    | _ => simp only [de, reduceCtorEq] at h
  | seq | tuple | tupleStruct =>
    intro _ y x d d' _ _ _ h _
    cases y <;> simp only [de, reduceCtorEq] at h
    exact leaf h fun a => ⟨by simp, by simp, by simp, by simp⟩
  | struct fs ih =>
    intro hw y x d d' hy hx hz h h'
    cases hw with | struct hn hw =>
    obtain ⟨m, rfl⟩ := struct_map h
    cases hm : x.isMap with
    | false =>
      rw [overlaid_other (Or.inr hm)] at h'
      obtain ⟨n, rfl⟩ := struct_map h'
      cases hm
    | true =>
      obtain ⟨n, rfl⟩ := isMap_entries hm
      have huu := overlaid_unique (below := some (.map m)) (by rintro y h; cases h; exact hy) hx
      rw [overlaid_maps] at h' huu
      have hum := uniqueKeys_map.1 hy
      have hun := uniqueKeys_map.1 hx
      obtain ⟨ds, rfl, h1⟩ := (de_struct_ok _ _ hn _ hum.1 _).1 h
      obtain ⟨ds', rfl, h1'⟩ := (de_struct_ok _ _ hn _ (uniqueKeys_map.1 huu).1 _).1 h'
      obtain ⟨l1, h2⟩ := forall2_index h1
      obtain ⟨l1', h2'⟩ := forall2_index h1'
      refine .struct (by rw [(fields_of h1).1, (fields_of h1').1]) fun i nd nd' hd hd' => ?_
      obtain ⟨f, hf⟩ := get_of_lt (show i < fs.length by have := lt_of_get hd; omega)
      have h3 := (h2 i f nd hf hd).2
      have h3' := (h2' i f nd' hf hd').2
      rw [hmGet_overlaid hun.1] at h3'
      cases hg : hmGet n f.1 with
      | none =>
        rw [hg] at h3'
        have : Outcome.ok nd.2 = Outcome.ok nd'.2 := h3.symm.trans h3'
        cases hnd : nd; cases hnd' : nd'
        rw [hnd, hnd'] at this
        cases this
        exact .same _
      | some xv =>
        rw [hg] at h3'
        cases hgm : hmGet m f.1 with
        | none =>
          rw [hgm] at h3
          rw [(missing_cases h3).1]
          exact .none _
        | some yv =>
          rw [hgm] at h3 h3'
          have hmem := List.mem_of_getElem? hf
          exact ih f hmem (hw f hmem) yv xv _ _ (hum.2 _ (hmGet_mem hgm)) (hun.2 _ (hmGet_mem hg)) (noNone_child hz (by rw [child_key_map]; exact hg)) h3 h3'
  | ref n =>
    intro _ y x d d' hy hx hz h h'
    rw [de] at h h'
    exact hrefs n y x d d' hy hx hz h h'

theorem keeps_refs {structs : Nat → List (String × Ty)} (hs : ∀ n, WellFormed (.struct (structs n))) (k : Nat) :
    ∀ n y x d d', UniqueKeys y → UniqueKeys x → NoNone x → refsAt structs k n y = .ok d → refsAt structs k n (overlaid (some y) x) = .ok d' → KeepsSet d d' := by
  induction k with
  | zero => intro n y x d d' _ _ _ h; cases h
  | succ k ih => intro n y x d d' hy hx hz h h'; exact keeps_de ih _ (hs n) y x d d' hy hx hz h h'

/-- **C142.** What a layer without `None` on top never does (any types, maps included): it does not unset an optional setting, in no section at any depth. -/
theorem C142_keeps (b : Build) (fm : Formats) (calls : List RegCall) (w : World) (skip : Bool) (v v' : Value)
    (h : (register b fm calls).buildValue w skip = .ok v) (hp : ∀ e ∈ firsts (offers b fm calls), Proper e.2)
    (call : RegCall) (e : String × Layer) (ho : call.offer b fm = some e) (hnew : ∀ a ∈ offers b fm calls, a.1 ≠ e.1)
    (x : Value) (hx : e.2.readValue w = .ok x) (hxu : UniqueKeys x) (hz : NoNone x)
    (h' : (register b fm (calls ++ [call])).buildValue w skip = .ok v')
    (structs : Nat → List (String × Ty)) (hs : ∀ n, WellFormed (.struct (structs n))) (fs : List (String × Ty)) (hT : WellFormed (.struct fs)) (k : Nat) (d d' : Data)
    (hd : deAt structs k (.struct fs) v = .ok d) (hd' : deAt structs k (.struct fs) v' = .ok d') : KeepsSet d d' := by
  obtain ⟨hvm, hvu⟩ := C08_map b fm calls w skip v h
  rw [C14_add_last b fm calls call w skip e x v ho hnew hx h] at h'
  cases h'
  cases hm : x.isMap with
  | false =>
    rw [merge_other hm, hd] at hd'
    cases hd'
    exact .same d
  | true =>
    rw [← overlaid_top hvm hm] at hd'
    exact keeps_de (keeps_refs hs k) _ hT v x d d' (hvu hp) hxu hz hd hd'

/-! ## Examples -/

/-- Settings with a host, an optional proxy, and a section with a port and an optional gateway. -/
def exTopTy : List (String × Ty) := [("host", .string), ("proxy", .option .string), ("net", .struct [("port", .int .u16), ("via", .option .string)])]

theorem exTopTy_wf : WellFormed (.struct exTopTy) := by
  refine .struct (by decide) fun f hf => ?_
  simp only [exTopTy, List.mem_cons, List.not_mem_nil, or_false] at hf
  rcases hf with rfl | rfl | rfl
  · exact .string
  · exact .option .string
  · refine .struct (by decide) fun f hf => ?_
    simp only [List.mem_cons, List.not_mem_nil, or_false] at hf
    rcases hf with rfl | rfl
    · exact .int _
    · exact .option .string

theorem exTopTy_plain : PlainSections (.struct exTopTy) := by
  refine .struct fun f hf => ?_
  simp only [exTopTy, List.mem_cons, List.not_mem_nil, or_false] at hf
  rcases hf with rfl | rfl | rfl
  · exact .leaf (by simp) (by simp) (by simp) (by simp) (by simp)
  · exact .option (.leaf (by simp) (by simp) (by simp) (by simp) (by simp))
  · refine .struct fun f hf => ?_
    simp only [List.mem_cons, List.not_mem_nil, or_false] at hf
    rcases hf with rfl | rfl
    · exact .leaf (by simp) (by simp) (by simp) (by simp) (by simp)
    · exact .option (.leaf (by simp) (by simp) (by simp) (by simp) (by simp))

theorem exTopTy_concrete : Concrete (.struct exTopTy) := by
  refine .struct fun f hf => ?_
  simp only [exTopTy, List.mem_cons, List.not_mem_nil, or_false] at hf
  rcases hf with rfl | rfl | rfl
  · exact .leaf (by simp)
  · exact .option (.leaf (by simp))
  · refine .struct fun f hf => ?_
    simp only [List.mem_cons, List.not_mem_nil, or_false] at hf
    rcases hf with rfl | rfl
    · exact .int _
    · exact .option (.leaf (by simp))

/-- What the layers below say. -/
def exBelow : Value := .map [("host", .string "a"), ("proxy", .string "p"), ("net", .map [("port", .string "80"), ("via", .string "q")])]

theorem exBelow_unique : UniqueKeys exBelow := by
  simp [exBelow, UniqueKeys, UniqueKeysMap, UniqueKeysEntry]

/-- Another host and another port; the proxy as it is; the gateway is a parameter. -/
def exTopD (via : Data) : Data := .struct [("host", .str "b"), ("proxy", .some (.str "p")), ("net", .struct [("port", .int .u16 ⟨8080, by decide⟩), ("via", via)])]

theorem exTop (nulls : Bool) (via : Data) (h : ¬ Stays exNoStructs (.option .string) (some (.string "q")) via → OnTop nulls exNoStructs (.option .string) (some (.string "q")) via) :
    OnTop nulls exNoStructs (.struct exTopTy) (some exBelow) (exTopD via) := by
  refine .struct rfl fun i f d hf hd hstay => ?_
  match i, hf, hd with
  | 0, rfl, rfl => exact .said (.string _) (fun h => nomatch h)
  | 1, rfl, rfl => exact absurd (Or.inl ⟨.string "p", 0, rfl, rfl⟩) hstay
  | 2, rfl, rfl =>
    refine OnTop.struct (m := [("port", .string "80"), ("via", .string "q")]) rfl fun i f d hf hd hstay => ?_
    match i, hf, hd with
    | 0, rfl, rfl => exact .said (.int _ (by simp [Upto64])) (fun h => nomatch h)
    | 1, rfl, rfl => exact h hstay

theorem exTop_stay (nulls : Bool) : OnTop nulls exNoStructs (.struct exTopTy) (some exBelow) (exTopD (.some (.str "q"))) :=
  exTop nulls _ fun h => absurd (Or.inl ⟨.string "q", 0, rfl, rfl⟩) h

/-- The gateway is unset: not without `None`. -/
theorem exTop_unset : ¬ OnTop false exNoStructs (.struct exTopTy) (some exBelow) (exTopD .none) := by
  intro h
  cases h with
  | said _ h => exact h rfl _ rfl
  | struct _ h =>
    have := h 2 ("net", _) ("net", _) rfl rfl (by
      rintro (⟨z, k, hz, h⟩ | ⟨h, -⟩)
      · cases hz; cases h
      · cases h)
    cases this with
    | said _ h => exact h rfl _ rfl
    | struct _ h =>
      have := h 1 ("via", _) ("via", .none) rfl rfl (by
        rintro (⟨z, k, hz, h⟩ | ⟨h, -⟩)
        · cases hz; cases h
        · cases h)
      cases this with
      | said h _ => cases h with | none _ h => cases h
      | none h => cases h

theorem exTop_new (fm : Formats) (a : String × Layer) (h : a ∈ offers exB1 fm [.memory "d" exBelow]) : a = ("d", .memory exBelow) := by
  simpa [offers, RegCall.offer] using h

theorem exTop_proper (fm : Formats) : ∀ e ∈ firsts (offers exB1 fm [.memory "d" exBelow]), Proper e.2 := by
  intro e he w v hv
  have := exTop_new fm e (by simpa [offers, RegCall.offer, firsts] using he)
  subst this
  cases hv
  exact exBelow_unique

/-- A memory layer on top sets the host and the port; it can also unset the gateway, but not without a `None`. -/
example (fm : Formats) (w : World) (v : Value) (hv : (register exB1 fm [.memory "d" exBelow]).buildValue w false = .ok v) (he : v = exBelow) :
    (∃ x, UniqueKeys x ∧ NoNone x ∧ ∃ v' k, (register exB1 fm [.memory "d" exBelow, .memory "t" x]).buildValue w false = .ok v' ∧
      deAt exNoStructs k (.struct exTopTy) v' = .ok (exTopD (.some (.str "q")))) ∧
    (∃ x, UniqueKeys x ∧ ∃ v' k, (register exB1 fm [.memory "d" exBelow, .memory "t" x]).buildValue w false = .ok v' ∧
      deAt exNoStructs k (.struct exTopTy) v' = .ok (exTopD .none)) ∧
    ¬ ∃ x, UniqueKeys x ∧ NoNone x ∧ ∃ v' k, (register exB1 fm [.memory "d" exBelow, .memory "t" x]).buildValue w false = .ok v' ∧
      deAt exNoStructs k (.struct exTopTy) v' = .ok (exTopD .none) := by
  subst he
  have top := fun nulls d => C142_top nulls exB1 fm [.memory "d" exBelow] w false exBelow hv (exTop_proper fm) "t"
    (fun a ha => by rw [exTop_new fm a ha]; simp) exNoStructs exNoStructs_wf (fun _ => .struct (by simp [exNoStructs])) exTopTy exTopTy_wf exTopTy_plain d
  refine ⟨?_, ?_, ?_⟩
  · obtain ⟨x, h1, h2, h3⟩ := (top false _).2 (exTop_stay false)
    exact ⟨x, h1, h2 rfl, h3⟩
  · obtain ⟨x, h1, -, h3⟩ := (top true _).2 (exTop true .none fun _ => .none rfl)
    exact ⟨x, h1, h3⟩
  · rintro ⟨x, h1, h2, h3⟩
    exact exTop_unset ((top false _).1 ⟨x, h1, fun _ => h2, h3⟩)

/-- Its hypothesis holds. -/
example (fm : Formats) (w : World) : (register exB1 fm [.memory "d" exBelow]).buildValue w false = .ok exBelow := by rfl

theorem exTopNested : NestedBelow (.struct [("port", .int .u16 ⟨8080, by decide⟩), ("via", .some (.str "q"))]) 2 :=
  .struct (by simp only [List.forall_mem_cons]; exact ⟨.flat rfl, .some (.flat rfl), by simp⟩)

/-- A TOML file does it too. -/
example : ∃ text, ∀ (w : World), w.disk (w.locate (os "/c.toml")) = .file (utf8 text) none none →
    ∃ v' k d', (register exB1 ⟨exTomlS, exTomlS⟩ [.memory "d" exBelow, .file "f" (os "/c.toml")]).buildValue w false = .ok v' ∧
      deAt exNoStructs k (.struct exTopTy) v' = .ok d' ∧ DSame (exTopD (.some (.str "q"))) d' := by
  obtain ⟨x, hu, h⟩ := C142_file exBelow rfl exBelow_unique exNoStructs exNoStructs_wf (fun _ => .struct (by simp [exNoStructs])) (fun _ => .struct (by simp [exNoStructs]))
    exTopTy exTopTy_wf exTopTy_plain exTopTy_concrete _ (exTop_stay false)
  obtain ⟨text, -, ht⟩ := h 3 exTomlS (exTomlS_like 3) (.struct (by simp only [List.forall_mem_cons]; exact ⟨.flat rfl, .some (.flat rfl), exTopNested, by simp⟩))
  exact ⟨text, fun w hw => ht exB1 ⟨exTomlS, exTomlS⟩ [.memory "d" exBelow] "f" (os "/c.toml") w false none (Or.inl ⟨by decide, rfl, rfl⟩)
    (fun a ha => by rw [exTop_new _ a ha]; simp) rfl hw⟩

/-- With the environment on top, no environment unsets the gateway. -/
example (w : World) (v' : Value) (h : (register exB1 exFormats [.memory "d" exBelow, .environment "e" "APP_"]).buildValue w false = .ok v') (k : Nat) :
    deAt exNoStructs k (.struct exTopTy) v' ≠ .ok (exTopD .none) := by
  intro hd
  exact exTop_unset (C142_only false exB1 exFormats [.memory "d" exBelow] w false exBelow v' rfl (exTop_proper _) (.environment "e" "APP_") trivial (by simp) (by simp)
    (fun a ha e he => by rw [exTop_new _ a ha]; simp only [RegCall.offer, Option.some.injEq] at he; subst he; simp) h
    exNoStructs exNoStructs_wf (fun _ => .struct (by simp [exNoStructs])) exTopTy exTopTy_wf exTopTy_plain k _ hd)

/-- A layer on top with another host: the proxy and the gateway stay set. -/
example (w : World) : ∃ v' d', (register exB1 exFormats ([.memory "d" exBelow] ++ [.memory "t" (.map [("host", .string "b"), ("net", .map [("port", .string "8080")])])])).buildValue w false = .ok v' ∧
    deAt exNoStructs 0 (.struct exTopTy) v' = .ok d' ∧
    KeepsSet (.struct [("host", .str "a"), ("proxy", .some (.str "p")), ("net", .struct [("port", .int .u16 ⟨80, by decide⟩), ("via", .some (.str "q"))])]) d' := by
  refine ⟨_, _, rfl, rfl, C142_keeps exB1 exFormats [.memory "d" exBelow] w false exBelow _ rfl (exTop_proper _)
    (.memory "t" (.map [("host", .string "b"), ("net", .map [("port", .string "8080")])])) _ rfl (fun a ha => by rw [exTop_new _ a ha]; simp)
    _ rfl (by simp [UniqueKeys, UniqueKeysMap, UniqueKeysEntry]) ?_ rfl exNoStructs exNoStructs_wf exTopTy exTopTy_wf 0 _ _ rfl rfl⟩
  refine noNone_map fun e he => ?_
  simp only [List.mem_cons, List.not_mem_nil, or_false] at he
  rcases he with rfl | rfl
  · exact noNone_leaf (by simp) fun s => by cases s <;> rfl
  · refine noNone_map fun e he => ?_
    rw [List.mem_singleton] at he; subst he
    exact noNone_leaf (by simp) fun s => by cases s <;> rfl

/-- A map of sections: the layer on top adds an entry and changes one; no entry is lost, and nothing in them. -/
def exMapTy : List (String × Ty) := [("hosts", .map .string (.struct [("port", .int .u16), ("via", .option .string)]))]

example (w : World) : ∃ v' d', (register exB1 exFormats ([.memory "d" (.map [("hosts", .map [("a", .map [("port", .string "80"), ("via", .string "q")])])])] ++
      [.memory "t" (.map [("hosts", .map [("b", .map [("port", .string "81")]), ("a", .map [("port", .string "82")])])])])).buildValue w false = .ok v' ∧
    deAt exNoStructs 0 (.struct exMapTy) v' = .ok d' ∧
    KeepsSet (.struct [("hosts", .map [(.str "a", .struct [("port", .int .u16 ⟨80, by decide⟩), ("via", .some (.str "q"))])])]) d' := by
  refine ⟨_, _, rfl, rfl, C142_keeps exB1 exFormats [.memory "d" (.map [("hosts", .map [("a", .map [("port", .string "80"), ("via", .string "q")])])])] w false _ _ rfl ?_
    (.memory "t" (.map [("hosts", .map [("b", .map [("port", .string "81")]), ("a", .map [("port", .string "82")])])])) _ rfl ?_
    _ rfl (by simp [UniqueKeys, UniqueKeysMap, UniqueKeysEntry]) ?_ rfl exNoStructs exNoStructs_wf exMapTy ?_ 0 _ _ rfl rfl⟩
  · intro e he w v hv
    simp only [offers, RegCall.offer, List.filterMap_cons, List.filterMap_nil, firsts, List.filter_nil, List.mem_singleton] at he
    subst he
    cases hv
    simp [UniqueKeys, UniqueKeysMap, UniqueKeysEntry]
  · intro a ha
    simp only [offers, RegCall.offer, List.filterMap_cons, List.filterMap_nil, List.mem_singleton] at ha
    subst ha
    simp
  · refine noNone_map fun e he => ?_
    rw [List.mem_singleton] at he; subst he
    refine noNone_map fun e he => ?_
    simp only [List.mem_cons, List.not_mem_nil, or_false] at he
    rcases he with rfl | rfl <;>
    · refine noNone_map fun e he => ?_
      rw [List.mem_singleton] at he; subst he
      exact noNone_leaf (by simp) fun s => by cases s <;> rfl
  · refine .struct (by decide) fun f hf => ?_
    rw [exMapTy, List.mem_singleton] at hf; subst hf
    refine .map (.struct (by decide) fun f hf => ?_)
    simp only [List.mem_cons, List.not_mem_nil, or_false] at hf
    rcases hf with rfl | rfl
    · exact .int _
    · exact .option .string

/-- Of two layers on top this does not hold, although neither has a `None`: the first puts a text in the place of the section (with which alone the settings could not be read), the second a new section. The
gateway is no longer set. -/
example (w : World) : ∃ v, (register exB1 exFormats [.memory "d" exBelow, .memory "t" (.map [("net", .string "off")]), .memory "u" (.map [("net", .map [("port", .string "1")])])]).buildValue w false = .ok v ∧
    deAt exNoStructs 0 (.struct exTopTy) v =
      .ok (.struct [("host", .str "a"), ("proxy", .some (.str "p")), ("net", .struct [("port", .int .u16 ⟨1, by decide⟩), ("via", .none)])]) :=
  ⟨_, rfl, rfl⟩

/-- A map of ports. -/
def exPortsTy : List (String × Ty) := [("ports", .map .string (.int .u16))]

/-- The layers below have two of them. -/
def exPortsBelow : Value := .map [("ports", .map [("a", .string "80"), ("b", .string "81")])]

theorem exPortsTy_wf : WellFormed (.struct exPortsTy) := by
  refine .struct (by decide) fun f hf => ?_
  rw [exPortsTy, List.mem_singleton] at hf; subst hf
  exact .map (.int _)

theorem exPortsTy_plain : PlainSections (.struct exPortsTy) := by
  refine .struct fun f hf => ?_
  rw [exPortsTy, List.mem_singleton] at hf; subst hf
  exact .map (.leaf (by simp) (by simp) (by simp) (by simp) (by simp))

theorem exPortsBelow_proper (fm : Formats) : ∀ e ∈ firsts (offers exB1 fm [.memory "d" exPortsBelow]), Proper e.2 := by
  intro e he w v hv
  simp only [offers, RegCall.offer, List.filterMap_cons, List.filterMap_nil, firsts, List.filter_nil, List.mem_singleton] at he
  subst he
  cases hv
  simp [exPortsBelow, UniqueKeys, UniqueKeysMap, UniqueKeysEntry]

theorem exPorts_new (fm : Formats) (a : String × Layer) (h : a ∈ offers exB1 fm [.memory "d" exPortsBelow]) : a.1 ≠ "t" := by
  have : a = ("d", .memory exPortsBelow) := by simpa [offers, RegCall.offer] using h
  subst this; simp

/-- A layer on top changes one port, leaves the other and adds a third, without a `None`. -/
example (fm : Formats) (w : World) : ∃ x, UniqueKeys x ∧ NoNone x ∧ ∃ v' k, (register exB1 fm [.memory "d" exPortsBelow, .memory "t" x]).buildValue w false = .ok v' ∧
    deAt exNoStructs k (.struct exPortsTy) v' =
      .ok (.struct [("ports", .map [(.str "a", .int .u16 ⟨80, by decide⟩), (.str "b", .int .u16 ⟨90, by decide⟩), (.str "c", .int .u16 ⟨5, by decide⟩)])]) := by
  obtain ⟨x, h1, h2, h3⟩ := (C142_top false exB1 fm [.memory "d" exPortsBelow] w false exPortsBelow rfl (exPortsBelow_proper fm) "t" (exPorts_new fm)
    exNoStructs exNoStructs_wf (fun _ => .struct (by simp [exNoStructs])) exPortsTy exPortsTy_wf exPortsTy_plain _).2 (by
      refine OnTop.struct (m := [("ports", .map [("a", .string "80"), ("b", .string "81")])])
        (ds := [("ports", .map [(.str "a", .int .u16 ⟨80, by decide⟩), (.str "b", .int .u16 ⟨90, by decide⟩), (.str "c", .int .u16 ⟨5, by decide⟩)])]) rfl fun i f d hf hd _ => ?_
      match i, hf, hd with
      | 0, rfl, rfl =>
        refine OnTop.map (es := [("a", .int .u16 ⟨80, by decide⟩), ("b", .int .u16 ⟨90, by decide⟩), ("c", .int .u16 ⟨5, by decide⟩)]) (by decide) ⟨["c"], rfl⟩ fun e he hs => ?_
        simp only [List.mem_cons, List.not_mem_nil, or_false] at he
        rcases he with rfl | rfl | rfl
        · exact absurd ⟨.string "80", 0, rfl, rfl⟩ hs
        · exact .said (.int _ (by simp [Upto64])) (fun h => nomatch h)
        · exact .said (.int _ (by simp [Upto64])) (fun h => nomatch h))
  exact ⟨x, h1, h2 rfl, h3⟩

/-- No layer on top takes one away, not with `None`s either. -/
example (fm : Formats) (w : World) (x v' : Value) (k : Nat) (hx : UniqueKeys x) (h : (register exB1 fm [.memory "d" exPortsBelow, .memory "t" x]).buildValue w false = .ok v') :
    deAt exNoStructs k (.struct exPortsTy) v' ≠ .ok (.struct [("ports", .map [(.str "a", .int .u16 ⟨80, by decide⟩)])]) := by
  intro hd
  have := (C142_top true exB1 fm [.memory "d" exPortsBelow] w false exPortsBelow rfl (exPortsBelow_proper fm) "t" (exPorts_new fm)
    exNoStructs exNoStructs_wf (fun _ => .struct (by simp [exNoStructs])) exPortsTy exPortsTy_wf exPortsTy_plain _).1 ⟨x, hx, (fun h => nomatch h), v', k, h, hd⟩
  cases this with
  | said _ h => exact h rfl _ rfl
  | struct _ h =>
    have := h 0 ("ports", _) ("ports", _) rfl rfl (by
      rintro (⟨z, k, hz, h⟩ | ⟨h, -⟩)
      · cases hz; cases h
      · cases h)
    generalize hg : Data.map [(.str "a", .int .u16 ⟨80, by decide⟩)] = d at this
    cases this with
    | said _ h => exact h rfl _ rfl
    | @map _ _ es h1 h2 h3 =>
      obtain ⟨new, h2⟩ := h2
      have := congrArg List.length h2
      injection hg with hg
      have := congrArg List.length hg
      simp at *
      omega

end Verif.Props
