import Verif.Spec.Maps
import Verif.Spec.TypedLayers
import Verif.Props.TypedLayers
/-!
# C116: reading a map with typed keys
-/
namespace Verif.Props
open Verif Verif.Spec

theorem inRange_of (t : IntTy) (n : IntOf t) : InRange t n.1 := inRange_self n

/-- What a key is read as. -/
theorem deKey_denotes (kt : KeyTy) (s : String) (k : Key) : deKey kt s = .ok k ↔ Denotes kt s k := by
  cases kt with
  | bool =>
    simp only [deKey, bind_eq_ok, ofExcept_ok, Outcome.ok.injEq, Denotes]
    obtain ⟨e1, e2, e3⟩ := C29_string_to_bool s
    constructor
    · rintro ⟨x, h, rfl⟩
      by_cases h1 : EqIgnoreAsciiCase s "true"
      · rw [e1 h1] at h; cases h; exact Or.inl ⟨rfl, h1⟩
      · by_cases h2 : EqIgnoreAsciiCase s "false"
        · rw [e2 h2] at h; cases h; exact Or.inr ⟨rfl, h2⟩
        · rw [e3 h1 h2] at h; cases h
    · rintro (⟨rfl, h⟩ | ⟨rfl, h⟩)
      · exact ⟨true, e1 h, rfl⟩
      · exact ⟨false, e2 h, rfl⟩
  | int t =>
    simp only [deKey, bind_eq_ok, Outcome.ok.injEq, Denotes]
    constructor
    · rintro ⟨x, h1, rfl⟩
      have hu : Upto64 t := by constructor <;> rintro rfl <;> cases h1
      rw [deInt_eq hu, ofExcept_ok] at h1
      exact ⟨hu, x, rfl, ((C25_string_to_int t s x.1).2.1 x h1).1⟩
    · rintro ⟨hu, n, rfl, h⟩
      obtain ⟨r, h1, h2⟩ := (C25_string_to_int t s n.1).1 h (inRange_self n)
      have : r = n := Subtype.ext h2
      subst this
      exact ⟨r, by rw [deInt_eq hu, ofExcept_ok]; exact h1, rfl⟩
  | char =>
    simp only [deKey, bind_eq_ok, ofExcept_ok, Outcome.ok.injEq, Denotes, Value.tryInto, Value.tryIntoChar]
    cases hl : s.toList with
    | nil =>
      simp only [List.head?_nil, reduceCtorEq, and_false, exists_false, iff_false, not_exists, not_and]
      intro x h; cases h
    | cons c r =>
      simp only [List.head?_cons, Option.some.injEq]
      constructor
      · rintro ⟨x, h, rfl⟩; cases h; exact ⟨c, rfl, rfl⟩
      · rintro ⟨x, rfl, rfl⟩; exact ⟨c, rfl, rfl⟩
  | string =>
    constructor
    · intro h; have h1 : Outcome.ok (Key.str s) = Outcome.ok k := h; cases h1; rfl
    · intro h; cases h; rfl

theorem de_map_ok {refs : Nat → Decoder} {kt : KeyTy} {t : Ty} {v : Value} {d : Data} :
    de refs (.map kt t) v = .ok d ↔ ∃ m es, v = .map m ∧ deMapLoop kt (fun x => de refs t x) [] m = .ok es ∧
      d = .map (es.map fun e => (e.1.toData, e.2)) := by
  cases v with
  | map m =>
    simp only [de]
    constructor
    · intro h
      obtain ⟨es, h1, h2⟩ := bind_eq_ok.1 h
      cases h2; exact ⟨m, es, rfl, h1, rfl⟩
    · rintro ⟨_, es, e, h1, rfl⟩
      cases e
      exact bind_eq_ok.2 ⟨es, h1, rfl⟩
  | _ => simp [de]

/-- **C116.** A map type is read exactly from a map all of whose keys denote keys of the key type and all of whose values can be read. -/
theorem C116_reads (structs : Nat → List (String × Ty)) (k : Nat) (kt : KeyTy) (t : Ty) (v : Value) :
    (∃ d, deAt structs k (.map kt t) v = .ok d) ↔
      ∃ m, v = .map m ∧ ∀ e ∈ m, (∃ key, Denotes kt e.1 key) ∧ ∃ x, deAt structs k t e.2 = .ok x := by
  unfold deAt
  simp only [de_map_ok, deMapLoop_ok]
  constructor
  · rintro ⟨d, m, es, rfl, ⟨kds, h, -⟩, -⟩
    refine ⟨m, rfl, fun e he => ?_⟩
    obtain ⟨i, hi, rfl⟩ := List.mem_iff_getElem.1 he
    obtain ⟨h1, h2⟩ := (List.forall₂_iff_get.1 h).2 i hi (by rw [← h.length_eq]; exact hi)
    simp only [List.get_eq_getElem] at h1 h2
    exact ⟨⟨_, (deKey_denotes _ _ _).1 h1⟩, _, h2⟩
  · rintro ⟨m, rfl, h⟩
    obtain ⟨kds, hk⟩ : ∃ kds : List (Key × Data), List.Forall₂ (fun e kd => deKey kt e.1 = .ok kd.1 ∧ de (refsAt structs k) t e.2 = .ok kd.2) m kds := by
      induction m with
      | nil => exact ⟨[], .nil⟩
      | cons e m ih =>
        obtain ⟨kds, hk⟩ := ih fun x hx => h x (by simp [hx])
        obtain ⟨⟨key, h1⟩, x, h2⟩ := h e (by simp)
        exact ⟨(key, x) :: kds, .cons ⟨(deKey_denotes _ _ _).2 h1, h2⟩ hk⟩
    exact ⟨_, m, _, rfl, ⟨kds, hk, rfl⟩, rfl⟩

theorem keyInsert_keys (es : List (Key × Data)) (k : Key) (d : Data) (h : (es.map Prod.fst).Nodup) :
    ((keyInsert es k d).map Prod.fst).Nodup ∧ ∀ j, j ∈ (keyInsert es k d).map Prod.fst ↔ j = k ∨ j ∈ es.map Prod.fst := by
  induction es with
  | nil => simp [keyInsert]
  | cons e r ih =>
    obtain ⟨k', d'⟩ := e
    rw [List.map_cons, List.nodup_cons] at h
    obtain ⟨i1, i2⟩ := ih h.2
    rw [keyInsert]
    by_cases hk : k' = k
    · subst hk
      rw [if_pos rfl]
      simp only [List.map_cons, List.nodup_cons, List.mem_cons]
      exact ⟨h, fun j => by tauto⟩
    · rw [if_neg hk]
      simp only [List.map_cons, List.nodup_cons, List.mem_cons, i2]
      refine ⟨⟨?_, i1⟩, fun j => by tauto⟩
      rintro (e | e)
      · exact hk e
      · exact h.1 e

/-- What the loop over the entries gives, whatever it starts from. -/
theorem mapLoop_get {kt : KeyTy} {dec : Decoder} (m : Entries) : ∀ (acc es : List (Key × Data)), (acc.map Prod.fst).Nodup →
    deMapLoop kt dec acc m = .ok es → (es.map Prod.fst).Nodup ∧
      (∀ j ∈ es.map Prod.fst, j ∈ acc.map Prod.fst ∨ ∃ e ∈ m, Denotes kt e.1 j) ∧ ∀ key x, keyGet es key = some x ↔
      (∃ before s y after, m = before ++ (s, y) :: after ∧ Denotes kt s key ∧ dec y = .ok x ∧ ∀ e ∈ after, ¬ Denotes kt e.1 key) ∨
      ((∀ e ∈ m, ¬ Denotes kt e.1 key) ∧ keyGet acc key = some x) := by
  induction m with
  | nil =>
    intro acc es hn h
    rw [deMapLoop] at h; cases h
    refine ⟨hn, fun j hj => Or.inl hj, fun key x => ⟨fun h => Or.inr ⟨by simp, h⟩, ?_⟩⟩
    rintro (⟨before, s, y, after, h, -⟩ | ⟨-, h⟩)
    · simp at h
    · exact h
  | cons e r ih =>
    intro acc es hn h
    obtain ⟨s0, y0⟩ := e
    rw [deMapLoop] at h
    simp only [bind_eq_ok] at h
    obtain ⟨key0, h1, d0, h2, h3⟩ := h
    have hk := keyInsert_keys acc key0 d0 hn
    obtain ⟨i1, i2, i3⟩ := ih _ es hk.1 h3
    have hden := (deKey_denotes _ _ _).1 h1
    refine ⟨i1, fun j hj => ?_, fun key x => ?_⟩
    · rcases i2 j hj with h | ⟨e, he, h⟩
      · rcases (hk.2 j).1 h with rfl | h
        · exact Or.inr ⟨_, List.mem_cons_self, hden⟩
        · exact Or.inl h
      · exact Or.inr ⟨e, by simp [he], h⟩
    · rw [i3 key x, keyGet_insert]
      have huniq : Denotes kt s0 key ↔ key0 = key := by
        constructor
        · intro h; rw [← deKey_denotes, h1] at h; cases h; rfl
        · rintro rfl; exact hden
      constructor
      · rintro (⟨before, s, y, after, rfl, h⟩ | ⟨hno, h⟩)
        · exact Or.inl ⟨(s0, y0) :: before, s, y, after, rfl, h⟩
        · by_cases hk0 : key0 = key
          · rw [if_pos hk0] at h; cases h
            exact Or.inl ⟨[], s0, y0, r, rfl, huniq.2 hk0, h2, hno⟩
          · rw [if_neg hk0] at h
            refine Or.inr ⟨fun e he => ?_, h⟩
            rcases List.mem_cons.1 he with rfl | he
            · exact fun hh => hk0 (huniq.1 hh)
            · exact hno e he
      · rintro (⟨before, s, y, after, h, h4, h5, h6⟩ | ⟨hno, h⟩)
        · cases before with
          | nil =>
            simp only [List.nil_append, List.cons.injEq, Prod.mk.injEq] at h
            obtain ⟨⟨rfl, rfl⟩, rfl⟩ := h
            rw [h2] at h5; cases h5
            exact Or.inr ⟨h6, by rw [if_pos (huniq.1 h4)]⟩
          | cons b before =>
            simp only [List.cons_append, List.cons.injEq] at h
            exact Or.inl ⟨before, s, y, after, h.2, h4, h5, h6⟩
        · refine Or.inr ⟨fun e he => hno e (by simp [he]), ?_⟩
          rw [if_neg fun hh => hno _ List.mem_cons_self (huniq.2 hh)]; exact h

theorem denotes_hasType {kt : KeyTy} {s : String} {k : Key} (h : Denotes kt s k) : KeyHasType kt k := by
  cases kt with
  | bool => rcases h with ⟨h, -⟩ | ⟨h, -⟩ <;> exact ⟨_, h⟩
  | int t => obtain ⟨-, n, h, -⟩ := h; exact ⟨n, h⟩
  | char => obtain ⟨c, h, -⟩ := h; exact ⟨c, h⟩
  | string => exact ⟨s, h⟩

/-- **C116.** What is read: a map that has every key once, and under each key what the last entry (in the order of iteration) holds whose text denotes
that key. -/
theorem C116_content (structs : Nat → List (String × Ty)) (k : Nat) (kt : KeyTy) (t : Ty) (m : Entries) (d : Data)
    (h : deAt structs k (.map kt t) (.map m) = .ok d) :
    (∃ es : List (Key × Data), d = .map (es.map fun e => (e.1.toData, e.2)) ∧ (es.map Prod.fst).Nodup ∧ ∀ e ∈ es, KeyHasType kt e.1) ∧
    ∀ key x, dchild d (.key key) = some x ↔
      ∃ before s y after, m = before ++ (s, y) :: after ∧ Denotes kt s key ∧ deAt structs k t y = .ok x ∧ ∀ e ∈ after, ¬ Denotes kt e.1 key := by
  unfold deAt at h
  obtain ⟨m', es, e, h1, rfl⟩ := de_map_ok.1 h
  cases e
  obtain ⟨i1, i2, i3⟩ := mapLoop_get m [] es (by simp) h1
  refine ⟨⟨es, rfl, i1, fun e he => ?_⟩, fun key x => ?_⟩
  · rcases i2 e.1 (List.mem_map.2 ⟨e, he, rfl⟩) with h | ⟨e', -, h⟩
    · simp at h
    · exact denotes_hasType h
  · rw [dchild_key, i3 key x]
    constructor
    · rintro (h | ⟨-, h⟩)
      · exact h
      · cases h
    · exact Or.inl

/-- **C116.** So in a map in which no two texts denote one key nothing is lost: under a key is what its entry holds. -/
theorem C116_entry (structs : Nat → List (String × Ty)) (k : Nat) (kt : KeyTy) (t : Ty) (v : Value) (hu : UniqueKeys v) (d : Data)
    (h : deAt structs k (.map kt t) v = .ok d)
    (hc : ∀ a b, SameKey kt a b → child v (.key a) ≠ none → child v (.key b) ≠ none → a = b) (key : Key) (x : Data) :
    dchild d (.key key) = some x ↔ ∃ s y, child v (.key s) = some y ∧ Denotes kt s key ∧ deAt structs k t y = .ok x := by
  obtain ⟨m, rfl⟩ : ∃ m, v = .map m := by
    obtain ⟨m, es, e, -⟩ := de_map_ok.1 h; exact ⟨m, e⟩
  have hnd := (uniqueKeys_map.1 hu).1
  rw [(C116_content structs k kt t m d h).2 key x]
  constructor
  · rintro ⟨before, s, y, after, rfl, h1, h2, -⟩
    exact ⟨s, y, by rw [child_key_map]; exact hmGet_of_mem hnd (by simp), h1, h2⟩
  · rintro ⟨s, y, h0, h1, h2⟩
    rw [child_key_map] at h0
    obtain ⟨before, after, e⟩ := List.append_of_mem (hmGet_mem h0)
    refine ⟨before, s, y, after, e, h1, h2, fun e' he hd => ?_⟩
    have hmem : e' ∈ m := by rw [e]; simp [he]
    have hg : hmGet m e'.1 = some e'.2 := hmGet_of_mem hnd hmem
    have hs : SameKey kt s e'.1 := deKey_sameKey ((deKey_denotes _ _ _).2 h1) ((deKey_denotes _ _ _).2 hd)
    have := hc s e'.1 hs (by rw [child_key_map, h0]; simp) (by rw [child_key_map, hg]; simp)
    rw [e, List.map_append, List.map_cons, List.nodup_append] at hnd
    exact (List.nodup_cons.1 hnd.2.1).1 (by rw [this]; exact List.mem_map.2 ⟨e', he, rfl⟩)

/-! ## Concrete cases -/

/-- Two texts for one number: the last one counts. -/
example : deAt (fun _ => []) 1 (.map (.int .u8) .string) (.map [("1", .string "a"), ("2", .string "b"), ("+01", .string "c")]) =
    .ok (.map [(.int .u8 ⟨1, by decide⟩, .str "c"), (.int .u8 ⟨2, by decide⟩, .str "b")]) := by rfl

example : Denotes (.int .u8) "+01" (.int .u8 ⟨1, by decide⟩) := (deKey_denotes _ _ _).1 rfl
example : Denotes .bool "TRUE" (.bool true) := (deKey_denotes _ _ _).1 rfl
example : Denotes .char "xyz" (.char 'x') := (deKey_denotes _ _ _).1 rfl

/-- A text that denotes no key, or a value that cannot be read, spoils the whole map. -/
example : ¬ ∃ d, deAt (fun _ => []) 1 (.map (.int .u8) .string) (.map [("1", .string "a"), ("x", .string "b")]) = .ok d := by
  rintro ⟨d, h⟩; cases h

end Verif.Props
