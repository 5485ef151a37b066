import Verif.Lemmas.Deser
import Verif.Props.Convert
/-! Lemmas for the serde theorems: equality of data, texts of keys, typed round trips. -/
namespace Verif
open Spec Props

/-! ## The same data -/

theorem DSame.refl (a : Data) : DSame a a := fun _ => rfl
theorem DSame.symm {a b : Data} (h : DSame a b) : DSame b a := fun p => (h p).symm
theorem DSame.trans {a b c : Data} (h : DSame a b) (h' : DSame b c) : DSame a c := fun p => (h p).trans (h' p)

theorem dsame_some {a b : Data} (h : DSame a b) : DSame (.some a) (.some b) := by
  intro p
  cases p with
  | nil => rfl
  | cons s p => cases s <;> simp [dview, dchild, h p]

theorem dsame_newtype {a b : Data} (h : DSame a b) : DSame (.newtypeStruct a) (.newtypeStruct b) := by
  intro p
  cases p with
  | nil => rfl
  | cons s p => cases s <;> simp [dview, dchild, h p]

theorem list_dview {as bs : List Data} (h : List.Forall₂ DSame as bs) (i : Nat) (p : List DStep) :
    as[i]?.bind (fun x => dview x p) = bs[i]?.bind (fun x => dview x p) := by
  obtain ⟨h1, h2⟩ := forall2_index h
  cases ha : as[i]? with
  | none =>
    rw [List.getElem?_eq_none_iff] at ha
    rw [List.getElem?_eq_none (by omega)]
  | some a =>
    have hb : ∃ b, bs[i]? = some b := by
      obtain ⟨hi, _⟩ := List.getElem?_eq_some_iff.1 ha
      exact ⟨bs[i]'(by omega), List.getElem?_eq_getElem _⟩
    obtain ⟨b, hb⟩ := hb
    rw [hb]
    exact h2 i a b ha hb p

theorem dsame_seq {as bs : List Data} (h : List.Forall₂ DSame as bs) : DSame (.seq as) (.seq bs) := by
  intro p
  cases p with
  | nil => simp [dview, dhead, h.length_eq]
  | cons s p => cases s <;> simp only [dview, dchild, Option.bind_none]; exact list_dview h _ _

theorem dsame_tuple {as bs : List Data} (h : List.Forall₂ DSame as bs) : DSame (.tuple as) (.tuple bs) := by
  intro p
  cases p with
  | nil => simp [dview, dhead, h.length_eq]
  | cons s p => cases s <;> simp only [dview, dchild, Option.bind_none]; exact list_dview h _ _

theorem dsame_tupleStruct {as bs : List Data} (h : List.Forall₂ DSame as bs) :
    DSame (.tupleStruct as) (.tupleStruct bs) := by
  intro p
  cases p with
  | nil => simp [dview, dhead, h.length_eq]
  | cons s p => cases s <;> simp only [dview, dchild, Option.bind_none]; exact list_dview h _ _

theorem dsame_struct {as bs : List (String × Data)}
    (h : List.Forall₂ (fun a b => a.1 = b.1 ∧ DSame a.2 b.2) as bs) : DSame (.struct as) (.struct bs) := by
  intro p
  cases p with
  | nil =>
    simp only [dview, dhead, Option.some.injEq, DHead.struct.injEq]
    induction h with
    | nil => rfl
    | cons h1 _ ih => simp [h1.1, ih]
  | cons s p =>
    cases s <;> simp only [dview, dchild, Option.bind_none]
    rename_i name
    induction h with
    | nil => rfl
    | cons h1 _ ih =>
      rename_i a b l1 l2 _
      simp only [List.find?_cons, h1.1]
      split
      · exact h1.2 p
      · exact ih

theorem keyOf_toData (k : Key) : keyOf k.toData = some k := by cases k <;> rfl

theorem dchild_key (es : List (Key × Data)) (k : Key) :
    dchild (.map (es.map fun e => (e.1.toData, e.2))) (.key k) = keyGet es k := by
  simp only [dchild, keyGet, List.find?_map, Option.map_map]
  have : ((fun e : Data × Data => keyOf e.1 == some k) ∘ fun e : Key × Data => (e.1.toData, e.2)) =
      fun e => e.1 == k := by
    funext e
    simp [keyOf_toData]
  rw [this]
  rfl

theorem dsame_map {as bs : List (Key × Data)}
    (h : ∀ k, (keyGet as k = none ↔ keyGet bs k = none) ∧
      ∀ x y, keyGet as k = some x → keyGet bs k = some y → DSame x y) :
    DSame (.map (as.map fun e => (e.1.toData, e.2))) (.map (bs.map fun e => (e.1.toData, e.2))) := by
  intro p
  cases p with
  | nil => rfl
  | cons s p =>
    cases s with
    | key k =>
      rw [dview, dview, dchild_key, dchild_key]
      obtain ⟨h1, h2⟩ := h k
      cases ha : keyGet as k with
      | none => rw [h1.1 ha]
      | some a =>
        cases hb : keyGet bs k with
        | none => rw [h1.2 hb] at ha; cases ha
        | some b => exact h2 a b ha hb p
    | _ => rfl

theorem keyGet_mem {es : List (Key × Data)} {k : Key} {d : Data} (h : keyGet es k = some d) : (k, d) ∈ es := by
  simp only [keyGet, Option.map_eq_some_iff] at h
  obtain ⟨e, h1, rfl⟩ := h
  have := List.find?_some h1
  have h2 := List.mem_of_find?_eq_some h1
  simp only [beq_iff_eq] at this
  rw [← this]; exact h2

theorem keyGet_none {es : List (Key × Data)} {k : Key} : keyGet es k = none ↔ k ∉ es.map Prod.fst := by
  simp only [keyGet, Option.map_eq_none_iff, List.find?_eq_none, List.mem_map, beq_iff_eq]
  constructor
  · rintro h ⟨e, he, rfl⟩; exact h e he rfl
  · rintro h e he rfl; exact h ⟨e, he, rfl⟩

theorem keyGet_of_mem {es : List (Key × Data)} {k : Key} {d : Data} (hn : (es.map Prod.fst).Nodup)
    (h : (k, d) ∈ es) : keyGet es k = some d := by
  induction es with
  | nil => simp at h
  | cons e r ih =>
    simp only [List.map_cons, List.nodup_cons] at hn
    rcases List.mem_cons.1 h with rfl | h
    · simp [keyGet]
    · have : e.1 ≠ k := by
        rintro rfl
        exact hn.1 (List.mem_map.2 ⟨_, h, rfl⟩)
      have e1 := ih hn.2 h
      simp only [keyGet, List.find?_cons] at e1 ⊢
      rw [beq_eq_false_iff_ne.2 this]; exact e1

/-! ## The text of a key -/

theorem decNat_eq_toDigits (n : Nat) : decNat n = Nat.toDigits 10 n := by
  have dc : ∀ d, d < 10 → digitChar d = Nat.digitChar d := by
    intro d h; interval_cases d <;> decide
  have : ∀ f n, n < f → decAux f n = Nat.toDigits 10 n := by
    intro f
    induction f with
    | zero => intro n h; omega
    | succ f ih =>
      intro n h
      rw [decAux]
      split
      · rename_i h1; rw [Nat.toDigits_of_lt_base h1, dc _ h1]
      · rename_i h1
        rw [Nat.toDigits_of_base_le (by omega) (by omega), ih _ (by omega), dc _ (by omega)]
  exact this _ _ (by omega)

theorem decInt_eq_toString (n : Int) : String.ofList (decInt n) = toString n := by
  unfold decInt
  cases n with
  | ofNat m =>
    rw [if_neg (by simp)]
    simp only [Int.natAbs, decNat_eq_toDigits]
    show _ = m.repr
    rw [Nat.repr_eq_ofList_toDigits]
  | negSucc m =>
    rw [if_pos (by omega)]
    simp only [Int.natAbs, decNat_eq_toDigits]
    show _ = "-" ++ (m+1).repr
    rw [Nat.repr_eq_ofList_toDigits]
    apply String.toList_injective
    simp

theorem ofInt_text (t : IntTy) (n : IntOf t) : (Value.ofInt t n).tryInto .string = .ok (toString n.1) := by
  rw [← decInt_eq_toString]
  obtain ⟨src, h⟩ := integerOf_ofInt t n
  generalize Value.ofInt t n = v at h
  cases v <;> simp only [integerOf, Option.some.injEq, Prod.mk.injEq, reduceCtorEq] at h
  all_goals rw [← h.1]; rfl

theorem ser_keyText {kt : KeyTy} (hg : GoodKey kt) {k : Key} (hk : KeyHasType kt k) :
    ∃ kx, ser k.toData = .ok kx ∧ kx.tryInto .string = .ok (keyText k) := by
  cases kt with
  | bool => obtain ⟨b, rfl⟩ := hk; exact ⟨.boolean b, by rw [Key.toData, ser]; rfl, by cases b <;> rfl⟩
  | int t => obtain ⟨n, rfl⟩ := hk; exact ⟨_, ser_int hg n, ofInt_text t n⟩
  | char => obtain ⟨c, rfl⟩ := hk; exact ⟨_, by rw [Key.toData, ser], rfl⟩
  | string => obtain ⟨s, rfl⟩ := hk; exact ⟨_, by rw [Key.toData, ser], rfl⟩

theorem deInt_eq {t : IntTy} (h : Upto64 t) (v : Value) : deInt t v = Outcome.ofExcept (v.tryInto (.int t)) := by
  cases t <;> first | exact absurd rfl h.1 | exact absurd rfl h.2 | rfl

theorem deKey_keyText {kt : KeyTy} (hg : GoodKey kt) {k : Key} (hk : KeyHasType kt k) :
    deKey kt (keyText k) = .ok k := by
  cases kt with
  | bool =>
    obtain ⟨b, rfl⟩ := hk
    cases b <;> decide
  | int t =>
    obtain ⟨n, rfl⟩ := hk
    rw [deKey, deInt_eq hg]
    have h1 := inRange_self n
    have := (C25_string_to_int t (toString n.1) n.1).1 (by rw [← decInt_eq_toString]; exact decInt_spells t _ h1) h1
    obtain ⟨r, h2, h3⟩ := this
    have : r = n := Subtype.ext h3
    subst this
    show (Outcome.ofExcept ((Value.string (toString r.1)).tryIntoInt t) >>= _) = _
    rw [h2]; rfl
  | char => obtain ⟨c, rfl⟩ := hk; simp [deKey, keyText, Value.tryInto, Value.tryIntoChar]
  | string => obtain ⟨s, rfl⟩ := hk; rfl

theorem keyText_inj {kt : KeyTy} (hg : GoodKey kt) {k k' : Key} (hk : KeyHasType kt k) (hk' : KeyHasType kt k')
    (h : keyText k = keyText k') : k = k' := by
  have h1 := deKey_keyText hg hk
  rw [h, deKey_keyText hg hk'] at h1
  exact (Outcome.ok.inj h1).symm

/-- The layout of a serialized map. -/
theorem ser_keyMap {kt : KeyTy} (hg : GoodKey kt) {es : List (Key × Data)} (hk : ∀ e ∈ es, KeyHasType kt e.1)
    (hn : (es.map Prod.fst).Nodup) {v : Value} :
    ser (.map (es.map fun e => (e.1.toData, e.2))) = .ok v ↔
    ∃ kvs : Entries, List.Forall₂ (fun e kv => kv.1 = keyText e.1 ∧ ser e.2 = .ok kv.2) es kvs ∧
      (kvs.map Prod.fst).Nodup ∧ v = .map kvs := by
  have key : ∀ {es : List (Key × Data)} {kvs : Entries}, (∀ e ∈ es, KeyHasType kt e.1) →
      (List.Forall₂ (fun e kv => (∃ kx, ser e.1 = .ok kx ∧ kx.tryInto .string = .ok kv.1) ∧
      ser e.2 = .ok kv.2) (es.map fun e => (e.1.toData, e.2)) kvs ↔
      List.Forall₂ (fun e kv => kv.1 = keyText e.1 ∧ ser e.2 = .ok kv.2) es kvs) := by
    intro es
    induction es with
    | nil => intro kvs _; simp
    | cons e r ih =>
      intro kvs hk
      obtain ⟨kx, h1, h2⟩ := ser_keyText hg (hk e List.mem_cons_self)
      cases kvs with
      | nil => simp
      | cons kv kvs =>
        rw [List.map_cons, List.forall₂_cons, List.forall₂_cons, ih (fun e he => hk e (List.mem_cons_of_mem _ he))]
        simp only [h1, Outcome.ok.injEq, exists_eq_left', h2, Except.ok.injEq]
        tauto
  have nod : ∀ {es : List (Key × Data)} {kvs : Entries}, (∀ e ∈ es, KeyHasType kt e.1) → (es.map Prod.fst).Nodup →
      List.Forall₂ (fun e kv => kv.1 = keyText e.1 ∧ ser e.2 = .ok kv.2) es kvs → (kvs.map Prod.fst).Nodup := by
    intro es kvs hk hn h
    have e1 : kvs.map Prod.fst = (es.map Prod.fst).map keyText := by
      clear hk hn
      induction h with
      | nil => rfl
      | cons h1 _ ih => simp only [List.map_cons, h1.1, ih]
    rw [e1]
    refine List.Nodup.map_on ?_ hn
    intro a ha b hb hab
    obtain ⟨ea, ha', rfl⟩ := List.mem_map.1 ha
    obtain ⟨eb, hb', rfl⟩ := List.mem_map.1 hb
    exact keyText_inj hg (hk _ ha') (hk _ hb') hab
  rw [ser_map]
  constructor
  · rintro ⟨kvs, h, rfl⟩
    rw [key hk] at h
    have := nod hk hn h
    refine ⟨kvs, h, this, ?_⟩
    rw [insAll_fresh kvs [] (by simpa using this)]; rfl
  · rintro ⟨kvs, h, h2, rfl⟩
    exact ⟨kvs, (key hk).2 h, by rw [insAll_fresh kvs [] (by simpa using h2)]; rfl⟩

end Verif
