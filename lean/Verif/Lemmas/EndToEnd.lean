import Verif.Props.Macro
import Verif.Props.Doc
import Verif.Props.Config
/-! # Lemmas for the end-to-end properties -/
namespace Verif.Props
open Spec

/-! ## Serialized data has no clashing keys -/

theorem digits_head {ds : List Char} {m : Nat} (h : DigitsSpell ds m) (c : Char) (r : List Char) (e : ds = c :: r) : '0' ≤ c ∧ c ≤ '9' :=
  h.2.1 c (by rw [e]; simp)

theorem spells_unique {t : IntTy} {s : String} {n m : Int} (hn : Spells t s n) (hm : Spells t s m) : n = m := by
  obtain ⟨ds, a, hd, h⟩ := hn
  obtain ⟨es, b, he, h'⟩ := hm
  have same : ds = es → a = b := by rintro rfl; rw [hd.2.2, he.2.2]
  have no : ∀ (c : Char) (r l : List Char) (x : Nat), DigitsSpell l x → l = c :: r → c = '+' ∨ c = '-' → False := by
    intro c r l x hl e hc
    have := digits_head hl c r e
    rcases hc with rfl | rfl <;> exact absurd this (by decide)
  rcases h with ⟨h1, h2⟩ | ⟨h1, h2⟩ | ⟨hs, h1, h2⟩ <;> rcases h' with ⟨k1, k2⟩ | ⟨k1, k2⟩ | ⟨ks, k1, k2⟩ <;> rw [h1] at k1
  · rw [h2, k2, same k1]
  · exact (no _ _ _ _ hd k1 (by simp)).elim
  · exact (no _ _ _ _ hd k1 (by simp)).elim
  · exact (no _ _ _ _ he k1.symm (by simp)).elim
  · rw [h2, k2, same (List.cons.inj k1).2]
  · exact absurd (List.cons.inj k1).1 (by decide)
  · exact (no _ _ _ _ he k1.symm (by simp)).elim
  · exact absurd (List.cons.inj k1).1 (by decide)
  · rw [h2, k2, same (List.cons.inj k1).2]

theorem sameKey_keyText {kt : KeyTy} (hg : GoodKey kt) {k k' : Key} (hk : KeyHasType kt k) (hk' : KeyHasType kt k')
    (h : SameKey kt (keyText k) (keyText k')) : k = k' := by
  cases kt with
  | bool =>
    obtain ⟨a, rfl⟩ := hk
    obtain ⟨b, rfl⟩ := hk'
    cases a <;> cases b <;> try rfl
    · rcases h with ⟨h, -⟩ | ⟨-, h⟩ <;> exact absurd h.1 (by decide)
    · rcases h with ⟨-, h⟩ | ⟨h, -⟩ <;> exact absurd h.1 (by decide)
  | int t =>
    have sp : ∀ {k : Key}, KeyHasType (.int t) k → ∃ x : IntOf t, k = .int t x ∧ Spells t (keyText k) x.1 := by
      intro k hk
      have h1 := deKey_keyText hg hk
      obtain ⟨n, rfl⟩ := hk
      simp only [deKey, bind_eq_ok, Outcome.ok.injEq] at h1
      obtain ⟨x, h1, h2⟩ := h1
      rw [deInt_eq hg, ofExcept_ok] at h1
      cases h2
      exact ⟨n, rfl, ((C25_string_to_int t _ n.1).2.1 n h1).1⟩
    obtain ⟨x, rfl, hx⟩ := sp hk
    obtain ⟨y, rfl, hy⟩ := sp hk'
    obtain ⟨n, h1, h2⟩ := h
    rw [Subtype.ext ((spells_unique hx h1).trans (spells_unique hy h2).symm)]
  | char =>
    obtain ⟨a, rfl⟩ := hk
    obtain ⟨b, rfl⟩ := hk'
    obtain ⟨c, h1, h2⟩ := h
    simp [keyText] at h1 h2
    rw [h1, h2]
  | string => exact keyText_inj hg hk hk' h

theorem clash_none {structs : Nat → List (String × Ty)} {T : Ty} {v : Value} (h : KeyClash structs T v) : v ≠ .none := by
  induction h with
  | here _ _ h _ => rintro rfl; exact h rfl
  | entry h _ _ => rintro rfl; cases h
  | option _ ih => exact ih
  | newtype _ ih => exact ih
  | seq h _ _ => rintro rfl; cases h
  | tuple _ h _ _ => rintro rfl; cases h
  | tupleStruct _ h _ _ => rintro rfl; cases h
  | struct _ h _ _ => rintro rfl; cases h
  | ref _ ih => exact ih

theorem noClash_ser {structs : Nat → List (String × Ty)} (hs : ∀ n, Survives (.struct (structs n))) {T : Ty} {d : Data}
    (ht : HasType structs T d) : Survives T → ∀ v, ser d = .ok v → ¬ KeyClash structs T v := by
  induction ht with
  | none t =>
    intro _ v hv h
    rw [ser] at hv
    exact clash_none h (Outcome.ok.inj hv).symm
  | some _ ih =>
    intro hT v hv h
    rw [ser] at hv
    cases hT with | option hT _ => cases h with | option h => exact ih hT v hv h
  | newtype _ ih =>
    intro hT v hv h
    rw [ser] at hv
    cases hT with | newtype hT => cases h with | newtype h => exact ih hT v hv h
  | seq _ ih =>
    intro hT v hv h
    obtain ⟨vs, h1, rfl⟩ := ser_seq.1 hv
    cases hT with
    | seq hT =>
      cases h with
      | @seq _ _ i x hx h =>
        have hx : vs[i]? = some x := hx
        obtain ⟨l, h2⟩ := forall2_index h1
        obtain ⟨d, hd⟩ := get_of_lt (show i < _ by rw [l]; exact lt_of_get hx)
        exact ih d (List.mem_of_getElem? hd) hT x (h2 i d x hd hx) h
  | tuple hl _ ih =>
    intro hT v hv h
    obtain ⟨vs, h1, rfl⟩ := ser_tuple.1 hv
    cases hT with
    | tuple hT =>
      cases h with
      | @tuple _ _ i t x ht hx h =>
        have hx : vs[i]? = some x := hx
        obtain ⟨l, h2⟩ := forall2_index h1
        obtain ⟨d, hd⟩ := get_of_lt (show i < _ by rw [l]; exact lt_of_get hx)
        exact ih i t d ht hd (hT t (List.mem_of_getElem? ht)) x (h2 i d x hd hx) h
  | tupleStruct hl _ ih =>
    intro hT v hv h
    obtain ⟨vs, h1, rfl⟩ := ser_tupleStruct.1 hv
    cases hT with
    | tupleStruct hT =>
      cases h with
      | @tupleStruct _ _ i t x ht hx h =>
        have hx : vs[i]? = some x := hx
        obtain ⟨l, h2⟩ := forall2_index h1
        obtain ⟨d, hd⟩ := get_of_lt (show i < _ by rw [l]; exact lt_of_get hx)
        exact ih i t d ht hd (hT t (List.mem_of_getElem? ht)) x (h2 i d x hd hx) h
  | @map kt t es hk hn _ ih =>
    intro hT v hv h
    cases hT with
    | map hg hT =>
      obtain ⟨-, -, c3, c4⟩ := C42_map_keys kt hg es hk hn v hv
      cases h with
      | here hne hsame ha hb =>
        obtain ⟨e, he, rfl⟩ := c4 _ ha
        obtain ⟨e', he', rfl⟩ := c4 _ hb
        exact hne (by rw [sameKey_keyText hg (hk e he) (hk e' he') hsame])
      | entry hx h =>
        obtain ⟨e, he, rfl⟩ := c4 _ (by rw [hx]; simp)
        obtain ⟨x', h1, h2, -⟩ := c3 e he
        rw [hx] at h2; cases h2
        exact ih e he hT _ h1 h
  | @struct fs ds hl _ ih =>
    intro hT v hv h
    cases hT with
    | struct hn hT =>
      obtain ⟨kvs, h1, rfl⟩ := ser_struct.1 hv
      have hnd : (ds.map Prod.fst).Nodup := by rw [hl]; exact hn
      obtain ⟨-, -, c3, c4⟩ := serializedFields_of hnd h1
      cases h with
      | @struct _ _ name t x hmem hx h =>
        obtain ⟨i, hi⟩ := List.mem_iff_getElem?.1 hmem
        have l0 : ds.length = fs.length := by simpa using congrArg List.length hl
        obtain ⟨nd, hd⟩ := get_of_lt (show i < ds.length by rw [l0]; exact lt_of_get hi)
        have hname : nd.1 = name := by
          have := congrArg (fun l : List String => l[i]?) hl
          simpa [hi, hd] using this
        obtain ⟨x', h2, h3⟩ := c3 nd (List.mem_of_getElem? hd)
        rw [hname, hx] at h3; cases h3
        exact ih i (name, t) nd hi hd (hT _ hmem) _ h2 h
  | ref _ ih =>
    intro hT v hv h
    cases h with | ref h => exact ih (hs _) v hv h
  | _ => intro _ v _ h; cases h

theorem wellFormed_of_survives {T : Ty} (h : Survives T) : WellFormed T := by
  induction h with
  | bool => exact .bool
  | int _ => exact .int _
  | f32 => exact .f32
  | f64 => exact .f64
  | char => exact .char
  | string => exact .string
  | unit => exact .unit
  | unitStruct => exact .unitStruct
  | value => exact .value
  | option _ _ ih => exact .option ih
  | newtype _ ih => exact .newtype ih
  | seq _ ih => exact .seq ih
  | tuple _ ih => exact .tuple ih
  | tupleStruct _ ih => exact .tupleStruct ih
  | map _ _ ih => exact .map ih
  | struct hn _ ih => exact .struct hn ih
  | ref n => exact .ref n

end Verif.Props
