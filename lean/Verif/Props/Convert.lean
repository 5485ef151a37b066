import Verif.Lemmas.FloatText
import Verif.Lemmas.Merge2
import Verif.Props.Value
/-! # Properties of conversions (C23–C34, and C22 for `From`) -/
namespace Verif.Props
open Spec

/-! ## C23 -/

/-- **C23.** An integer value converts to an integer type exactly, with the same mathematical number, iff the
number is in the type's range; otherwise the dedicated error naming both types. -/
theorem C23_int_to_int (t : IntTy) (v : Value) (n : Int) (src : String) (hv : integerOf v = some (n, src)) :
    (InRange t n → ∃ r, v.tryIntoInt t = .ok r ∧ r.1 = n) ∧
    (¬ InRange t n →
      v.tryIntoInt t = .error (.conversionError src t.name "Number value is out of target bounds")) := by
  have wrapOk : ∀ {s t : IntTy} (m : IntOf s), (∀ k, InRange s k → InRange t k) →
      ∃ r : IntOf t, (Except.ok (t.wrap m.1) : Except ModelError (IntOf t)) = .ok r ∧ r.1 = m.1 :=
    fun m h => ⟨_, rfl, wrap_of_inRange (h _ (inRange_self m))⟩
  have sub1 : ∀ k, InRange .i64 k → InRange .i128 k := by
    intro k; rw [inRange_iff, inRange_iff]; simp only [IntTy.lo, IntTy.hi]; omega
  have sub2 : ∀ k, InRange .u64 k → InRange .i128 k := by
    intro k; rw [inRange_iff, inRange_iff]; simp only [IntTy.lo, IntTy.hi]; omega
  have sub3 : ∀ k, InRange .u64 k → InRange .u128 k := by
    intro k; rw [inRange_iff, inRange_iff]; simp only [IntTy.lo, IntTy.hi]; omega
  cases v <;> simp only [integerOf, Option.some.injEq, Prod.mk.injEq, reduceCtorEq] at hv
  all_goals
    obtain ⟨rfl, rfl⟩ := hv
    rename_i m
    refine ⟨fun h => ?_, fun h => ?_⟩
    · cases t <;> first
        | exact toNumber_ok h
        | exact ⟨m, rfl, rfl⟩
        | exact wrapOk m sub1
        | exact wrapOk m sub2
        | exact wrapOk m sub3
    · cases t <;> first
        | exact toNumber_err h
        | exact absurd (inRange_self m) h
        | exact absurd (sub1 _ (inRange_self m)) h
        | exact absurd (sub2 _ (inRange_self m)) h
        | exact absurd (sub3 _ (inRange_self m)) h

/-- A number too large for `u8`, one that fits. -/
example : integerOf (.integer ⟨300, by decide⟩) = some (300, "i64") ∧ ¬ InRange .u8 300 ∧ InRange .i16 300 := by
  simp [integerOf, InRange, isSigned, width]

/-- **C23.** Booleans convert to 0 and 1 of every integer type. -/
theorem C23_bool_to_int (t : IntTy) (b : Bool) :
    ∃ r, (Value.boolean b).tryIntoInt t = .ok r ∧ r.1 = if b then 1 else 0 := by
  refine ⟨boolToInt t b, ?_, ?_⟩
  · cases t <;> rfl
  · cases b <;> rfl

/-! ## C24 -/

theorem widen_val {s t : IntTy} (h) (n : IntOf s) : (widen t h n).1 = n.1 := rfl

theorem integerOf_integer (n : IntOf .i64) : integerOf (Value.integer n) = some (n.1, "i64") := rfl

theorem integerOf_uInteger (n : IntOf .u64) : integerOf (Value.uInteger n) = some (n.1, "u64") := rfl

theorem integerOf_i8 (n : IntOf .i8) : integerOf (Value.ofInt .i8 n) = some (n.1, "i64") := by
  rw [Value.ofInt, integerOf_integer, widen_val]

theorem integerOf_i16 (n : IntOf .i16) : integerOf (Value.ofInt .i16 n) = some (n.1, "i64") := by
  rw [Value.ofInt, integerOf_integer, widen_val]

theorem integerOf_i32 (n : IntOf .i32) : integerOf (Value.ofInt .i32 n) = some (n.1, "i64") := by
  rw [Value.ofInt, integerOf_integer, widen_val]

theorem integerOf_u8 (n : IntOf .u8) : integerOf (Value.ofInt .u8 n) = some (n.1, "u64") := by
  rw [Value.ofInt, integerOf_uInteger, widen_val]

theorem integerOf_u16 (n : IntOf .u16) : integerOf (Value.ofInt .u16 n) = some (n.1, "u64") := by
  rw [Value.ofInt, integerOf_uInteger, widen_val]

theorem integerOf_u32 (n : IntOf .u32) : integerOf (Value.ofInt .u32 n) = some (n.1, "u64") := by
  rw [Value.ofInt, integerOf_uInteger, widen_val]

theorem integerOf_stored (t : IntTy) (n : IntOf t) : integerOf (Value.ofInt t n) = some (n.1, storedAs t) := by
  cases t
  · exact integerOf_i8 n
  · exact integerOf_i16 n
  · exact integerOf_i32 n
  · rw [Value.ofInt, integerOf]; rfl
  · rw [Value.ofInt, integerOf]; rfl
  · exact integerOf_u8 n
  · exact integerOf_u16 n
  · exact integerOf_u32 n
  · rw [Value.ofInt, integerOf]; rfl
  · rw [Value.ofInt, integerOf]; rfl

theorem integerOf_ofInt (t : IntTy) (n : IntOf t) : ∃ src, integerOf (Value.ofInt t n) = some (n.1, src) := ⟨_, integerOf_stored t n⟩

/-- **C24.** `Value::from(x).try_into()` returns `x`, for every integer type, and the same number for every
other integer type that can hold it (in particular every wider one). -/
theorem C24_int_roundtrip (t : IntTy) (x : IntOf t) :
    (Value.ofInt t x).tryIntoInt t = .ok x ∧
    ∀ t', InRange t' x.1 → ∃ r, (Value.ofInt t x).tryIntoInt t' = .ok r ∧ r.1 = x.1 := by
  obtain ⟨src, h⟩ := integerOf_ofInt t x
  refine ⟨?_, fun t' ht => (C23_int_to_int t' _ _ src h).1 ht⟩
  obtain ⟨r, h1, h2⟩ := (C23_int_to_int t _ _ src h).1 (inRange_self x)
  rw [h1, Except.ok.injEq]; exact Subtype.ext h2

/-- **C24.** What the value is: an integer of the kind that goes with the type, with that number; so numbers of two types give the same value exactly if the
kind and the number are the same. An `f32` is stored as the float with exactly its value and sign (NaN and infinities as themselves). -/
theorem C24_stored :
    (∀ t (x : IntOf t), integerOf (Value.ofInt t x) = some (x.1, storedAs t)) ∧
    (∀ t t' (x : IntOf t) (y : IntOf t'), Value.ofInt t x = Value.ofInt t' y ↔ storedAs t = storedAs t' ∧ x.1 = y.1) ∧
    (∀ y : F32, ∃ z : F64, Value.ofF32 y = .float z ∧ (∀ s m e, y.1 = .fin s m e → ratOf z.1 = ratOf y.1 ∧ ∃ m' e', z.1 = .fin s m' e') ∧
      (∀ s, y.1 = .inf s → z.1 = .inf s) ∧ (y.1 = .nan → z.1 = .nan)) := by
  refine ⟨integerOf_stored, fun t t' x y => ⟨fun h => ?_, fun h => ?_⟩, fun y => ⟨F64.ofF32 y, rfl, fun s m e hy => ?_, fun s hy => ?_, fun hy => ?_⟩⟩
  · have h1 := integerOf_stored t x
    rw [h, integerOf_stored t' y, Option.some.injEq, Prod.mk.injEq] at h1
    exact ⟨h1.2.symm, h1.1.symm⟩
  · have inj : ∀ v w : Value, integerOf v ≠ none → integerOf v = integerOf w → v = w := by
      intro v w hn hvw
      cases v <;> cases w <;> simp_all [integerOf, Subtype.ext_iff]
    refine inj _ _ (by rw [integerOf_stored]; simp) ?_
    rw [integerOf_stored, integerOf_stored, h.1, h.2]
  · obtain ⟨y, hc⟩ := y
    replace hy : y = .fin s m e := hy
    subst hy
    obtain ⟨m', e', h1, h2⟩ := convert_f32 hc
    have hz : (F64.ofF32 ⟨.fin s m e, hc⟩).1 = .fin s m' e' := h1
    rw [hz]
    refine ⟨?_, m', e', rfl⟩
    simp only [ratOf]
    rw [mul_assoc, h2, ← mul_assoc]
  · show fmt64.convert y.1 = _
    rw [hy]; rfl
  · show fmt64.convert y.1 = _
    rw [hy]; rfl

/-- The same number as `u8` and `u64` is the same value; as `i8` it is another. -/
example : Value.ofInt .u8 ⟨7, by decide⟩ = Value.ofInt .u64 ⟨7, by decide⟩ ∧ Value.ofInt .u8 ⟨7, by decide⟩ ≠ Value.ofInt .i8 ⟨7, by decide⟩ :=
  ⟨(C24_stored.2.1 .u8 .u64 _ _).2 ⟨rfl, rfl⟩, fun h => absurd ((C24_stored.2.1 .u8 .i8 _ _).1 h).1 (by decide)⟩

/-- 200 given as a `u8` is read back as a `u8`, and as an `i128`. -/
example : (Value.ofInt .u8 ⟨200, by decide⟩).tryIntoInt .u8 = .ok ⟨200, by decide⟩ ∧
    ∃ r, (Value.ofInt .u8 ⟨200, by decide⟩).tryIntoInt .i128 = .ok r ∧ r.1 = 200 :=
  ⟨(C24_int_roundtrip .u8 ⟨200, by decide⟩).1,
   (C24_int_roundtrip .u8 ⟨200, by decide⟩).2 .i128 (by simp [InRange, isSigned, width])⟩

/-- **C24.** `bool`, `f64` and `String` round-trip; `f32` keeps its exact numerical value (and comes back by a
narrowing cast); `Option` round-trips through its payload and `None` is `Value::None`. -/
theorem C24_scalar_roundtrip (b : Bool) (x : F64) (y : F32) (s : String) :
    (Value.ofBool b).tryInto .bool = .ok b ∧ (Value.ofF64 x).tryInto .f64 = .ok x ∧
    (Value.ofString s).tryInto .string = .ok s ∧
    (∃ z : F64, (Value.ofF32 y).tryInto .f64 = .ok z ∧ F32.ofF64 z = y) ∧
    (∀ (α : Type) (f : α → Value) (a : α), Value.ofOption f (some a) = f a ∧ Value.ofOption f none = .none) := by
  exact ⟨rfl, rfl, rfl, ⟨_, rfl, f32_roundtrip y⟩, fun α f a => ⟨rfl, rfl⟩⟩

/-- **C24.** `From<Vec<T>>` keeps length and order, `From<HashMap<String, T>>` keeps every entry. -/
theorem C24_containers {α : Type} (f : α → Value) (xs : List α) (m : List (String × α))
    (hm : (m.map Prod.fst).Nodup) :
    (Value.ofVec f xs = .array (xs.map f)) ∧
    (∀ k, child (Value.ofHashMap f m) (.key k) = (hmGet m k).map f) ∧ (Value.ofHashMap f m).len = m.length := by
  have key : ∀ (l : List (String × Value)) (acc : Entries), (l.map Prod.fst).Nodup →
      (∀ e ∈ l, e.1 ∉ acc.map Prod.fst) → l.foldl (fun m e => hmInsert m e.1 e.2) acc = acc ++ l := by
    intro l
    induction l with
    | nil => intro acc _ _; simp
    | cons e l ih =>
      intro acc hn hd
      rw [List.foldl_cons]
      have hi : ∀ (acc : Entries), e.1 ∉ acc.map Prod.fst → hmInsert acc e.1 e.2 = acc ++ [e] := by
        intro acc
        induction acc with
        | nil => intro _; rfl
        | cons a acc ih' =>
          intro h
          simp only [List.map_cons, List.mem_cons, not_or] at h
          obtain ⟨ka, va⟩ := a
          rw [hmInsert, if_neg (fun h' => h.1 h'.symm), ih' h.2]; rfl
      rw [hi acc (hd e List.mem_cons_self), ih]
      · simp
      · simp only [List.map_cons, List.nodup_cons] at hn; exact hn.2
      · intro e' he'
        simp only [List.map_append, List.map_cons, List.map_nil, List.mem_append, List.mem_singleton, not_or]
        refine ⟨hd e' (List.mem_cons_of_mem _ he'), ?_⟩
        simp only [List.map_cons, List.nodup_cons] at hn
        intro h; exact hn.1 (h ▸ List.mem_map_of_mem he')
  have hmap : Value.ofHashMap f m = .map (m.map fun e => (e.1, f e.2)) := by
    unfold Value.ofHashMap hmOfList
    rw [key _ [] (by simpa [Function.comp_def] using hm) (by simp)]; simp
  refine ⟨rfl, fun k => ?_, by rw [hmap]; simp [Value.len]⟩
  rw [hmap, child_key_map]
  clear hmap key hm
  induction m with
  | nil => rfl
  | cons e m ih =>
    obtain ⟨k', a⟩ := e
    simp only [List.map_cons, hmGet]
    split <;> simp_all

example : child (Value.ofHashMap Value.ofBool [("a", true), ("b", false)]) (.key "b") = some (.boolean false) ∧
    (Value.ofHashMap Value.ofBool [("a", true), ("b", false)]).len = 2 :=
  ⟨(C24_containers Value.ofBool [] [("a", true), ("b", false)] (by decide)).2.1 "b",
   (C24_containers Value.ofBool [] [("a", true), ("b", false)] (by decide)).2.2⟩

/-- **C22** for `From`: converted containers have no duplicate keys. -/
theorem C22_from {α : Type} (f : α → Value) (hf : ∀ a, UniqueKeys (f a)) (xs : List α) (m : List (String × α)) :
    UniqueKeys (Value.ofVec f xs) ∧ UniqueKeys (Value.ofHashMap f m) := by
  constructor
  · rw [Value.ofVec, uniqueKeys_array]
    intro v hv
    obtain ⟨a, -, rfl⟩ := List.mem_map.1 hv
    exact hf a
  · have : ∀ (l : List (String × Value)) (acc : Entries), UniqueKeys (.map acc) → (∀ e ∈ l, UniqueKeys e.2) →
        UniqueKeys (.map (l.foldl (fun m e => hmInsert m e.1 e.2) acc)) := by
      intro l
      induction l with
      | nil => intro acc h _; exact h
      | cons e l ih =>
        intro acc h hl
        exact ih _ (uniqueKeys_insert h (hl e List.mem_cons_self)) (fun e' h' => hl e' (List.mem_cons_of_mem _ h'))
    refine this _ [] (by simp [UniqueKeys, UniqueKeysMap]) ?_
    intro e he
    obtain ⟨a, -, rfl⟩ := List.mem_map.1 he
    exact hf a.2

/-- A nested conversion: a list of maps in which a key is given twice. -/
example : UniqueKeys (Value.ofVec (Value.ofHashMap Value.ofString) [[("a", "x"), ("b", "y"), ("a", "z")], []]) :=
  (C22_from (Value.ofHashMap Value.ofString) (fun m => (C22_from Value.ofString (fun _ => trivial) [] m).2) _ []).1

/-! ## C25 -/

/-- **C25.** A string converts to an integer type exactly when it spells a number in range; everything else is
the parse error. -/
theorem C25_string_to_int (t : IntTy) (s : String) (n : Int) :
    (Spells t s n → InRange t n → ∃ r, (Value.string s).tryIntoInt t = .ok r ∧ r.1 = n) ∧
    (∀ r, (Value.string s).tryIntoInt t = .ok r → Spells t s r.1 ∧ InRange t r.1) ∧
    ((∀ m, Spells t s m → ¬ InRange t m) →
      (Value.string s).tryIntoInt t = .error (.conversionError "String" t.name "can't parse string")) := by
  have e : (Value.string s).tryIntoInt t = parseArm t s := by cases t <;> rfl
  rw [e]
  unfold parseArm
  refine ⟨fun h hr => ?_, fun r h => ?_, fun h => ?_⟩
  · rw [inRange_iff] at hr
    have := (parseInt_iff t s ⟨n, hr⟩).2 h
    rw [this]; exact ⟨_, rfl, rfl⟩
  · cases hp : parseInt t s with
    | none => rw [hp] at h; cases h
    | some r' =>
      rw [hp] at h; cases h
      exact ⟨(parseInt_iff t s r).1 hp, inRange_self r⟩
  · cases hp : parseInt t s with
    | none => rfl
    | some r => exact absurd (inRange_self r) (h _ ((parseInt_iff t s r).1 hp))

/-- `+7` is read, `-7` is not an unsigned number, `256` is one that does not fit. -/
example : (∃ r, (Value.string "+7").tryIntoInt .u8 = .ok r ∧ r.1 = 7) ∧ Spells .u8 "+7" 7 ∧
    (Value.string "-7").tryIntoInt .u8 = .error (.conversionError "String" "u8" "can't parse string") ∧
    (Value.string "256").tryIntoInt .u8 = .error (.conversionError "String" "u8" "can't parse string") := by
  have h7 : Spells .u8 "+7" 7 := ⟨['7'], 7, ⟨by simp, by decide, by decide⟩, Or.inr (Or.inl ⟨rfl, rfl⟩)⟩
  exact ⟨(C25_string_to_int .u8 "+7" 7).1 h7 (by simp [InRange, isSigned, width]), h7, by decide, by decide⟩

/-- **C25.** Empty text, a lone sign, blanks, underscores, `-0` for an unsigned type: all errors; `+7`, `-0`
(signed), leading zeros: accepted. -/
theorem C25_examples :
    (∀ t, parseInt t "" = none ∧ parseInt t "+" = none ∧ parseInt t "-" = none ∧ parseInt t " 1" = none ∧
      parseInt t "1_000" = none ∧ parseInt t "1.0" = none) ∧ parseInt .u8 "-0" = none ∧
    (parseInt .i8 "-0").map (·.1) = some 0 ∧ (parseInt .u8 "+007").map (·.1) = some 7 ∧
    (parseInt .i8 "-128").map (·.1) = some (-128) ∧ parseInt .i8 "128" = none := by
  refine ⟨fun t => ?_, by decide, by decide, by decide, by decide, by decide⟩
  cases t <;> decide

example : Spells .i8 "-128" (-128) := ⟨['1', '2', '8'], 128, ⟨by simp, by decide, by decide⟩, Or.inr (Or.inr ⟨rfl, rfl, rfl⟩)⟩

/-! ## C26 -/

/-- **C26.** The text of an integer value converts back to the number, in every integer type that can hold it. -/
theorem C26_int_text_roundtrip (t : IntTy) (v : Value) (n : Int) (src : String) (hv : integerOf v = some (n, src))
    (ht : InRange t n) :
    ∃ s, v.tryInto .string = .ok s ∧ ∃ r, (Value.string s).tryIntoInt t = .ok r ∧ r.1 = n := by
  have hs : v.tryInto .string = .ok (String.ofList (decInt n)) := by
    cases v <;> simp only [integerOf, Option.some.injEq, Prod.mk.injEq, reduceCtorEq] at hv
    all_goals obtain ⟨rfl, rfl⟩ := hv; rfl
  exact ⟨_, hs, (C25_string_to_int t _ n).1 (decInt_spells t n ht) ht⟩

example : ∃ s, (Value.integer ⟨-40, by decide⟩).tryInto .string = .ok s ∧
    ∃ r, (Value.string s).tryIntoInt .i8 = .ok r ∧ r.1 = -40 :=
  C26_int_text_roundtrip .i8 (.integer ⟨-40, by decide⟩) (-40) "i64" rfl (by simp [InRange, isSigned, width])

/-- **C26.** Distinct numbers have distinct texts, across all integer variants. -/
theorem C26_text_injective (v w : Value) (n m : Int) (src src' : String) (hv : integerOf v = some (n, src))
    (hw : integerOf w = some (m, src')) (h : v.tryInto .string = w.tryInto .string) : n = m := by
  have hs : ∀ {v : Value} {n : Int} {src : String}, integerOf v = some (n, src) →
      v.tryInto .string = .ok (String.ofList (decInt n)) ∧ (InRange .i128 n ∨ InRange .u128 n) := by
    intro v n src hv
    cases v <;> simp only [integerOf, Option.some.injEq, Prod.mk.injEq, reduceCtorEq] at hv
    all_goals
      obtain ⟨rfl, rfl⟩ := hv
      rename_i k
      refine ⟨rfl, ?_⟩
      have := k.2
      rw [inRange_iff, inRange_iff]
      simp only [IntTy.lo, IntTy.hi] at this ⊢
      omega
  obtain ⟨h1, -⟩ := hs hv
  obtain ⟨h2, -⟩ := hs hw
  rw [h1, h2, Except.ok.injEq] at h
  have h := String.ofList_injective h
  -- compare signs and digits
  have hd : decNat n.natAbs = decNat m.natAbs ∧ (n < 0 ↔ m < 0) := by
    have nodig : ∀ k : Nat, ∀ r, decNat k ≠ '-' :: r := by
      intro k r h
      exact minus_not_digit (decNat_digits k '-' (h ▸ List.mem_cons_self))
    unfold decInt at h
    split at h <;> split at h
    · rename_i a b; exact ⟨by simpa using h, by simp [a, b]⟩
    · exact absurd h.symm (nodig _ _)
    · exact absurd h (nodig _ _)
    · rename_i a b; exact ⟨h, by simp [a, b]⟩
  have := congrArg digitsVal hd.1
  rw [decNat_val, decNat_val] at this
  omega

/-- The same number held in two widths reads the same; two numbers do not. -/
example : (Value.integer ⟨12, by decide⟩).tryInto .string = (Value.uInteger ⟨12, by decide⟩).tryInto .string ∧
    (Value.integer ⟨12, by decide⟩).tryInto .string ≠ (Value.uInteger ⟨13, by decide⟩).tryInto .string :=
  ⟨by decide, fun h => absurd (C26_text_injective _ _ 12 13 "i64" "u64" rfl rfl h) (by decide)⟩

/-! ## C27 -/

/-- The types that report an out-of-range float. -/
def small : IntTy → Bool
  | .i8 | .i16 | .i32 | .u8 | .u16 | .u32 => true
  | _ => false

theorem castTo_fin (t : IntTy) (x : F64) (q : ℚ) (hq : ratOf x.1 = some q) :
    (InRange t (trunc q) → (x.1.castTo t).1 = trunc q) ∧ (trunc q < t.lo → (x.1.castTo t).1 = t.lo) ∧
    (t.hi < trunc q → (x.1.castTo t).1 = t.hi) := by
  cases hx : x.1 with
  | nan => rw [hx] at hq; cases hq
  | inf s => rw [hx] at hq; cases hq
  | fin s m e =>
    rw [hx] at hq
    have := truncFin_spec s m e q hq
    have cl : ∀ n : Int, (t.lo ≤ n ∧ n ≤ t.hi → (t.clamp n).1 = n) ∧ (n < t.lo → (t.clamp n).1 = t.lo) ∧
        (t.hi < n → (t.clamp n).1 = t.hi) := by
      intro n
      have hlh : t.lo ≤ t.hi := by cases t <;> decide
      refine ⟨fun h => ?_, fun h => ?_, fun h => ?_⟩
      · unfold IntTy.clamp; rw [dif_pos h]
      · unfold IntTy.clamp; rw [dif_neg (by omega), if_pos h]
      · unfold IntTy.clamp; rw [dif_neg (by omega), if_neg (by omega)]
    simp only [FpRaw.castTo, this]
    rw [inRange_iff]
    exact cl _

/-- **C27.** A finite float converts to its truncation whenever that fits (for `u128`: fits below `2^127`);
out of range the 8/16/32-bit types report an error, `i64`, `i128`, `u64` saturate. -/
theorem C27_float_to_int (t : IntTy) (x : F64) (q : ℚ) (hq : ratOf x.1 = some q) :
    (t ≠ .u128 → InRange t (trunc q) → ∃ r, (Value.float x).tryIntoInt t = .ok r ∧ r.1 = trunc q) ∧
    (small t = true → ¬ InRange t (trunc q) → (Value.float x).tryIntoInt t =
      .error (.conversionError "f64" t.name "Number value is out of target bounds")) ∧
    (small t = false → t ≠ .u128 → trunc q < t.lo → ∃ r, (Value.float x).tryIntoInt t = .ok r ∧ r.1 = t.lo) ∧
    (small t = false → t ≠ .u128 → t.hi < trunc q → ∃ r, (Value.float x).tryIntoInt t = .ok r ∧ r.1 = t.hi) := by
  have c := castTo_fin t x q hq
  have c128 := castTo_fin .i128 x q hq
  have smallOk : small t = true → InRange t (trunc q) → (x.1.castTo .i128).1 = trunc q := by
    intro hs h
    apply c128.1
    rw [inRange_iff] at h ⊢
    cases t <;> simp only [small, Bool.false_eq_true] at hs <;> simp only [IntTy.lo, IntTy.hi] at h ⊢ <;> omega
  have smallBad : small t = true → ¬ InRange t (trunc q) → ¬ InRange t (x.1.castTo .i128).1 := by
    intro hs h
    rcases lt_or_ge (trunc q) (IntTy.i128.lo) with h1 | h1
    · rw [c128.2.1 h1]; rw [inRange_iff]
      cases t <;> simp only [small, Bool.false_eq_true] at hs <;> simp only [IntTy.lo, IntTy.hi] <;> omega
    · rcases lt_or_ge (IntTy.i128.hi) (trunc q) with h2 | h2
      · rw [c128.2.2 h2]; rw [inRange_iff]
        cases t <;> simp only [small, Bool.false_eq_true] at hs <;> simp only [IntTy.lo, IntTy.hi] <;> omega
      · rw [c128.1 ((inRange_iff _ _).2 ⟨h1, h2⟩)]; exact h
  refine ⟨fun hne h => ?_, fun hs h => ?_, fun hs hne h => ?_, fun hs hne h => ?_⟩
  · cases t <;> first
      | exact absurd rfl hne
      | exact ⟨_, rfl, c.1 h⟩
      | (have e := smallOk rfl h
         rw [← e]
         exact toNumber_ok (e ▸ h))
  · cases t <;> simp only [small, Bool.false_eq_true] at hs <;> exact toNumber_err (smallBad rfl h)
  · cases t <;> first
      | exact absurd rfl hne
      | exact ⟨_, rfl, c.2.1 h⟩
      | cases hs
  · cases t <;> first
      | exact absurd rfl hne
      | exact ⟨_, rfl, c.2.2 h⟩
      | cases hs

/-- `-640.0` fits an `i16`, is out of bounds for an `i8` and is cut to the least `u64`. -/
example : ∃ x : F64, (∃ r, (Value.float x).tryIntoInt .i16 = .ok r ∧ r.1 = -640) ∧
    (Value.float x).tryIntoInt .i8 = .error (.conversionError "f64" "i8" "Number value is out of target bounds") ∧
    (∃ r, (Value.float x).tryIntoInt .u64 = .ok r ∧ r.1 = 0) := by
  have hq : ratOf (FpRaw.fin true (5 * 2 ^ 50) (-43)) = some (-640) := by norm_num [ratOf]
  have ht : trunc (-640) = -640 := by norm_num [trunc]
  refine ⟨⟨.fin true (5 * 2 ^ 50) (-43), by decide⟩, ?_, ?_, ?_⟩
  · have h := (C27_float_to_int .i16 ⟨.fin true (5 * 2 ^ 50) (-43), by decide⟩ _ hq).1 (by decide)
    rw [ht] at h; exact h (by simp [InRange, isSigned, width])
  · have h := (C27_float_to_int .i8 ⟨.fin true (5 * 2 ^ 50) (-43), by decide⟩ _ hq).2.1 rfl
    rw [ht] at h; exact h (by simp [InRange, isSigned, width])
  · have h := (C27_float_to_int .u64 ⟨.fin true (5 * 2 ^ 50) (-43), by decide⟩ _ hq).2.2.1 rfl (by decide)
    rw [ht] at h; exact h (by decide)

/-- **C27**, `u128`: exact below `2^127`, `i128::MAX` above, an error at `-1` and below. -/
theorem C27_float_to_u128 (x : F64) (q : ℚ) (hq : ratOf x.1 = some q) :
    (0 ≤ trunc q → trunc q < 2 ^ 127 → ∃ r, (Value.float x).tryIntoInt .u128 = .ok r ∧ r.1 = trunc q) ∧
    (2 ^ 127 ≤ trunc q → ∃ r, (Value.float x).tryIntoInt .u128 = .ok r ∧ r.1 = 2 ^ 127 - 1) ∧
    (trunc q ≤ -1 → (Value.float x).tryIntoInt .u128 =
      .error (.conversionError "f64" "u128" "Number value is out of target bounds")) := by
  have c := castTo_fin .i128 x q hq
  refine ⟨fun h1 h2 => ?_, fun h => ?_, fun h => ?_⟩
  · have e := c.1 ((inRange_iff _ _).2 (by simp only [IntTy.lo, IntTy.hi]; omega))
    rw [← e]
    exact toNumber_ok ((inRange_iff _ _).2 (by rw [e]; simp only [IntTy.lo, IntTy.hi]; omega))
  · have e := c.2.2 (by simp only [IntTy.hi]; omega)
    have e' : (2:Int) ^ 127 - 1 = (x.1.castTo .i128).1 := by rw [e]; norm_num [IntTy.hi]
    rw [e']
    exact toNumber_ok ((inRange_iff _ _).2 (by rw [e]; decide))
  · refine toNumber_err (fun hr => ?_)
    rw [inRange_iff] at hr
    rcases lt_or_ge (trunc q) (IntTy.i128.lo) with h1 | h1
    · rw [c.2.1 h1] at hr; revert hr; decide
    · rw [c.1 ((inRange_iff _ _).2 ⟨h1, by simp only [IntTy.hi]; omega⟩)] at hr
      simp only [IntTy.lo, IntTy.hi] at hr; omega

/-- 2¹²⁷ as a float becomes 2¹²⁷ − 1. -/
example : ∃ x : F64, ratOf x.1 = some (2 ^ 127) ∧ ∃ r, (Value.float x).tryIntoInt .u128 = .ok r ∧ r.1 = 2 ^ 127 - 1 := by
  have hq : ratOf (FpRaw.fin false (2 ^ 52) 75) = some (2 ^ 127) := by norm_num [ratOf]
  refine ⟨⟨.fin false (2 ^ 52) 75, by decide⟩, hq, ?_⟩
  have ht : trunc (2 ^ 127) = 2 ^ 127 := by norm_num [trunc]
  have h := (C27_float_to_u128 ⟨.fin false (2 ^ 52) 75, by decide⟩ _ hq).2.1
  rw [ht] at h; exact h le_rfl

/-- **C27.** NaN becomes 0 for every integer type; the infinities behave like out-of-range numbers. -/
theorem C27_nan_inf (t : IntTy) (x : F64) :
    (x.1 = .nan → ∃ r, (Value.float x).tryIntoInt t = .ok r ∧ r.1 = 0) ∧
    (∀ s, x.1 = .inf s → small t = true → (Value.float x).tryIntoInt t =
      .error (.conversionError "f64" t.name "Number value is out of target bounds")) ∧
    (x.1 = .inf false → t = .i64 ∨ t = .i128 ∨ t = .u64 → ∃ r, (Value.float x).tryIntoInt t = .ok r ∧ r.1 = t.hi) ∧
    (x.1 = .inf true → t = .i64 ∨ t = .i128 ∨ t = .u64 → ∃ r, (Value.float x).tryIntoInt t = .ok r ∧ r.1 = t.lo) ∧
    (x.1 = .inf false → ∃ r, (Value.float x).tryIntoInt .u128 = .ok r ∧ r.1 = 2 ^ 127 - 1) ∧
    (x.1 = .inf true → (Value.float x).tryIntoInt .u128 = .error (.conversionError "f64" "u128" "Number value is out of target bounds")) := by
  refine ⟨fun h => ?_, fun s h hs => ?_, fun h ht => ?_, fun h ht => ?_, fun h => ?_, fun h => ?_⟩
  · cases t <;> simp only [Value.tryIntoInt, Value.tryIntoI8, Value.tryIntoI16, Value.tryIntoI32, Value.tryIntoI64,
      Value.tryIntoI128, Value.tryIntoU8, Value.tryIntoU16, Value.tryIntoU32, Value.tryIntoU64, Value.tryIntoU128,
      h] <;> exact ⟨_, rfl, rfl⟩
  · cases t <;> simp only [small, Bool.false_eq_true] at hs <;>
      (refine toNumber_err ?_; rw [h, inRange_iff]; cases s <;> decide)
  · rcases ht with rfl | rfl | rfl <;> exact ⟨_, rfl, by rw [h]; rfl⟩
  · rcases ht with rfl | rfl | rfl <;> exact ⟨_, rfl, by rw [h]; rfl⟩
  · have e : (x.1.castTo .i128).1 = 2 ^ 127 - 1 := by rw [h]; rfl
    rw [← e]
    exact toNumber_ok ((inRange_iff _ _).2 (by rw [e]; decide))
  · refine toNumber_err ?_
    rw [h, inRange_iff]; decide

/-- A float that is out of range of `u8` and in range of `i16`: `-2.5 · 2^8 = -640`. -/
example : ∃ x : F64, ratOf x.1 = some (-640) ∧ trunc (-640) = -640 := by
  refine ⟨⟨.fin true (5 * 2 ^ 50) (-43), by decide⟩, ?_, ?_⟩
  · norm_num [ratOf]
  · norm_num [trunc]

/-! ## C28 -/

/-- **C28.** An integer converts to a correctly rounded float, never NaN or infinite; exactly if its magnitude
is at most `2^53`. -/
theorem C28_int_to_float (v : Value) (n : Int) (src : String) (hv : integerOf v = some (n, src)) :
    ∃ x, v.tryInto .f64 = .ok x ∧ CorrectlyRounded fmt64 n x.1 ∧
      (n.natAbs ≤ 2 ^ 53 → ratOf x.1 = some (n : ℚ)) := by
  have hs : v.tryInto .f64 = .ok (F64.ofInt n) ∧ n.natAbs < 2 ^ 128 := by
    cases v <;> simp only [integerOf, Option.some.injEq, Prod.mk.injEq, reduceCtorEq] at hv
    all_goals
      obtain ⟨rfl, rfl⟩ := hv
      rename_i k
      refine ⟨rfl, ?_⟩
      have := k.2
      simp only [IntTy.lo, IntTy.hi] at this
      omega
  exact ⟨_, hs.1, ofInt_correct n hs.2⟩

/-- A number beyond 2⁵³ that no float is: the answer is the correctly rounded one. -/
example : ∃ x, (Value.integer ⟨2 ^ 53 + 1, by decide⟩).tryInto .f64 = .ok x ∧
    CorrectlyRounded fmt64 (2 ^ 53 + 1 : Int) x.1 := by
  obtain ⟨x, h1, h2, -⟩ := C28_int_to_float (.integer ⟨2 ^ 53 + 1, by decide⟩) (2 ^ 53 + 1) "i64" rfl
  exact ⟨x, h1, h2⟩

/-- **C28.** And such integers convert back to the same integer. -/
theorem C28_back (v : Value) (n : Int) (src : String) (hv : integerOf v = some (n, src)) (hn : n.natAbs ≤ 2 ^ 53)
    (t : IntTy) (ht : InRange t n) :
    ∃ x, v.tryInto .f64 = .ok x ∧ ∃ r, (Value.float x).tryIntoInt t = .ok r ∧ r.1 = n := by
  obtain ⟨x, h1, -, h2⟩ := C28_int_to_float v n src hv
  have hq := h2 hn
  have htr : trunc (n : ℚ) = n := by unfold trunc; split <;> simp
  refine ⟨x, h1, ?_⟩
  by_cases hu : t = .u128
  · subst hu
    have := (C27_float_to_u128 x _ hq).1
    rw [htr] at this
    refine this ?_ ?_
    · simp [InRange, isSigned] at ht; exact ht.1
    · have : (2:Int) ^ 53 < 2 ^ 127 := by norm_num
      have : (n.natAbs : Int) ≤ 2 ^ 53 := by exact_mod_cast hn
      omega
  · have := (C27_float_to_int t x _ hq).1 hu
    rw [htr] at this
    exact this ht

example : ∃ x, (Value.uLongInteger ⟨2 ^ 53, by decide⟩).tryInto .f64 = .ok x ∧
    ∃ r, (Value.float x).tryIntoInt .i64 = .ok r ∧ r.1 = 2 ^ 53 :=
  C28_back (.uLongInteger ⟨2 ^ 53, by decide⟩) (2 ^ 53) "u128" rfl (by decide) .i64 (by norm_num [InRange, isSigned, width])

/-- **C28.** Booleans convert to exactly 1.0 and 0.0 (a positive zero). -/
theorem C28_bool_to_float (b : Bool) :
    ∃ x, (Value.boolean b).tryInto .f64 = .ok x ∧ ratOf x.1 = some (if b then 1 else 0) ∧ ∃ m e, x.1 = .fin false m e := by
  cases b with
  | true =>
    obtain ⟨x, h1, -, h3⟩ := C28_int_to_float (.integer ⟨1, by decide⟩) 1 "i64" rfl
    refine ⟨x, h1, by simpa using h3 (by decide), 2 ^ 52, -52, ?_⟩
    cases h1; decide
  | false =>
    obtain ⟨x, h1, -, h3⟩ := C28_int_to_float (.integer ⟨0, by decide⟩) 0 "i64" rfl
    refine ⟨x, h1, by simpa using h3 (by decide), 0, -1074, ?_⟩
    cases h1; decide

/-- Beyond `2^53` the conversion can lose precision. -/
theorem C28_lossy : (F64.ofInt (2 ^ 53 + 1)).1 = (F64.ofInt (2 ^ 53)).1 := by decide

/-! ## C29 -/

/-- **C29.** Numbers convert to `true` iff non-zero; NaN is `true`, both zeros are `false`. -/
theorem C29_number_to_bool :
    (∀ v n src, integerOf v = some (n, src) → v.tryInto .bool = .ok (decide (n ≠ 0))) ∧
    (∀ b : Bool, (Value.boolean b).tryInto .bool = .ok b) ∧
    (∀ (x : F64) q, ratOf x.1 = some q → (Value.float x).tryInto .bool = .ok (decide (q ≠ 0))) ∧
    (∀ x : F64, ratOf x.1 = none → (Value.float x).tryInto .bool = .ok true) := by
  refine ⟨fun v n src hv => ?_, fun b => rfl, fun x q hq => ?_, fun x hx => ?_⟩
  · cases v <;> simp only [integerOf, Option.some.injEq, Prod.mk.injEq, reduceCtorEq] at hv
    all_goals
      obtain ⟨rfl, rfl⟩ := hv
      rename_i k
      have : (k.1 != 0) = decide (k.1 ≠ 0) := by
        by_cases h : k.1 = 0 <;> simp [h]
      simp only [Value.tryInto, Value.tryIntoBool, this]
  · simp only [Value.tryInto, Value.tryIntoBool]
    cases h : x.1 with
    | nan => rw [h] at hq; cases hq
    | inf s => rw [h] at hq; cases hq
    | fin s m e =>
      rw [h] at hq
      simp only [FpRaw.neZero]
      have : q = 0 ↔ m = 0 := by
        have := ratOf_zero_iff (s := s) (m := m) (e := e)
        rw [hq, Option.some.injEq] at this
        exact this
      by_cases hm : m = 0 <;> simp [hm, this]
  · simp only [Value.tryInto, Value.tryIntoBool]
    cases h : x.1 with
    | nan => rfl
    | inf s => rfl
    | fin s m e => rw [h] at hx; cases hx

example : (Value.longInteger ⟨-5, by decide⟩).tryInto .bool = .ok true ∧
    (Value.float ⟨.fin true 0 (-1074), by decide⟩).tryInto .bool = .ok false ∧
    (Value.float ⟨.nan, trivial⟩).tryInto .bool = .ok true :=
  ⟨C29_number_to_bool.1 _ (-5) "i128" rfl,
   by simpa using C29_number_to_bool.2.2.1 ⟨.fin true 0 (-1074), by decide⟩ 0 (by simp [ratOf]),
   C29_number_to_bool.2.2.2 ⟨.nan, trivial⟩ rfl⟩

/-- **C29.** A string converts to `true`/`false` iff it is that word ignoring ASCII case; everything else is an
error. -/
theorem C29_string_to_bool (s : String) :
    (EqIgnoreAsciiCase s "true" → (Value.string s).tryInto .bool = .ok true) ∧
    (EqIgnoreAsciiCase s "false" → (Value.string s).tryInto .bool = .ok false) ∧
    (¬ EqIgnoreAsciiCase s "true" → ¬ EqIgnoreAsciiCase s "false" → (Value.string s).tryInto .bool =
      .error (.conversionError "String" "bool" "can't parse string as boolean")) := by
  have ht : toLowercase s = "true" ↔ EqIgnoreAsciiCase s "true" := lowercase_iff s "true" (by decide)
  have hf : toLowercase s = "false" ↔ EqIgnoreAsciiCase s "false" := lowercase_iff s "false" (by decide)
  simp only [Value.tryInto, Value.tryIntoBool]
  refine ⟨fun h => ?_, fun h => ?_, fun h1 h2 => ?_⟩
  · rw [if_pos (ht.2 h)]
  · have hne : toLowercase s ≠ "true" := by rw [hf.2 h]; decide
    rw [if_neg hne, if_pos (hf.2 h)]
  · rw [if_neg (fun h => h1 (ht.1 h)), if_neg (fun h => h2 (hf.1 h))]

example : (Value.string "TrUe").tryInto .bool = .ok true ∧ (Value.string "FALSE").tryInto .bool = .ok false ∧
    (Value.string "yes").tryInto .bool = .error (.conversionError "String" "bool" "can't parse string as boolean") :=
  ⟨(C29_string_to_bool "TrUe").1 ⟨by decide, fun i c d h1 h2 => by
      match i with
      | 0 | 1 | 2 | 3 => cases h1; cases h2; decide
      | i + 4 => cases h1⟩,
   (C29_string_to_bool "FALSE").2.1 ⟨by decide, fun i c d h1 h2 => by
      match i with
      | 0 | 1 | 2 | 3 | 4 => cases h1; cases h2; decide
      | i + 5 => cases h1⟩,
   (C29_string_to_bool "yes").2.2 (fun h => absurd h.1 (by decide)) (fun h => absurd h.1 (by decide))⟩

/-! ## C30 -/

/-- **C30.** Strings: the first character, or an error for the empty string; booleans: `'1'`/`'0'`; floats,
`None`, arrays and maps: errors. -/
theorem C30_to_char (s : String) (c : Char) (r : List Char) (b : Bool) (x : F64) :
    (s.toList = c :: r → (Value.string s).tryInto .char = .ok c) ∧
    (Value.string "").tryInto .char = .error (.conversionError "String" "char" "can't parse string") ∧
    (Value.boolean b).tryInto .char = .ok (if b then '1' else '0') ∧
    (Value.float x).tryInto .char = .error (.conversionError "Float" "char" "conversion not supported") := by
  refine ⟨fun h => ?_, by decide, rfl, rfl⟩
  simp only [Value.tryInto, Value.tryIntoChar, h]

example : (Value.string "€uro").tryInto .char = .ok '€' :=
  (C30_to_char "€uro" '€' ['u', 'r', 'o'] true ⟨.nan, trivial⟩).1 (by decide)

/-- **C30.** Integers convert iff in `0..=255`, to the character with that code point; otherwise the error names
`u8` as the target (not `char`), and for a `ULongInteger` names `i64` as the source. -/
theorem C30_int_to_char (v : Value) (n : Int) (src : String) (hv : integerOf v = some (n, src)) :
    (0 ≤ n → n ≤ 255 → ∃ c, v.tryInto .char = .ok c ∧ (c.toNat : Int) = n) ∧
    (n < 0 ∨ 255 < n → v.tryInto .char =
      .error (.conversionError (if src = "u128" then "i64" else src) "u8" "Number value is out of target bounds")) := by
  have ok : ∀ src', 0 ≤ n → n ≤ 255 → ∃ c, byteToChar n src' = .ok c ∧ (c.toNat : Int) = n := by
    intro src' h1 h2
    obtain ⟨r, hr, hn⟩ := toNumber_ok (t := .u8) (src := src') ((inRange_iff .u8 n).2 (by simp only [IntTy.lo, IntTy.hi]; omega))
    refine ⟨Char.ofNat r.1.toNat, by simp [byteToChar, hr], ?_⟩
    rw [hn]
    have : n.toNat ≤ 255 := by omega
    rw [toNat_ofNat_valid (by left; omega)]
    omega
  have bad : ∀ src', (n < 0 ∨ 255 < n) → byteToChar n src' =
      .error (.conversionError src' "u8" "Number value is out of target bounds") := by
    intro src' h
    have := toNumber_err (t := .u8) (src := src') (n := n) (by rw [inRange_iff]; simp only [IntTy.lo, IntTy.hi]; omega)
    simp only [byteToChar, this]; rfl
  cases v <;> simp only [integerOf, Option.some.injEq, Prod.mk.injEq, reduceCtorEq] at hv
  all_goals
    obtain ⟨rfl, rfl⟩ := hv
    exact ⟨fun h1 h2 => ok _ h1 h2, fun h => bad _ h⟩

example : (∃ c, (Value.integer ⟨233, by decide⟩).tryInto .char = .ok c ∧ (c.toNat : Int) = 233) ∧
    (Value.integer ⟨256, by decide⟩).tryInto .char =
      .error (.conversionError "i64" "u8" "Number value is out of target bounds") :=
  ⟨(C30_int_to_char (.integer ⟨233, by decide⟩) 233 "i64" rfl).1 (by decide) (by decide),
   (C30_int_to_char (.integer ⟨256, by decide⟩) 256 "i64" rfl).2 (Or.inr (by decide))⟩

/-! ## C31 -/

/-- The kind of a container or `None`, as error messages name it. -/
def kindName : Value → Option String
  | .none => some "None"
  | .array _ => some "Array"
  | .map _ => some "Map"
  | _ => none

/-- **C31.** `None`, arrays and maps never convert to any of the fourteen scalar targets, whatever they contain;
the error names the source kind and the target. -/
theorem C31_containers_never_convert (s : Scalar) (v : Value) (k : String) (hk : kindName v = some k) :
    v.tryInto s = .error (.conversionError k s.name "conversion not supported") := by
  cases v <;> simp only [kindName, Option.some.injEq, reduceCtorEq] at hk
  all_goals
    subst hk
    cases s <;> first | rfl | (rename_i t; cases t <;> rfl)

example : exA.tryInto .f64 = .error (.conversionError "Map" "f64" "conversion not supported") ∧
    Value.none.tryInto .bool = .error (.conversionError "None" "bool" "conversion not supported") :=
  ⟨C31_containers_never_convert .f64 exA "Map" rfl, C31_containers_never_convert .bool .none "None" rfl⟩

/-- **C31.** Every failed conversion is a `ConversionError` naming the requested target (`u8` for an integer that
is no character). -/
theorem C31_error_names_target (s : Scalar) (v : Value) (e : ModelError) (h : v.tryInto s = .error e) :
    ∃ src tgt why, e = .conversionError src tgt why ∧ (tgt = s.name ∨ (s = .char ∧ tgt = "u8" ∧ ∃ p, integerOf v = some p)) := by
  have num : ∀ (n : Int) (src : String) (t : IntTy) (e : ModelError), toNumber n src t = .error e →
      ∃ src why, e = .conversionError src t.name why := by
    intro n src t e h
    simp only [toNumber] at h
    split at h
    · cases h
    · cases h; exact ⟨_, _, rfl⟩
  have par : ∀ (t : IntTy) (s : String) (e : ModelError), parseArm t s = .error e →
      ∃ src why, e = .conversionError src t.name why := by
    intro t s e h
    simp only [parseArm] at h
    split at h
    · cases h
    · cases h; exact ⟨_, _, rfl⟩
  have byt : ∀ (n : Int) (src : String) (e : ModelError), byteToChar n src = .error e →
      ∃ src why, e = .conversionError src "u8" why := by
    intro n src e h
    simp only [byteToChar] at h
    split at h
    · cases h
    · rename_i e' he; cases h; exact num _ _ _ _ he
  have intCase : ∀ t, v.tryIntoInt t = .error e → ∃ src why, e = .conversionError src t.name why := by
    intro t h
    cases t <;> cases v <;> first
      | exact num _ _ _ _ h
      | exact par _ _ _ h
      | (cases h; exact ⟨_, _, rfl⟩)
      | cases h
  cases s with
  | int t =>
    obtain ⟨src, why, rfl⟩ := intCase t h
    exact ⟨src, _, why, rfl, Or.inl rfl⟩
  | bool =>
    cases v <;> simp only [Value.tryInto, Value.tryIntoBool] at h <;> first
      | (cases h; exact ⟨_, _, _, rfl, Or.inl rfl⟩)
      | (split at h
         · cases h
         · split at h
           · cases h
           · cases h; exact ⟨_, _, _, rfl, Or.inl rfl⟩)
      | cases h
  | f64 =>
    cases v <;> simp only [Value.tryInto, Value.tryIntoF64] at h <;> first
      | (cases h; exact ⟨_, _, _, rfl, Or.inl rfl⟩)
      | (split at h
         · cases h
         · cases h; exact ⟨_, _, _, rfl, Or.inl rfl⟩)
      | cases h
  | string =>
    cases v <;> simp only [Value.tryInto, Value.tryIntoString] at h <;> first
      | (cases h; exact ⟨_, _, _, rfl, Or.inl rfl⟩)
      | cases h
  | char =>
    cases v <;> simp only [Value.tryInto, Value.tryIntoChar] at h <;> first
      | (obtain ⟨src, why, rfl⟩ := byt _ _ _ h; exact ⟨_, _, _, rfl, Or.inr ⟨rfl, rfl, _, rfl⟩⟩)
      | (cases h; exact ⟨_, _, _, rfl, Or.inl rfl⟩)
      | (split at h
         · cases h
         · cases h; exact ⟨_, _, _, rfl, Or.inl rfl⟩)
      | cases h

example : ∃ src tgt why, (ModelError.conversionError "i64" "u8" "Number value is out of target bounds") =
    .conversionError src tgt why ∧ (tgt = Scalar.char.name ∨ (Scalar.char = .char ∧ tgt = "u8" ∧
      ∃ p, integerOf (.integer ⟨256, by decide⟩) = some p)) :=
  C31_error_names_target .char (.integer ⟨256, by decide⟩) _ (by decide)

/-- The source a failed conversion names: the kind of the value, as Rust type if it is a number; with two oddities for the target `char`. -/
def namedSource (s : Scalar) : Value → String
  | .none => "None"
  | .array _ => "Array"
  | .map _ => "Map"
  | .string _ => "String"
  | .boolean _ => "bool"
  | .integer _ => "i64"
  | .longInteger _ => "i128"
  | .uInteger _ => "u64"
  | .uLongInteger _ => if s = .char then "i64" else "u128"
  | .float _ => if s = .char then "Float" else "f64"

/-- The reason a failed conversion gives. -/
def namedReason (s : Scalar) : Value → String
  | .none | .array _ | .map _ | .boolean _ => "conversion not supported"
  | .string _ => if s = .bool then "can't parse string as boolean" else "can't parse string"
  | .integer _ | .longInteger _ | .uInteger _ | .uLongInteger _ => "Number value is out of target bounds"
  | .float _ => if s = .char then "conversion not supported" else "Number value is out of target bounds"

/-- **C31.** The error of a failed conversion, exactly: it depends on the target and the kind of the value only. -/
theorem C31_error_exact (s : Scalar) (v : Value) (e : ModelError) (h : v.tryInto s = .error e) :
    e = .conversionError (namedSource s v) (if s = .char ∧ (integerOf v).isSome = true then "u8" else s.name) (namedReason s v) := by
  have num : ∀ (n : Int) (src : String) (t : IntTy) (e : ModelError), toNumber n src t = .error e →
      e = .conversionError src t.name "Number value is out of target bounds" := by
    intro n src t e h
    simp only [toNumber] at h
    split at h
    · cases h
    · cases h; rfl
  have par : ∀ (t : IntTy) (s : String) (e : ModelError), parseArm t s = .error e → e = .conversionError "String" t.name "can't parse string" := by
    intro t s e h
    simp only [parseArm] at h
    split at h
    · cases h
    · cases h; rfl
  have byt : ∀ (n : Int) (src : String) (e : ModelError), byteToChar n src = .error e →
      e = .conversionError src "u8" "Number value is out of target bounds" := by
    intro n src e h
    simp only [byteToChar] at h
    split at h
    · cases h
    · rename_i e' he; cases h; exact num _ _ _ _ he
  cases s with
  | int t =>
    have hx : ¬ (Scalar.int t = .char ∧ (integerOf v).isSome = true) := by simp
    rw [if_neg hx]
    cases t <;> cases v <;> first
      | exact num _ _ _ _ h
      | exact par _ _ _ h
      | (cases h; rfl)
      | cases h
  | bool =>
    cases v <;> simp only [Value.tryInto, Value.tryIntoBool] at h <;> first
      | (cases h; rfl)
      | (split at h
         · cases h
         · split at h
           · cases h
           · cases h; rfl)
      | cases h
  | f64 =>
    cases v <;> simp only [Value.tryInto, Value.tryIntoF64] at h <;> first
      | (cases h; rfl)
      | (split at h
         · cases h
         · cases h; rfl)
      | cases h
  | string =>
    cases v <;> simp only [Value.tryInto, Value.tryIntoString] at h <;> first
      | (cases h; rfl)
      | cases h
  | char =>
    cases v <;> simp only [Value.tryInto, Value.tryIntoChar] at h <;> first
      | exact byt _ _ _ h
      | (cases h; rfl)
      | (split at h
         · cases h
         · cases h; rfl)
      | cases h

example : (Value.uLongInteger ⟨300, by decide⟩).tryInto .char =
    .error (.conversionError "i64" "u8" "Number value is out of target bounds") := by decide

/-! ## C32 -/

/-- **C32.** `into_<type>_or(d)` is the converted value on success and `d` on failure; by-reference and
by-mutable-reference conversions and the `try_into_<type>` methods agree with the by-value one and leave the
value alone. -/
theorem C32_into_or (s : Scalar) (v : Value) (d : s.T) :
    (∀ x, v.tryIntoMethod s = .ok x → v.intoOr s d = x) ∧ (∀ e, v.tryIntoMethod s = .error e → v.intoOr s d = d) ∧
    v.tryIntoRef s = v.tryInto s ∧ v.tryIntoMut s = (v.tryInto s, v) ∧ v.tryIntoMethod s = v.tryInto s := by
  have e : v.tryIntoMethod s = v.tryInto s := rfl
  rw [e]
  refine ⟨fun x h => ?_, fun e h => ?_, rfl, rfl, rfl⟩ <;> simp [Value.intoOr, h]

example : (Value.string "12").intoOr (.int .u8) ⟨7, by decide⟩ = ⟨12, by decide⟩ := by decide
example : (Value.string "x").intoOr (.int .u8) ⟨7, by decide⟩ = ⟨7, by decide⟩ := by decide

/-! ## C33 -/

/-- **C33.** `try_into_string` succeeds exactly on booleans, numbers and strings, and then is the `Display` text. -/
theorem C33_string_is_display (v : Value) :
    (kindName v = none → v.tryInto .string = .ok v.display) ∧
    (∀ k, kindName v = some k → ∃ e, v.tryInto .string = .error e) := by
  refine ⟨fun h => ?_, fun k h => ⟨_, C31_containers_never_convert .string v k h⟩⟩
  cases v <;> first | (cases h; done) | skip
  all_goals simp [Value.tryInto, Value.tryIntoString, Value.display]

example : (Value.boolean true).tryInto .string = .ok (Value.boolean true).display ∧ (∃ e, exA.tryInto .string = .error e) :=
  ⟨(C33_string_is_display (.boolean true)).1 rfl, (C33_string_is_display exA).2 "Map" rfl⟩

theorem displayElems_false (xs : List Value) :
    displayElems false xs = String.join (xs.map fun x => ", " ++ x.display) := by
  induction xs with
  | nil => rw [displayElems]; rfl
  | cons x xs ih =>
    rw [displayElems, ih]
    simp [String.join_cons]

theorem displayEntries_false (m : Entries) :
    displayEntries false m = String.join (m.map fun e => ", " ++ (e.1 ++ ": " ++ e.2.display)) := by
  induction m with
  | nil => rw [displayEntries]; rfl
  | cons e m ih =>
    obtain ⟨k, v⟩ := e
    rw [displayEntries, ih, displayEntry]
    simp [String.join_cons]

theorem intercalate_eq (sep : String) (x : String) (l : List String) :
    String.intercalate sep (x :: l) = x ++ String.join (l.map (sep ++ ·)) := by
  induction l generalizing x with
  | nil => simp
  | cons y l ih =>
    rw [String.intercalate_cons_cons, ih]
    simp [String.join_cons, String.append_assoc]

/-- **C33.** Display of containers: the elements' (entries') texts joined with `", "`, in brackets (braces). -/
theorem C33_display_containers (xs : List Value) (m : Entries) :
    (Value.array xs).display = "[" ++ String.intercalate ", " (xs.map Value.display) ++ "]" ∧
    (Value.map m).display =
      "{" ++ String.intercalate ", " (m.map fun e => e.1 ++ ": " ++ e.2.display) ++ "}" := by
  constructor
  · rw [Value.display]
    cases xs with
    | nil => rw [displayElems]; rfl
    | cons x xs =>
      rw [displayElems, displayElems_false, List.map_cons, intercalate_eq]
      simp [List.map_map, Function.comp_def]
  · rw [Value.display]
    cases m with
    | nil => rw [displayEntries]; rfl
    | cons e m =>
      obtain ⟨k, v⟩ := e
      rw [displayEntries, displayEntries_false, List.map_cons, intercalate_eq, displayEntry]
      simp [List.map_map, Function.comp_def]

/-! ## C34 -/

/-- **C34.** A float's text converts back to the same float: sign of zero, infinities and NaN included. -/
theorem C34_float_text_roundtrip (x : F64) :
    ∃ s, (Value.float x).tryInto .string = .ok s ∧ (Value.string s).tryInto .f64 = .ok x := by
  refine ⟨_, rfl, ?_⟩
  simp only [Value.tryInto, Value.tryIntoF64, parse_toText]

/-- Distinct floats therefore have distinct texts. -/
theorem C34_injective (x y : F64) (h : (Value.float x).tryInto .string = (Value.float y).tryInto .string) : x = y := by
  obtain ⟨s, h1, h2⟩ := C34_float_text_roundtrip x
  obtain ⟨s', h1', h2'⟩ := C34_float_text_roundtrip y
  rw [h1, h1', Except.ok.injEq] at h
  subst h
  rw [h2] at h2'
  exact Except.ok.inj h2'

/-- One and its neighbour above have different texts. -/
example : (Value.float ⟨.fin false (2 ^ 52) (-52), by decide⟩).tryInto .string ≠
    (Value.float ⟨.fin false (2 ^ 52 + 1) (-52), by decide⟩).tryInto .string := fun h =>
  absurd (congrArg Subtype.val (C34_injective _ _ h)) (by decide)

end Verif.Props
