import Verif.Lemmas.FloatCap
import Verif.Props.Serde
/-! # C81: text to float -/
namespace Verif.Props
open Spec

theorem numeral_head {body : List Char} {d : Nat} {k : Int} (h : DecimalRead body d k) :
    ∃ c r, body = c :: r ∧ (isDec c = true ∨ c = '.') := by
  obtain ⟨ip, fp, ex, e, hd, hex, hb, rfl⟩ := h
  obtain ⟨h1, h2, rfl⟩ := digitsSpell_val.1 hd
  cases ip with
  | cons c ip =>
    have hc : isDec c = true := isDec_iff.2 (h2 c (by simp))
    rcases hb with ⟨-, rfl⟩ | rfl
    · exact ⟨c, _, rfl, Or.inl hc⟩
    · exact ⟨c, _, rfl, Or.inl hc⟩
  | nil =>
    rcases hb with ⟨rfl, rfl⟩ | rfl
    · exact absurd rfl h1
    · exact ⟨'.', _, rfl, Or.inr rfl⟩

/-- A sign is not part of a body. -/
def Unsigned (body : List Char) : Prop := ∀ r, body ≠ '-' :: r ∧ body ≠ '+' :: r

theorem numeral_unsigned {body : List Char} {d : Nat} {k : Int} (h : DecimalRead body d k) : Unsigned body := by
  obtain ⟨c, r, rfl, hc⟩ := numeral_head h
  have h1 : isDec '-' = false := by decide
  have h2 : isDec '+' = false := by decide
  intro r'
  constructor <;> intro he <;> cases he <;> rcases hc with hc | hc
  · rw [h1] at hc; cases hc
  · cases hc
  · rw [h2] at hc; cases hc
  · cases hc

theorem word_head {body : List Char} {w : String} {d : Char} {t : List Char} (hw : w.toList = d :: t)
    (h : EqIgnoreAsciiCase (String.ofList body) w) : ∃ c r, body = c :: r ∧ (c = d ∨ c.toNat + 32 = d.toNat) := by
  unfold EqIgnoreAsciiCase at h
  rw [String.toList_ofList, hw] at h
  cases body with
  | nil => exact absurd h.1 (by simp)
  | cons c r => exact ⟨c, r, rfl, (h.2 0 c d rfl rfl).imp id And.left⟩

theorem word_unsigned {body : List Char} {w : String} {d : Char} {t : List Char} (hw : w.toList = d :: t) (hd : 90 ≤ d.toNat)
    (h : EqIgnoreAsciiCase (String.ofList body) w) : Unsigned body ∧ ∀ n k, ¬ DecimalRead body n k := by
  obtain ⟨c, r, rfl, hc⟩ := word_head hw h
  have hc58 : 58 ≤ c.toNat := by rcases hc with rfl | hc <;> omega
  constructor
  · intro r'
    constructor <;> intro he <;> cases he <;> exact absurd hc58 (by decide)
  · intro n k hn
    obtain ⟨c', r', he, h'⟩ := numeral_head hn
    cases he
    have hv : c.toNat ≤ 57 := by
      rcases h' with h' | rfl
      · have := (isDec_iff.1 h').2; rw [Char.le_def, UInt32.le_iff_toNat_le] at this; exact this
      · decide
    omega

/-- The part of `parseF64` after the sign. -/
def parseBody (neg : Bool) (body : List Char) : Option F64 :=
  match parseDecimal body with
  | some (d, k) => some (F64.ofDecimal neg d k)
  | none =>
    if String.ofList (body.map asciiLower) = "nan" then some ⟨.nan, trivial⟩
    else if String.ofList (body.map asciiLower) = "inf" ∨ String.ofList (body.map asciiLower) = "infinity" then some ⟨.inf neg, trivial⟩
    else none

theorem parseF64_signed {s : String} {neg : Bool} {body : List Char} (h : Signed s neg body) (hu : Unsigned body) :
    parseF64 s = parseBody neg body := by
  unfold parseF64
  rcases h with ⟨rfl, h⟩ | ⟨rfl, h | h⟩
  · rw [h]; rfl
  · rw [h]; rfl
  · rw [h]
    cases body with
    | nil => rfl
    | cons c r =>
      have h1 : c ≠ '-' := fun e => (hu r).1 (by rw [e])
      have h2 : c ≠ '+' := fun e => (hu r).2 (by rw [e])
      have h3 : (c == '-') = false := by simpa using h1
      simp only [h1, h2, or_self, if_false, h3]
      rfl

theorem parseBody_decimal {neg : Bool} {body : List Char} {d : Nat} {k : Int} (h : DecimalRead body d k) :
    parseBody neg body = some (F64.ofDecimal neg d k) := by
  unfold parseBody; rw [(parseDecimal_iff _ _ _).2 h]

theorem parseBody_else {neg : Bool} {body : List Char} (h : ∀ d k, ¬ DecimalRead body d k) :
    parseBody neg body = if String.ofList (body.map asciiLower) = "nan" then some ⟨.nan, trivial⟩
      else if String.ofList (body.map asciiLower) = "inf" ∨ String.ofList (body.map asciiLower) = "infinity" then some ⟨.inf neg, trivial⟩
      else none := by
  unfold parseBody
  cases hp : parseDecimal body with
  | none => rfl
  | some x => exact absurd ((parseDecimal_iff _ _ _).1 hp) (h x.1 x.2)

theorem toF64_some {s : String} {x : F64} (h : parseF64 s = some x) : (Value.string s).tryInto .f64 = .ok x := by
  simp only [Value.tryInto, Value.tryIntoF64, h]

/-- **C81.** A decimal numeral (optional sign, digits, optional point and digits, optional exponent) of at most 65000 characters converts
to the float nearest to the number it spells, ties to even, with its sign (zero too); from half a step above the largest float on, to
the infinity of its sign. -/
theorem C81_number (s : String) (neg : Bool) (body : List Char) (q : ℚ) (hs : Signed s neg body) (hq : Numeral body q)
    (hl : body.length ≤ 65000) :
    ∃ x : F64, (Value.string s).tryInto .f64 = .ok x ∧ Rounds fmt64 neg q x.1 := by
  obtain ⟨d, k, h, rfl⟩ := numeral_iff.1 hq
  obtain ⟨k', hr, he⟩ := decimal_read h
  refine ⟨F64.ofDecimal neg d k, toF64_some ?_, ?_⟩
  · rw [parseF64_signed hs (numeral_unsigned hr), parseBody_decimal hr, he hl]
  · rw [ten_zpow_split]
    exact round_rounds fmt64 fmt64_ok (by decide) neg _ _ (Nat.pow_pos (by decide))

/-- **C81.** A longer numeral is never refused either. If its exponent is written with a value below 65536 it is still read exactly. -/
theorem C81_long (s : String) (neg : Bool) (body : List Char) (hs : Signed s neg body) :
    (∀ q, Numeral body q → ∃ x : F64, (Value.string s).tryInto .f64 = .ok x) ∧
    (∀ ip fp ex n e, DigitsSpell (ip ++ fp) n → Exponent ex e → -65536 < e → e < 65536 →
      (fp = [] ∧ body = ip ++ ex) ∨ body = ip ++ '.' :: fp ++ ex →
      ∃ x : F64, (Value.string s).tryInto .f64 = .ok x ∧ Rounds fmt64 neg (n * (10 : ℚ) ^ (e - fp.length)) x.1) := by
  constructor
  · intro q hq
    obtain ⟨d, k, h, rfl⟩ := numeral_iff.1 hq
    obtain ⟨k', hr, -⟩ := decimal_read h
    exact ⟨_, toF64_some (by rw [parseF64_signed hs (numeral_unsigned hr), parseBody_decimal hr])⟩
  · intro ip fp ex n e h1 h2 hlo hhi h3
    obtain ⟨e', h4, h5⟩ := readExp_of h2
    have he : e' = e := by
      rcases h5 with h | h | h
      · exact h.symm
      · omega
      · omega
    subst he
    have hr : DecimalRead body n (e' - fp.length) := ⟨ip, fp, ex, e', h1, h4, h3, rfl⟩
    refine ⟨_, toF64_some (by rw [parseF64_signed hs (numeral_unsigned hr), parseBody_decimal hr]), ?_⟩
    rw [ten_zpow_split]
    exact round_rounds fmt64 fmt64_ok (by decide) neg _ _ (Nat.pow_pos (by decide))

theorem zeros_one (z : Nat) : digitsVal (List.replicate z '0' ++ ['1']) = 1 := by
  have h : ∀ z, (List.replicate z '0').foldl (fun acc c => acc * 10 + (charDigit c).getD 0) 0 = 0 := by
    intro z
    induction z with
    | zero => rfl
    | succ z ih => rw [List.replicate_succ, List.foldl_cons]; exact ih
  unfold digitsVal
  rw [List.foldl_append, h]
  decide

theorem capped_at (z : Nat) (hz : z + 1 = 1000000) (s : String) (hs : s.toList = '.' :: (List.replicate z '0' ++ ['1']) ++ "e1000000".toList) :
    Signed s false s.toList ∧ Numeral s.toList 1 ∧ ∃ x : F64, (Value.string s).tryInto .f64 = .ok x ∧ x.1 = .fin false 0 fmt64.emin := by
  have hsg : Signed s false s.toList := Or.inr ⟨rfl, Or.inr rfl⟩
  have hd : DigitsSpell ([] ++ (List.replicate z '0' ++ ['1'])) 1 := by
    rw [List.nil_append]
    refine digitsSpell_val.2 ⟨by simp, ?_, (zeros_one z).symm⟩
    intro c hc
    rw [List.mem_append, List.mem_replicate] at hc
    rcases hc with ⟨-, rfl⟩ | hc
    · decide
    · rw [List.mem_singleton.1 hc]; decide
  have hlen : (List.replicate z '0' ++ ['1']).length = 1000000 := by
    rw [List.length_append, List.length_replicate]; exact hz
  refine ⟨hsg, ⟨[], _, "e1000000".toList, 1, 1000000, hd, ?_, Or.inr hs, ?_⟩, ?_⟩
  · exact Or.inr ⟨'e', "1000000".toList, 1000000, Or.inl rfl, digitsSpell_val.2 ⟨by decide, by decide, by decide⟩, Or.inl ⟨rfl, rfl⟩⟩
  · rw [hlen]; norm_num
  · have hr : DecimalRead s.toList 1 (100000 - 1000000) := by
      refine ⟨[], _, "e1000000".toList, 100000, hd, ?_, Or.inr hs, by rw [hlen]; rfl⟩
      exact Or.inr ⟨'e', "1000000".toList, 100000, Or.inl rfl, ⟨by decide, by decide, by decide⟩, Or.inl ⟨rfl, rfl⟩⟩
    refine ⟨_, toF64_some (by rw [parseF64_signed hsg (numeral_unsigned hr), parseBody_decimal hr]), ?_⟩
    exact ofDecimal_small false (Nat.one_lt_pow (by decide) (by decide)) (by decide)

/-- **C81.** With more characters and a greater exponent the float can be wrong: a point, 999999 zeros, a one and `e1000000` is a
numeral for 1, and reads as zero. -/
theorem C81_capped : ∃ (s : String) (x : F64), Signed s false s.toList ∧ Numeral s.toList 1 ∧
    (Value.string s).tryInto .f64 = .ok x ∧ x.1 = .fin false 0 fmt64.emin := by
  obtain ⟨z, hz⟩ : ∃ z, z + 1 = 1000000 := ⟨999999, rfl⟩
  obtain ⟨h1, h2, x, h3, h4⟩ := capped_at z hz (String.ofList _) (String.toList_ofList)
  exact ⟨_, x, h1, h2, h3, h4⟩

/-- **C81.** The words, in any case of their letters: `nan` (with or without a sign), `inf` and `infinity` (of the sign given). -/
theorem C81_words (s : String) (neg : Bool) (body : List Char) (hs : Signed s neg body) :
    (EqIgnoreAsciiCase (String.ofList body) "nan" → ∃ x : F64, (Value.string s).tryInto .f64 = .ok x ∧ x.1 = .nan) ∧
    (EqIgnoreAsciiCase (String.ofList body) "inf" ∨ EqIgnoreAsciiCase (String.ofList body) "infinity" →
      ∃ x : F64, (Value.string s).tryInto .f64 = .ok x ∧ x.1 = .inf neg) := by
  have lower : ∀ w ∈ ["nan", "inf", "infinity"], ∀ d ∈ w.toList, 'a' ≤ d ∧ d ≤ 'z' := by decide
  constructor
  · intro h
    obtain ⟨h1, h2⟩ := word_unsigned (w := "nan") rfl (by decide) h
    refine ⟨⟨.nan, trivial⟩, toF64_some ?_, rfl⟩
    rw [parseF64_signed hs h1, parseBody_else h2, if_pos ((asciiLower_word _ _ (lower _ (by simp))).2 h)]
  · intro h
    have hn : ¬ String.ofList (body.map asciiLower) = "nan" := by
      intro hc
      rcases h with h | h
      · rw [(asciiLower_word _ _ (lower _ (by simp))).2 h] at hc; exact absurd hc (by decide)
      · rw [(asciiLower_word _ _ (lower _ (by simp))).2 h] at hc; exact absurd hc (by decide)
    have hu : Unsigned body ∧ ∀ n k, ¬ DecimalRead body n k := by
      rcases h with h | h
      · exact word_unsigned (w := "inf") rfl (by decide) h
      · exact word_unsigned (w := "infinity") rfl (by decide) h
    refine ⟨⟨.inf neg, trivial⟩, toF64_some ?_, rfl⟩
    rw [parseF64_signed hs hu.1, parseBody_else hu.2, if_neg hn, if_pos]
    exact h.imp (fun h => (asciiLower_word _ _ (lower _ (by simp))).2 h) (fun h => (asciiLower_word _ _ (lower _ (by simp))).2 h)

/-- What a text must be to stand for a float: a numeral or one of the words, with an optional sign. -/
def FloatText (s : String) : Prop :=
  ∃ neg body, Signed s neg body ∧ ((∃ q, Numeral body q) ∨ EqIgnoreAsciiCase (String.ofList body) "nan" ∨
    EqIgnoreAsciiCase (String.ofList body) "inf" ∨ EqIgnoreAsciiCase (String.ofList body) "infinity")

/-- **C81.** Every other text is an error, which says so. -/
theorem C81_error (s : String) (h : ¬ FloatText s) :
    (Value.string s).tryInto .f64 = .error (.conversionError "String" "f64" "can't parse string") := by
  have lower : ∀ w ∈ ["nan", "inf", "infinity"], ∀ d ∈ w.toList, 'a' ≤ d ∧ d ≤ 'z' := by decide
  suffices hn : parseF64 s = none by simp only [Value.tryInto, Value.tryIntoF64, hn]
  have key : ∀ neg body, Signed s neg body → parseBody neg body = none := by
    intro neg body hs
    have h' : ∀ {P : Prop}, (P → (∃ q, Numeral body q) ∨ EqIgnoreAsciiCase (String.ofList body) "nan" ∨
        EqIgnoreAsciiCase (String.ofList body) "inf" ∨ EqIgnoreAsciiCase (String.ofList body) "infinity") → ¬ P :=
      fun hp p => h ⟨neg, body, hs, hp p⟩
    rw [parseBody_else (fun d k => h' fun hd => Or.inl (by obtain ⟨k', hk⟩ := decimal_of_read hd; exact ⟨_, numeral_iff.2 ⟨d, k', hk, rfl⟩⟩)), if_neg, if_neg]
    · refine h' fun hp => Or.inr (Or.inr ?_)
      exact hp.imp (fun hp => (asciiLower_word _ _ (lower _ (by simp))).1 hp) (fun hp => (asciiLower_word _ _ (lower _ (by simp))).1 hp)
    · exact h' fun hp => Or.inr (Or.inl ((asciiLower_word _ _ (lower _ (by simp))).1 hp))
  cases hl : s.toList with
  | nil => unfold parseF64; rw [hl]
  | cons c r =>
    by_cases h1 : c = '-'
    · subst h1
      have := key true r (Or.inl ⟨rfl, hl⟩)
      rw [← this]; unfold parseF64; rw [hl]; rfl
    · by_cases h2 : c = '+'
      · subst h2
        have := key false r (Or.inr ⟨rfl, Or.inl hl⟩)
        rw [← this]; unfold parseF64; rw [hl]; rfl
      · rw [parseF64_signed (neg := false) (body := c :: r) (Or.inr ⟨rfl, Or.inr hl⟩)]
        · exact key false (c :: r) (Or.inr ⟨rfl, Or.inr hl⟩)
        · intro r'
          constructor <;> intro he <;> cases he
          · exact h1 rfl
          · exact h2 rfl

/-- `1.5e-1` is a numeral for 15 hundredths. -/
example : Numeral "1.5e-1".toList (15 / 100) := by
  refine ⟨['1'], ['5'], ['e', '-', '1'], 15, -1, ⟨by simp, by decide, by decide⟩,
    Or.inr ⟨'e', ['1'], 1, Or.inl rfl, ⟨by simp, by decide, by decide⟩, Or.inr (Or.inr ⟨rfl, rfl⟩)⟩, Or.inr rfl, ?_⟩
  norm_num [zpow_neg]
example : Signed "-1.5e-1" true "1.5e-1".toList := Or.inl ⟨rfl, rfl⟩
example : Signed "-Infinity" true "Infinity".toList ∧ EqIgnoreAsciiCase (String.ofList "Infinity".toList) "infinity" := by
  refine ⟨Or.inl ⟨rfl, rfl⟩, ?_⟩
  exact (asciiLower_word _ _ (by decide)).1 (by decide)
example : (Value.string "1e").tryInto .f64 = .error (.conversionError "String" "f64" "can't parse string") := by decide

/-! ## C82 -/

/-- What a typed reader of a scalar gets from the direct conversion: its value, or its error. -/
def typed {α : Type} (r : Except ModelError α) (f : α → Data) : Outcome ModelError Data :=
  match r with
  | .ok x => .ok (f x)
  | .error e => .err e

/-- **C82.** Deserializing a scalar type is the direct conversion of C23-C31, with the same errors, for every value; an optional one
is `None` for `None` and the same conversion for everything else. -/
theorem C82_scalars (structs : Nat → List (String × Ty)) (k : Nat) (v : Value) :
    deAt structs k .bool v = typed (v.tryInto .bool) .bool ∧
    deAt structs k .f64 v = typed (v.tryInto .f64) .f64 ∧
    deAt structs k .char v = typed (v.tryInto .char) .char ∧
    deAt structs k .string v = typed (v.tryInto .string) .str ∧
    (∀ t, t ≠ .i128 → t ≠ .u128 → deAt structs k (.int t) v = typed (v.tryIntoInt t) (.int t)) ∧
    (∀ ty, deAt structs k (.option ty) .none = .ok .none) ∧
    (∀ ty, v ≠ .none → deAt structs k (.option ty) v = deAt structs k ty v >>= fun d => .ok (.some d)) := by
  refine ⟨?_, ?_, ?_, ?_, ?_, ?_, ?_⟩
  · unfold deAt; rw [de]; cases v.tryInto .bool <;> rfl
  · unfold deAt; rw [de]; cases v.tryInto .f64 <;> rfl
  · unfold deAt; rw [de]; cases v.tryInto .char <;> rfl
  · unfold deAt; rw [de]; cases v.tryInto .string <;> rfl
  · intro t h1 h2
    unfold deAt; rw [de]
    cases t <;> first | exact absurd rfl h1 | exact absurd rfl h2 | (simp only [deInt, Value.tryInto]; cases Value.tryIntoInt _ v <;> rfl)
  · intro ty; unfold deAt; rw [de]
  · intro ty hv
    unfold deAt
    cases v with
    | none => exact absurd rfl hv
    | _ => simp only [de]

/-- **C82.** An `f32` is read from a float by rounding it to the nearest `f32` (ties to even, infinite beyond the range), from
everything else by converting it to `f64` first. -/
theorem C82_f32 (structs : Nat → List (String × Ty)) (k : Nat) :
    (∀ (x : F64) neg m e, x.1 = .fin neg m e → ∃ y : F32, deAt structs k .f32 (.float x) = .ok (.f32 y) ∧
      Rounds fmt32 neg ((m : ℚ) * (2 : ℚ) ^ e) y.1) ∧
    (∀ x : F64, x.1 = .nan → ∃ y : F32, deAt structs k .f32 (.float x) = .ok (.f32 y) ∧ y.1 = .nan) ∧
    (∀ (x : F64) neg, x.1 = .inf neg → ∃ y : F32, deAt structs k .f32 (.float x) = .ok (.f32 y) ∧ y.1 = .inf neg) ∧
    (∀ v x, v.tryInto .f64 = .ok x → deAt structs k .f32 v = deAt structs k .f32 (.float x)) ∧
    (∀ v e, v.tryInto .f64 = .error e → deAt structs k .f32 v = .err e) := by
  have hf : ∀ x : F64, deAt structs k .f32 (.float x) = .ok (.f32 (F32.ofF64 x)) := fun x => by unfold deAt; rw [de]; rfl
  have hv : ∀ x : F64, (F32.ofF64 x).1 = fmt32.convert x.1 := fun x => rfl
  refine ⟨?_, ?_, ?_, ?_, ?_⟩
  · intro x neg m e hx
    refine ⟨_, hf x, ?_⟩
    have : (F32.ofF64 x).1 = fmt32.round neg (m * 2 ^ e.toNat) (2 ^ (-e).toNat) := by rw [hv, hx]; rfl
    rw [this]
    have hq : (m : ℚ) * (2 : ℚ) ^ e = ((m * 2 ^ e.toNat : Nat) : ℚ) / ((2 ^ (-e).toNat : Nat) : ℚ) := by
      rw [two_zpow_split]; push_cast; rw [mul_div_assoc]
    rw [hq]
    exact round_rounds fmt32 fmt32_ok (by decide) neg _ _ (Nat.pow_pos (by decide))
  · intro x hx; exact ⟨_, hf x, by rw [hv, hx]; rfl⟩
  · intro x neg hx; exact ⟨_, hf x, by rw [hv, hx]; rfl⟩
  · intro v x hx; rw [hf]; unfold deAt; rw [de, hx]; rfl
  · intro v e hx; unfold deAt; rw [de, hx]; rfl

/-- **C82.** Hence an integer read as `f32` is rounded twice, and the result need not be the nearest `f32`:
2^60 + 2^36 + 1 is read as 2^60, although 2^60 + 2^37 is nearer. -/
theorem C82_rounded_twice (structs : Nat → List (String × Ty)) (k : Nat) :
    ∃ (n : IntOf .i64) (y z : F32) (qy qz : ℚ), deAt structs k .f32 (.integer n) = .ok (.f32 y) ∧ ratOf y.1 = some qy ∧ ratOf z.1 = some qz ∧
      |(n.1 : ℚ) - qz| < |(n.1 : ℚ) - qy| := by
  refine ⟨⟨2 ^ 60 + 2 ^ 36 + 1, by decide⟩, F32.ofF64 (F64.ofInt (2 ^ 60 + 2 ^ 36 + 1)), ⟨.fin false (2 ^ 23 + 1) 37, by decide⟩, 2 ^ 60, 2 ^ 60 + 2 ^ 37, ?_, ?_, ?_, ?_⟩
  · unfold deAt; rw [de]; rfl
  · have : (F32.ofF64 (F64.ofInt (2 ^ 60 + 2 ^ 36 + 1))).1 = .fin false (2 ^ 23) 37 := by decide
    rw [this]; simp only [ratOf]; norm_num
  · simp only [ratOf]; norm_num
  · norm_num [abs_lt]

/-- The number theorem on a text with sign, fraction and exponent. -/
example : ∃ x : F64, (Value.string "-1.5e-1").tryInto .f64 = .ok x ∧ Rounds fmt64 true (15 / 100) x.1 := by
  refine C81_number "-1.5e-1" true "1.5e-1".toList (15 / 100) (Or.inl ⟨rfl, rfl⟩) ?_ (by decide)
  refine ⟨['1'], ['5'], ['e', '-', '1'], 15, -1, ⟨by simp, by decide, by decide⟩,
    Or.inr ⟨'e', ['1'], 1, Or.inl rfl, ⟨by simp, by decide, by decide⟩, Or.inr (Or.inr ⟨rfl, rfl⟩)⟩, Or.inr rfl, ?_⟩
  norm_num [zpow_neg]

/-- Whatever its length, a numeral with a moderate exponent is rounded correctly: any number of nines. -/
example (k : Nat) : ∃ x : F64, (Value.string (String.ofList (List.replicate (k + 1) '9'))).tryInto .f64 = .ok x ∧
    ∃ n : Nat, DigitsSpell (List.replicate (k + 1) '9') n ∧ Rounds fmt64 false n x.1 := by
  have hd : DigitsSpell (List.replicate (k + 1) '9' ++ []) (Nat.ofDigits 10 ((List.replicate (k + 1) '9').map (fun c => c.toNat - '0'.toNat)).reverse) := by
    rw [List.append_nil]
    refine ⟨by simp, ?_, rfl⟩
    intro c hc
    rw [List.eq_of_mem_replicate hc]; decide
  obtain ⟨x, h1, h2⟩ := (C81_long (String.ofList (List.replicate (k + 1) '9')) false (List.replicate (k + 1) '9')
    (Or.inr ⟨rfl, Or.inr (String.toList_ofList)⟩)).2 (List.replicate (k + 1) '9') [] [] _ 0 hd (Or.inl ⟨rfl, rfl⟩) (by decide) (by decide) (Or.inl ⟨rfl, (List.append_nil _).symm⟩)
  refine ⟨x, h1, _, by rw [List.append_nil] at hd; exact hd, ?_⟩
  simpa using h2

/-- The words, in mixed case and signed. -/
example : (∃ x : F64, (Value.string "-Infinity").tryInto .f64 = .ok x ∧ x.1 = .inf true) ∧
    ∃ x : F64, (Value.string "+NaN").tryInto .f64 = .ok x ∧ x.1 = .nan :=
  ⟨(C81_words "-Infinity" true "Infinity".toList (Or.inl ⟨rfl, rfl⟩)).2 (Or.inr ((asciiLower_word _ _ (by decide)).1 (by decide))),
    (C81_words "+NaN" false "NaN".toList (Or.inr ⟨rfl, Or.inl rfl⟩)).1 ((asciiLower_word _ _ (by decide)).1 (by decide))⟩

/-- A typed reader of a small integer type gets the conversion's error. -/
example (structs : Nat → List (String × Ty)) : deAt structs 0 (.int .u8) (.string "300") =
    typed ((Value.string "300").tryIntoInt .u8) (.int .u8) :=
  (C82_scalars structs 0 (.string "300")).2.2.2.2.1 .u8 (by decide) (by decide)

/-- `0.1` read as `f32` is the `f32` nearest to the `f64` that stands for it. -/
example (structs : Nat → List (String × Ty)) : ∃ y : F32, deAt structs 0 .f32 (.float ⟨.fin false 7205759403792794 (-56), by decide⟩) = .ok (.f32 y) ∧
    Rounds fmt32 false (7205759403792794 * (2 : ℚ) ^ (-56 : Int)) y.1 :=
  (C82_f32 structs 0).1 ⟨.fin false 7205759403792794 (-56), by decide⟩ _ _ _ rfl

end Verif.Props
