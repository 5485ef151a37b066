import Verif.Lemmas.FloatShortest
import Verif.Props.FloatText
/-! # C83: the text of a scalar -/
namespace Verif.Props
open Spec

theorem decAux_last (fuel n : Nat) (h : n < fuel) : (decAux fuel n).getLast? = some (digitChar (n % 10)) := by
  cases fuel with
  | zero => omega
  | succ f =>
    rw [decAux]
    split
    · rename_i h10; rw [Nat.mod_eq_of_lt h10]; rfl
    · rw [List.getLast?_append]; rfl

theorem decNat_last (n : Nat) : (decNat n).getLast? = some (digitChar (n % 10)) := decAux_last _ _ (by omega)

theorem digitChar_zero {d : Nat} (h : d < 10) : digitChar d = '0' ↔ d = 0 := by
  have : ∀ k < 10, digitChar k = '0' ↔ k = 0 := by decide
  exact this d h

theorem positional_plain (d : Nat) (k : Int) (hd : d % 10 ≠ 0) : Plain (positional d k) := by
  have hpos : 0 < d := by omega
  obtain ⟨-, -, hh⟩ := decNat_bounds d hpos
  have hdig := decNat_digits d
  have hne := decNat_ne_nil d
  have hlast : (decNat d).getLast? ≠ some '0' := by
    rw [decNat_last]
    intro h
    exact hd ((digitChar_zero (Nat.mod_lt _ (by decide))).1 (Option.some.inj h))
  unfold positional
  simp only
  generalize decNat d = s at *
  split
  · refine ⟨s ++ List.replicate k.toNat '0', [], ?_, by simp [hne], ?_, by simp, Or.inl ⟨rfl, rfl⟩⟩
    · intro c hc
      rw [List.append_nil, List.mem_append] at hc
      rcases hc with hc | hc
      · exact hdig c hc
      · exact zeros_digits _ c hc
    · intro h0
      cases s with
      | nil => exact absurd rfl hne
      | cons c r => exact absurd h0 (by simpa using hh)
  · split
    · rename_i hk hf
      set i := s.length - (-k).toNat with hi
      have hi0 : 0 < i := by omega
      have hil : i < s.length := by omega
      refine ⟨s.take i, s.drop i, ?_, ?_, ?_, ?_, Or.inr ⟨?_, rfl⟩⟩
      · rw [List.take_append_drop]; exact hdig
      · intro h
        have := congrArg List.length h
        rw [List.length_take, List.length_nil] at this; omega
      · intro h0
        cases s with
        | nil => exact absurd rfl hne
        | cons c r =>
          obtain ⟨j, hj⟩ : ∃ j, i = j + 1 := ⟨i - 1, by omega⟩
          rw [hj, List.take_succ_cons] at h0
          exact absurd h0 (by simpa using hh)
      · rw [List.getLast?_drop, if_neg (by omega)]; exact hlast
      · intro h
        have := congrArg List.length h
        rw [List.length_drop, List.length_nil] at this; omega
    · refine ⟨['0'], List.replicate ((-k).toNat - s.length) '0' ++ s, ?_, by simp, fun _ => rfl, ?_, Or.inr ⟨by simp [hne], by simp⟩⟩
      · intro c hc
        simp only [List.cons_append, List.nil_append, List.mem_cons, List.mem_append] at hc
        rcases hc with rfl | hc | hc
        · decide
        · exact zeros_digits _ c hc
        · exact hdig c hc
      · rw [List.getLast?_append]
        cases hg : s.getLast? with
        | none => exact absurd (List.getLast?_eq_none_iff.1 hg) hne
        | some c => rw [hg] at hlast; simpa using hlast

theorem positional_numeral (d : Nat) (k : Int) (h : Plain (positional d k)) : Numeral (positional d k) (d * (10:ℚ) ^ k) := by
  obtain ⟨-, d', k', hp, h1, h2⟩ := positional_parse d k
  refine numeral_iff.2 ⟨d', k', decimal_of_read_plain ((parseDecimal_iff _ _ _).1 hp) ?_, ?_⟩
  · obtain ⟨ip, fp, hd, -, -, -, h⟩ := h
    have hc : ∀ c ∈ positional d k, ('0' ≤ c ∧ c ≤ '9') ∨ c = '.' := by
      intro c hc
      rcases h with ⟨rfl, h⟩ | ⟨-, h⟩
      · rw [h] at hc; exact .inl (hd c (by simp [hc]))
      · rw [h] at hc
        simp only [List.mem_append, List.mem_cons] at hc
        rcases hc with hc | rfl | hc
        · exact .inl (hd c (by simp [hc]))
        · exact .inr rfl
        · exact .inl (hd c (by simp [hc]))
    intro c hm
    rcases hc c hm with h | rfl
    · constructor <;> rintro rfl <;> exact absurd h (by decide)
    · exact ⟨by decide, by decide⟩
  · rw [ten_zpow_split, ten_zpow_split, h1, h2]

/-- What a text of the given number must be to read back as the float. -/
theorem reads_of_text {s : String} {neg : Bool} {body : List Char} {q : ℚ} {x : F64} {neg' : Bool} {m : Nat} {e : Int}
    (hs : Signed s neg body) (hq : Numeral body q) (hl : body.length ≤ 65000) (h : (Value.string s).tryInto .f64 = .ok x)
    (hx : x.1 = .fin neg' m e) :
    ∃ c, Reads neg' m e c ∧ decVal c = q := by
  obtain ⟨d, k, hd, rfl⟩ := numeral_iff.1 hq
  have hp : parseF64 s = some (F64.ofDecimal neg d k) := by
    obtain ⟨k', hr, he⟩ := decimal_read hd
    rw [parseF64_signed hs (numeral_unsigned hr), parseBody_decimal hr, he hl]
  have hxe : F64.ofDecimal neg d k = x := by
    have := toF64_some hp
    rw [this] at h; exact Except.ok.inj h
  have hr : (F64.ofDecimal neg d k).1 = .fin neg' m e := by rw [hxe, hx]
  have hneg : neg' = neg := round_sign fmt64 neg _ _ hr
  subst hneg
  exact ⟨(d, k), hr, rfl⟩

/-- **C83.** The text of a float other than zero: its sign, then plain notation of a number of at most 17 significant digits that reads
back as the float; no numeral (of at most 65000 characters) for a number of fewer digits reads back, and of those with as few none is nearer to the float. -/
theorem C83_float_shortest (x : F64) (neg : Bool) (m : Nat) (e : Int) (hx : x.1 = .fin neg m e) (hm : m ≠ 0) :
    ∃ s body q n, (Value.float x).tryInto .string = .ok s ∧ s.toList = (if neg then '-' :: body else body) ∧
      Plain body ∧ Numeral body q ∧ (Value.string s).tryInto .f64 = .ok x ∧ n ≤ 17 ∧ WithDigits n q ∧
      (∀ s' neg' body' q', Signed s' neg' body' → Numeral body' q' → body'.length ≤ 65000 → (Value.string s').tryInto .f64 = .ok x →
        (∀ n', WithDigits n' q' → n ≤ n') ∧
        (WithDigits n q' → |(m:ℚ) * (2:ℚ) ^ e - q| ≤ |(m:ℚ) * (2:ℚ) ^ e - q'|)) := by
  have hc : fmt64.Canon (.fin neg m e) := hx ▸ x.2
  have hsh := shortestDec_shortest neg m e hc (Nat.pos_of_ne_zero hm)
  have htext : x.toText = String.ofList (if neg then '-' :: positional (shortestDec neg m e).1 (shortestDec neg m e).2
      else positional (shortestDec neg m e).1 (shortestDec neg m e).2) := by
    unfold F64.toText
    rw [hx]
    simp only [hm, if_false]
  generalize shortestDec neg m e = c0 at hsh htext
  obtain ⟨n, n0, n17, hlt, hread, hmin, hnear⟩ := hsh
  have hd10 : c0.1 % 10 ≠ 0 := by
    intro h0
    have hval : decVal (c0.1 / 10, c0.2 + 1) = decVal c0 := by
      unfold decVal
      simp only
      rw [zpow_add₀ (by norm_num), zpow_one]
      have : c0.1 = c0.1 / 10 * 10 := by omega
      conv_rhs => rw [this]
      push_cast; ring
    have hr' := reads_congr hread hval.symm
    have hlt' : c0.1 / 10 < 10 ^ (n - 1) := by
      have : 10 ^ n = 10 ^ (n - 1) * 10 := by rw [← Nat.pow_succ]; congr 1; omega
      omega
    have := hmin _ (n - 1) hr' hlt'
    omega
  refine ⟨x.toText, positional c0.1 c0.2, decVal c0, n, rfl, ?_,
    positional_plain _ _ hd10, positional_numeral _ _ (positional_plain _ _ hd10), ?_, n17, ⟨_, _, hlt, rfl⟩, ?_⟩
  · rw [htext, String.toList_ofList]
  · exact toF64_some (parse_toText x)
  · intro s' neg' body' q' hs' hq' hl' h'
    obtain ⟨c, hcr, rfl⟩ := reads_of_text hs' hq' hl' h' hx
    constructor
    · rintro n' ⟨d, k, hd, hv⟩
      exact hmin (d, k) n' (reads_congr hcr hv) hd
    · rintro ⟨d, k, hd, hv⟩
      rw [hv]
      exact hnear (d, k) (reads_congr hcr hv) hd

/-- **C83.** The text of an integer: `-` if it is negative, then its digits without leading zeros. -/
theorem C83_integer (v : Value) (n : Int) (src : String) (hv : integerOf v = some (n, src)) :
    ∃ s ds, v.tryInto .string = .ok s ∧ s.toList = (if n < 0 then '-' :: ds else ds) ∧ DigitsSpell ds n.natAbs ∧ NoLeadingZero ds := by
  have key : ∀ k : Int, ∃ ds, (String.ofList (decInt k)).toList = (if k < 0 then '-' :: ds else ds) ∧ DigitsSpell ds k.natAbs ∧ NoLeadingZero ds := by
    intro k
    refine ⟨decNat k.natAbs, by rw [String.toList_ofList]; rfl, decNat_spells _, ?_⟩
    intro h
    rcases Nat.eq_zero_or_pos k.natAbs with h0 | h0
    · rw [h0]; rfl
    · exact absurd h (decNat_bounds _ h0).2.2
  cases v <;> simp only [integerOf, Option.some.injEq, Prod.mk.injEq, reduceCtorEq] at hv
  all_goals
    obtain ⟨rfl, rfl⟩ := hv
    obtain ⟨ds, h⟩ := key _
    exact ⟨_, ds, rfl, h⟩

/-- **C83.** The fixed texts. -/
theorem C83_words :
    (Value.boolean true).tryInto .string = .ok "true" ∧ (Value.boolean false).tryInto .string = .ok "false" ∧
    (∀ s, (Value.string s).tryInto .string = .ok s) ∧
    (∀ x : F64, x.1 = .nan → (Value.float x).tryInto .string = .ok "NaN") ∧
    (∀ x : F64, x.1 = .inf false → (Value.float x).tryInto .string = .ok "inf") ∧
    (∀ x : F64, x.1 = .inf true → (Value.float x).tryInto .string = .ok "-inf") ∧
    (∀ (x : F64) e, x.1 = .fin false 0 e → (Value.float x).tryInto .string = .ok "0") ∧
    (∀ (x : F64) e, x.1 = .fin true 0 e → (Value.float x).tryInto .string = .ok "-0") ∧
    Value.none.display = "none" := by
  refine ⟨rfl, rfl, fun s => rfl, ?_, ?_, ?_, ?_, ?_, by rw [Value.display]⟩ <;> intro x
  · intro h; simp only [Value.tryInto, Value.tryIntoString, F64.toText, h]
  · intro h; simp only [Value.tryInto, Value.tryIntoString, F64.toText, h]
  · intro h; simp only [Value.tryInto, Value.tryIntoString, F64.toText, h]
  · intro e h; simp only [Value.tryInto, Value.tryIntoString, F64.toText, h]; rfl
  · intro e h; simp only [Value.tryInto, Value.tryIntoString, F64.toText, h]; rfl

/-- **C83.** The text of a boolean reads back as it. -/
theorem C83_bool_back (b : Bool) : ∃ s, (Value.boolean b).tryInto .string = .ok s ∧ (Value.string s).tryInto .bool = .ok b := by
  cases b
  · exact ⟨"false", rfl, by decide⟩
  · exact ⟨"true", rfl, by decide⟩

/-- 1/10 rounded to 53 bits meets the hypotheses: its text is `0.1`, of one digit. -/
example : ∃ x : F64, x.1 = .fin false 7205759403792794 (-56) ∧ (7205759403792794 : Nat) ≠ 0 ∧ (Value.float x).tryInto .string = .ok "0.1" :=
  ⟨⟨.fin false 7205759403792794 (-56), by decide⟩, rfl, by decide, by decide +kernel⟩
example : Plain "0.1".toList := ⟨['0'], ['1'], by decide, by decide, fun _ => rfl, by decide, Or.inr ⟨by decide, rfl⟩⟩
example : ¬ Plain "01".toList := by
  rintro ⟨ip, fp, -, h0, h1, -, ⟨-, h2⟩ | ⟨-, h2⟩⟩
  · subst h2; exact absurd (h1 rfl) (by decide)
  · have : '.' ∈ "01".toList := by rw [h2]; simp
    exact absurd this (by decide)

/-- The shortest text, for the float nearest to one tenth. -/
example : ∃ s body q n, (Value.float ⟨.fin false 7205759403792794 (-56), by decide⟩).tryInto .string = .ok s ∧ s.toList = body ∧
    Plain body ∧ Numeral body q ∧ n ≤ 17 ∧ WithDigits n q := by
  obtain ⟨s, body, q, n, h1, h2, h3, h4, -, h5, h6, -⟩ := C83_float_shortest ⟨.fin false 7205759403792794 (-56), by decide⟩ false 7205759403792794 (-56) rfl (by decide)
  exact ⟨s, body, q, n, h1, by simpa using h2, h3, h4, h5, h6⟩

example : ∃ s ds, (Value.longInteger ⟨-170, by decide⟩).tryInto .string = .ok s ∧ s.toList = '-' :: ds ∧ DigitsSpell ds 170 ∧ NoLeadingZero ds := by
  obtain ⟨s, ds, h1, h2, h3, h4⟩ := C83_integer (.longInteger ⟨-170, by decide⟩) (-170) "i128" rfl
  exact ⟨s, ds, h1, by simpa using h2, h3, h4⟩

/-- Negative zero keeps its sign, whatever its exponent. -/
example : (Value.float ⟨.fin true 0 (-1074), by decide⟩).tryInto .string = .ok "-0" :=
  C83_words.2.2.2.2.2.2.2.1 ⟨.fin true 0 (-1074), by decide⟩ (-1074) rfl

end Verif.Props
