import Verif.Spec.Quoting
import Verif.Props.EnvSettings
import Verif.Props.ScalarText
import Verif.Props.Blame
/-!
# C133: a setting and its text mean the same, or not
-/
namespace Verif.Props
open Spec

/-! ## A spelled integer, read as a float -/

theorem spells_float {t : IntTy} {s : String} {n : Int} (h : Spells t s n) :
    ∃ neg, parseF64 s = some (F64.ofDecimal neg n.natAbs 0) ∧ (n ≠ 0 → neg = decide (n < 0)) ∧
      (neg = true ↔ s.toList.head? = some '-') ∧ (neg = true → isSigned t = true) := by
  obtain ⟨ds, m, hd, h⟩ := h
  have hr : DecimalRead ds m 0 := ⟨ds, [], [], 0, by simpa using hd, Or.inl ⟨rfl, rfl⟩, Or.inl ⟨rfl, by simp⟩, by simp⟩
  have hu := numeral_unsigned hr
  have hh : ds.head? ≠ some '-' := by
    intro hc
    cases ds with
    | nil => cases hc
    | cons c r => cases hc; exact (hu r).1 rfl
  rcases h with ⟨h, rfl⟩ | ⟨h, rfl⟩ | ⟨ht, h, rfl⟩
  · refine ⟨false, ?_, ?_, ?_, by simp⟩
    · rw [parseF64_signed (neg := false) (Or.inr ⟨rfl, Or.inr h⟩) hu, parseBody_decimal hr]; rfl
    · intro _; simp
    · rw [h]; simpa using hh
  · refine ⟨false, ?_, ?_, ?_, by simp⟩
    · rw [parseF64_signed (neg := false) (Or.inr ⟨rfl, Or.inl h⟩) hu, parseBody_decimal hr]; rfl
    · intro _; simp
    · rw [h]; simp
  · refine ⟨true, ?_, ?_, ?_, fun _ => ht⟩
    · rw [parseF64_signed (neg := true) (Or.inl ⟨rfl, h⟩) hu, parseBody_decimal hr]; simp
    · intro hn; symm; rw [decide_eq_true_iff]; omega
    · rw [h]; simp

theorem ofInt_decimal (n : Int) : F64.ofInt n = F64.ofDecimal (decide (n < 0)) n.natAbs 0 := by
  apply Subtype.ext
  show fmt64.round _ _ _ = fmt64.round _ _ _
  simp

/-- The text of a float that spells an integer: the integer is the float's value after rounding. -/
theorem spelled_near {t : IntTy} {x : F64} {n : Int} (h : Spells t x.toText n) :
    ∃ neg m e, x.1 = .fin neg m e ∧ Reads neg m e (n.natAbs, 0) ∧ (n ≠ 0 → neg = decide (n < 0)) ∧ (neg = true → isSigned t = true) := by
  obtain ⟨neg, hp, h1, -, h3⟩ := spells_float h
  rw [parse_toText, Option.some.injEq] at hp
  have hx : x.1 = fmt64.round neg n.natAbs 1 := by
    rw [hp]; show fmt64.round _ _ _ = _; simp
  cases hc : x.1 with
  | nan => rw [hc] at hx; exact absurd hx.symm (round_ne_nan _ _ _ _)
  | inf s =>
    exfalso
    rw [F64.toText, hc] at h
    obtain ⟨ds, m, ⟨hne, hd, -⟩, hs⟩ := h
    have h0 : ∀ c ∈ ds, c ∈ ['0','1','2','3','4','5','6','7','8','9'] → True := fun _ _ _ => trivial
    cases s <;> simp only [] at hs
    · rcases hs with ⟨hs, -⟩ | ⟨hs, -⟩ | ⟨-, hs, -⟩
      · subst hs; exact absurd (hd 'i' (by decide)) (by decide)
      · cases hs
      · cases hs
    · rcases hs with ⟨hs, -⟩ | ⟨hs, -⟩ | ⟨-, hs, -⟩
      · subst hs; exact absurd (hd 'i' (by decide)) (by decide)
      · cases hs
      · have hs : ds = ['i', 'n', 'f'] := (List.cons.inj hs).2.symm
        subst hs; exact absurd (hd 'i' (by decide)) (by decide)
  | fin neg' m e =>
    have hs : neg' = neg := by rw [hc] at hx; exact (round_sign fmt64 neg _ _ hx.symm)
    subst hs
    refine ⟨neg', m, e, rfl, ?_, h1, h3⟩
    unfold Reads
    rw [← hp, hc]

theorem reads_nat {neg : Bool} {m : Nat} {e : Int} {k : Nat} (h : Reads neg m e (k, 0)) (m' : Nat) (e' : Int) (hm : m' < 2 ^ 53) (he : fmt64.emin ≤ e') :
    |(k:ℚ) - (m:ℚ) * (2:ℚ) ^ e| ≤ |(k:ℚ) - (m':ℚ) * (2:ℚ) ^ e'| := by
  have hr : fmt64.round neg k 1 = .fin neg m e := by
    have : (F64.ofDecimal neg k 0).1 = .fin neg m e := h
    rw [← this]; show _ = fmt64.round _ _ _; simp
  simpa using round_nearest fmt64 fmt64_ok neg k 1 (by decide) hr m' e' hm he

/-- An integer of at most 2^53 is read exactly. -/
theorem reads_small {neg : Bool} {m : Nat} {e : Int} {k : Nat} (h : Reads neg m e (k, 0)) (hk : k ≤ 2 ^ 53) : (m:ℚ) * (2:ℚ) ^ e = k := by
  rcases Nat.lt_or_eq_of_le hk with hk | rfl
  · have := reads_nat h k 0 hk (by decide)
    simp only [zpow_zero, mul_one, sub_self, abs_zero] at this
    have := abs_eq_zero.1 (le_antisymm this (abs_nonneg _))
    linarith
  · have := reads_nat h (2 ^ 52) 1 (by decide) (by decide)
    have e2 : ((2 ^ 52 : Nat) : ℚ) * (2:ℚ) ^ (1:Int) = ((2 ^ 53 : Nat) : ℚ) := by norm_num
    rw [e2, sub_self, abs_zero] at this
    have := abs_eq_zero.1 (le_antisymm this (abs_nonneg _))
    linarith

theorem reads_big {neg : Bool} {m : Nat} {e : Int} {k : Nat} (h : Reads neg m e (k, 0)) (hk : 2 ^ 53 ≤ k) : (2:ℚ) ^ 53 ≤ (m:ℚ) * (2:ℚ) ^ e := by
  have := reads_nat h (2 ^ 52) 1 (by decide) (by decide)
  have e2 : ((2 ^ 52 : Nat) : ℚ) * (2:ℚ) ^ (1:Int) = (2:ℚ) ^ 53 := by norm_num
  rw [e2] at this
  have hk' : (2:ℚ) ^ 53 ≤ (k:ℚ) := by exact_mod_cast hk
  rw [abs_of_nonneg (by linarith : (0:ℚ) ≤ (k:ℚ) - 2 ^ 53)] at this
  have := le_trans (le_abs_self _) this
  linarith

/-- A float of at least 2^53 is a whole number. -/
theorem big_whole {neg : Bool} {m : Nat} {e : Int} (hc : fmt64.Canon (.fin neg m e)) (h : (2:ℚ) ^ 53 ≤ (m:ℚ) * (2:ℚ) ^ e) : 0 ≤ e := by
  by_contra he
  have hm : m < 2 ^ 53 := hc.1
  have h1 : (2:ℚ) ^ e ≤ 1 := zpow_le_one_of_nonpos₀ (by norm_num) (by omega)
  have h2 : (m:ℚ) < (2:ℚ) ^ 53 := by exact_mod_cast hm
  have h3 : (m:ℚ) * (2:ℚ) ^ e ≤ m := by
    have : (0:ℚ) ≤ m := by positivity
    nlinarith
  linarith


theorem text_of_float {x : F64} {neg : Bool} {m : Nat} {e : Int} (hx : x.1 = .fin neg m e) (hm : m ≠ 0) :
    ∃ d k n, x.toText = String.ofList (if neg then '-' :: positional d k else positional d k) ∧ Reads neg m e (d, k) ∧ d % 10 ≠ 0 ∧
      0 < n ∧ n ≤ 17 ∧ d < 10 ^ n ∧ (∀ c : Nat × Int, Reads neg m e c → c.1 < 10 ^ n →
        |(m:ℚ) * (2:ℚ) ^ e - decVal (d, k)| ≤ |(m:ℚ) * (2:ℚ) ^ e - decVal c|) := by
  have hc : fmt64.Canon (.fin neg m e) := hx ▸ x.2
  have hsh := shortestDec_shortest neg m e hc (Nat.pos_of_ne_zero hm)
  have htext : x.toText = String.ofList (if neg then '-' :: positional (shortestDec neg m e).1 (shortestDec neg m e).2
      else positional (shortestDec neg m e).1 (shortestDec neg m e).2) := by
    unfold F64.toText
    rw [hx]
    simp only [hm, if_false]
  generalize shortestDec neg m e = c0 at hsh htext
  obtain ⟨n, n0, n17, hlt, hread, hmin, hnear⟩ := hsh
  refine ⟨c0.1, c0.2, n, htext, hread, ?_, n0, n17, hlt, hnear⟩
  intro h0
  have hval : decVal (c0.1 / 10, c0.2 + 1) = decVal c0 := by
    unfold decVal
    simp only
    rw [zpow_add₀ (by norm_num), zpow_one]
    have : c0.1 = c0.1 / 10 * 10 := by omega
    conv_rhs => rw [this]
    push_cast; ring
  have hr' := reads_congr hread hval.symm
  have hlt' : c0.1 / 10 < 10 ^ (n - 1) := by
    have : 10 ^ n = 10 ^ (n - 1) * 10 := by rw [← Nat.pow_succ]; congr 1; omega
    omega
  have := hmin _ (n - 1) hr' hlt'
  omega

theorem positional_spells {d : Nat} {k : Int} (hk : 0 ≤ k) : DigitsSpell (positional d k) (d * 10 ^ k.toNat) := by
  unfold positional
  simp only [hk, if_true]
  refine digitsSpell_val.2 ⟨by simp [decNat_ne_nil d], ?_, by rw [digitsVal_app, digitsVal_replicate, decNat_val]; simp⟩
  intro c hc
  rcases List.mem_append.1 hc with hc | hc
  · exact decNat_digits d c hc
  · exact zeros_digits _ c hc

/-- Not a multiple of ten, with a negative power of ten: not a whole number. -/
theorem tenth_not_whole {d : Nat} {k : Int} (hd : d % 10 ≠ 0) (hk : k < 0) (N : Nat) : decVal (d, k) ≠ N := by
  intro h
  have hj : k = -((-k).toNat : Int) := by omega
  obtain ⟨j, hj1⟩ : ∃ j, (-k).toNat = j + 1 := ⟨(-k).toNat - 1, by omega⟩
  have h1 : (d:ℚ) * (10:ℚ) ^ k = N := h
  rw [hj, zpow_neg, zpow_natCast, ← div_eq_mul_inv, div_eq_iff (by positivity), hj1] at h1
  have h2 : d = N * 10 ^ (j + 1) := by exact_mod_cast h1
  rw [pow_succ, ← mul_assoc] at h2
  generalize N * 10 ^ j = a at h2
  omega

/-- **The text of a small whole float** is the number itself. -/
theorem whole_text {x : F64} {neg : Bool} {m : Nat} {e : Int} (hx : x.1 = .fin neg m e) (hm : m ≠ 0) {N : Nat} (hN : (m:ℚ) * (2:ℚ) ^ e = N)
    (hle : N ≤ 2 ^ 53) : ∃ ds, x.toText = String.ofList (if neg then '-' :: ds else ds) ∧ DigitsSpell ds N := by
  have hc : fmt64.Canon (.fin neg m e) := hx ▸ x.2
  obtain ⟨d, k, n, htext, hread, hd, hn0, -, hlt, hnear⟩ := text_of_float hx hm
  have hNr : Reads neg m e (N, 0) := by
    show (F64.ofDecimal neg N 0).1 = _
    exact round_exact fmt64 fmt64_ok neg _ _ (by simp) hc (by simp [hN])
  have hq0 : 0 < d := by omega
  have near : N < 10 ^ n → decVal (d, k) = N := by
    intro hdig
    have hz := hnear (N, 0) hNr hdig
    rw [hN] at hz
    have h0 : decVal (N, 0) = N := by simp [decVal]
    rw [h0, sub_self, abs_zero] at hz
    have := abs_eq_zero.1 (le_antisymm hz (abs_nonneg _)); linarith
  have h10 : 10 ^ n = 10 ^ (n - 1) * 10 := by rw [← Nat.pow_succ]; congr 1; omega
  have hdv : decVal (d, k) = N := by
    rcases lt_or_ge k 0 with hk | hk
    · -- the shortest text has a fraction, so it is below 10^(n-1), and so is the number
      refine near ?_
      by_contra hge
      have hge : 10 ^ n ≤ N := by omega
      have h10q : (10:ℚ) ^ n = (10:ℚ) ^ (n - 1) * 10 := by exact_mod_cast h10
      have h1 : decVal (d, k) < (10:ℚ) ^ (n - 1) := by
        unfold decVal
        simp only
        have hk1 : (10:ℚ) ^ k ≤ 10⁻¹ := by
          rw [← zpow_neg_one]
          exact zpow_le_zpow_right₀ (by norm_num) (by omega)
        have hd1 : (d:ℚ) < (10:ℚ) ^ n := by exact_mod_cast hlt
        have hkp : (0:ℚ) < (10:ℚ) ^ k := by positivity
        have hdp : (0:ℚ) < d := by exact_mod_cast hq0
        calc (d:ℚ) * (10:ℚ) ^ k ≤ d * 10⁻¹ := by nlinarith
          _ < (10:ℚ) ^ (n - 1) := by rw [h10q] at hd1; linarith
      have hr : fmt64.round neg (d * 10 ^ k.toNat) (10 ^ (-k).toNat) = .fin neg m e := hread
      have hM : (10 ^ (n - 1) : Nat) < 2 ^ 53 := by
        have : 0 < 10 ^ (n - 1) := by positivity
        omega
      have hnr := round_nearest fmt64 fmt64_ok neg _ _ (by positivity) hr (10 ^ (n - 1)) 0 hM (by decide)
      rw [← decVal_frac (d, k), hN, zpow_zero, mul_one] at hnr
      have hN1 : (10:ℚ) ^ n ≤ N := by exact_mod_cast hge
      have hp : (0:ℚ) < (10:ℚ) ^ (n - 1) := by positivity
      push_cast at hnr
      rw [abs_of_neg (by linarith), abs_of_neg (by linarith)] at hnr
      linarith
    · have hv : decVal (d, k) = ((d * 10 ^ k.toNat : Nat) : ℚ) := by
        rw [decVal_frac]
        have : (-k).toNat = 0 := by omega
        simp [this]
      have hr2 : Reads neg m e (d * 10 ^ k.toNat, 0) := reads_congr hread (by rw [hv]; simp [decVal])
      rcases le_or_gt (d * 10 ^ k.toNat) (2 ^ 53) with hs | hb
      · rw [hv, ← reads_small hr2 hs, hN]
      · -- just above 2^53, where only 2^53 + 1 is read as 2^53
        refine near ?_
        have hN53 : N = 2 ^ 53 := by
          have h1 := reads_big hr2 hb.le
          rw [hN] at h1
          have : 2 ^ 53 ≤ N := by exact_mod_cast h1
          omega
        have hu := reads_nat hr2 (2 ^ 52 + 1) 1 (by decide) (by decide)
        rw [hN, hN53] at hu
        have hb' : ((2 ^ 53 : Nat) : ℚ) < ((d * 10 ^ k.toNat : Nat) : ℚ) := by exact_mod_cast hb
        have e2 : ((2 ^ 52 + 1 : Nat) : ℚ) * (2:ℚ) ^ (1:Int) = ((2 ^ 53 : Nat) : ℚ) + 2 := by norm_num
        rw [e2, abs_of_pos (by linarith)] at hu
        have hM : d * 10 ^ k.toNat ≤ 2 ^ 53 + 1 := by
          by_contra hM
          have hM : ((2 ^ 53 + 2 : Nat) : ℚ) ≤ ((d * 10 ^ k.toNat : Nat) : ℚ) := by exact_mod_cast (by omega : 2 ^ 53 + 2 ≤ d * 10 ^ k.toNat)
          have e3 : ((2 ^ 53 + 2 : Nat) : ℚ) = ((2 ^ 53 : Nat) : ℚ) + 2 := by norm_num
          rw [e3] at hM
          rw [abs_of_nonneg (by linarith)] at hu
          linarith
        have hk0 : k.toNat = 0 := by
          by_contra hk0
          obtain ⟨j, hj⟩ : ∃ j, k.toNat = j + 1 := ⟨k.toNat - 1, by omega⟩
          have e10 : d * 10 ^ (j + 1) = d * 10 ^ j * 10 := by rw [pow_succ, mul_assoc]
          rw [hj, e10] at hM hb
          generalize d * 10 ^ j = a at hM hb
          omega
        rw [hk0, pow_zero, mul_one] at hb
        omega
  have hk : 0 ≤ k := by
    by_contra hk
    exact tenth_not_whole hd (by omega) N hdv
  refine ⟨positional d k, htext, ?_⟩
  have : N = d * 10 ^ k.toNat := by
    rw [decVal_frac] at hdv
    have h1 : (-k).toNat = 0 := by omega
    simp only [h1, pow_zero, Nat.cast_one, div_one] at hdv
    exact_mod_cast hdv.symm
  rw [this]
  exact positional_spells hk


/-! ## A float whose text spells an integer -/

theorem natAbs_rat (n : Int) : ((n.natAbs : Nat) : ℚ) = |(n:ℚ)| := by rw [Nat.cast_natAbs, Int.cast_abs]

theorem ratOf_signed {neg : Bool} {m : Nat} {e : Int} {n : Int} (h : (m:ℚ) * (2:ℚ) ^ e = (n.natAbs : Nat)) (hs : n ≠ 0 → neg = decide (n < 0)) :
    ratOf (.fin neg m e) = some (n : ℚ) := by
  simp only [ratOf, Option.some.injEq]
  rw [mul_assoc, h]
  by_cases h0 : n = 0
  · subst h0; simp
  · rw [hs h0]
    rcases lt_or_ge n 0 with h1 | h1
    · have : ((n.natAbs : Nat) : ℚ) = -(n:ℚ) := by rw [natAbs_rat]; exact abs_of_neg (by exact_mod_cast h1)
      rw [this]; simp [h1]
    · have : ((n.natAbs : Nat) : ℚ) = (n:ℚ) := by rw [natAbs_rat]; exact abs_of_nonneg (by exact_mod_cast h1)
      rw [this]; simp [not_lt.2 h1]

theorem spelled_whole {t : IntTy} {x : F64} {n : Int} (h : Spells t x.toText n) :
    ∃ z : Int, ratOf x.1 = some (z : ℚ) ∧ (n.natAbs ≤ 2 ^ 53 → z = n) ∧ (z < 0 → isSigned t = true) := by
  obtain ⟨neg, m, e, hx, hr, hs, ht⟩ := spelled_near h
  rw [hx]
  have hz : ∀ z : Int, ratOf (.fin neg m e) = some (z : ℚ) → z < 0 → isSigned t = true := by
    intro z hz h0
    apply ht
    by_contra hn
    have hn : neg = false := by simpa using hn
    subst hn
    simp only [ratOf, Option.some.injEq, Bool.false_eq_true, if_false, one_mul] at hz
    have h1 : (0:ℚ) ≤ (m:ℚ) * (2:ℚ) ^ e := by positivity
    rw [hz] at h1
    have : (0:Int) ≤ z := by exact_mod_cast h1
    omega
  rcases le_or_gt n.natAbs (2 ^ 53) with h1 | h1
  · have h2 := ratOf_signed (reads_small hr h1) hs
    exact ⟨n, h2, fun _ => rfl, hz n h2⟩
  · have he := big_whole (hx ▸ x.2) (reads_big hr h1.le)
    have h2 : ratOf (.fin neg m e) = some (((if neg then -1 else 1) * (m:Int) * 2 ^ e.toNat : Int) : ℚ) := by
      simp only [ratOf, Option.some.injEq]
      have : (2:ℚ) ^ e = (2:ℚ) ^ e.toNat := by rw [← zpow_natCast]; congr 1; omega
      rw [this]
      cases neg <;> simp
    exact ⟨_, h2, fun h => by omega, hz _ h2⟩

/-- At most 17 digits, then zeros. -/
theorem spelled_digits {t : IntTy} {x : F64} {n : Int} (h : Spells t x.toText n) (hn : n ≠ 0) :
    ∃ d j : Nat, d < 10 ^ 17 ∧ n.natAbs = d * 10 ^ j := by
  obtain ⟨neg, m, e, hx, hr, hs, -⟩ := spelled_near h
  have hm : m ≠ 0 := by
    rintro rfl
    rcases le_or_gt n.natAbs (2 ^ 53) with h1 | h1
    · have := reads_small hr h1
      rw [Nat.cast_zero, zero_mul] at this
      have : n.natAbs = 0 := by exact_mod_cast this.symm
      omega
    · have := reads_big hr h1.le
      norm_num at this
  obtain ⟨d, k, l, htext, -, -, -, hl, hlt, -⟩ := text_of_float hx hm
  have hd : d < 10 ^ 17 := lt_of_lt_of_le hlt (Nat.pow_le_pow_right (by decide) hl)
  obtain ⟨ds, N, ⟨hne, hdig, hN⟩, hsp⟩ := h
  have hNn : n.natAbs = N := by rcases hsp with ⟨-, h⟩ | ⟨-, h⟩ | ⟨-, -, h⟩ <;> omega
  obtain ⟨⟨c, r, hcr, hc⟩, -⟩ := positional_parse d k
  have hpos : positional d k = ds := by
    rw [htext, String.toList_ofList] at hsp
    have nosign : ∀ l : List Char, positional d k ≠ '+' :: l ∧ positional d k ≠ '-' :: l := by
      intro l; rw [hcr]
      constructor <;> (intro he; cases he; exact absurd hc (by decide))
    cases neg
    · simp only [Bool.false_eq_true, if_false] at hsp
      rcases hsp with ⟨h, -⟩ | ⟨h, -⟩ | ⟨-, h, -⟩
      · exact h
      · exact absurd h (nosign _).1
      · exact absurd h (nosign _).2
    · simp only [if_true] at hsp
      rcases hsp with ⟨h, -⟩ | ⟨h, -⟩ | ⟨-, h, -⟩
      · exact absurd (hdig '-' (by rw [← h]; simp)) (by decide)
      · exact absurd (List.cons.inj h).1 (by decide)
      · exact (List.cons.inj h).2
  have hk : 0 ≤ k := by
    by_contra hk
    have : '.' ∈ positional d k := by
      unfold positional
      simp only [hk, if_false]
      split <;> simp
    rw [hpos] at this
    exact absurd (hdig '.' this) (by decide)
  refine ⟨d, k.toNat, hd, ?_⟩
  have h1 := positional_spells (d := d) hk
  rw [hpos] at h1
  rw [hNn, hN, ← h1.2.2]

theorem spelled_abs {t : IntTy} {x : String} {neg : Bool} {ds : List Char} {N : Nat} {n : Int}
    (htext : x = String.ofList (if neg then '-' :: ds else ds)) (hds : DigitsSpell ds N) (h : Spells t x n) : n.natAbs = N := by
  obtain ⟨ds', N', hds', hsp⟩ := h
  have hr' : n.natAbs = N' := by rcases hsp with ⟨-, h⟩ | ⟨-, h⟩ | ⟨-, -, h⟩ <;> omega
  have nosign : ∀ l : List Char, ds ≠ '+' :: l ∧ ds ≠ '-' :: l := by
    intro l
    constructor <;> (intro h; subst h)
    · exact absurd (hds.2.1 '+' List.mem_cons_self) (by decide)
    · exact absurd (hds.2.1 '-' List.mem_cons_self) (by decide)
  have nosign' : ∀ l : List Char, ds' ≠ '-' :: l := by
    intro l h; subst h
    exact absurd (hds'.2.1 '-' List.mem_cons_self) (by decide)
  have same : ds = ds' := by
    rw [htext, String.toList_ofList] at hsp
    cases neg
    · simp only [Bool.false_eq_true, if_false] at hsp
      rcases hsp with ⟨h, -⟩ | ⟨h, -⟩ | ⟨-, h, -⟩
      · exact h
      · exact absurd h (nosign _).1
      · exact absurd h (nosign _).2
    · simp only [if_true] at hsp
      rcases hsp with ⟨h, -⟩ | ⟨h, -⟩ | ⟨-, h, -⟩
      · exact absurd h.symm (nosign' _)
      · exact absurd (List.cons.inj h).1 (by decide)
      · exact (List.cons.inj h).2
  subst same
  rw [hr', hds'.2.2, hds.2.2]

theorem trunc_int (n : Int) : trunc (n : ℚ) = n := by unfold trunc; split <;> simp

theorem text_int_ok {t : IntTy} {x : String} {r : IntOf t} : (Value.string x).tryInto (.int t) = .ok r ↔ Spells t x r.1 := by
  constructor
  · intro h; exact ((C25_string_to_int t x r.1).2.1 r h).1
  · intro h
    obtain ⟨r', h1, h2⟩ := (C25_string_to_int t x r.1).1 h (inRange_self r)
    cases Subtype.ext h2
    exact h1

theorem text_int_error {t : IntTy} {x : String} (h : ∀ n, Spells t x n → ¬ InRange t n) :
    (Value.string x).tryInto (.int t) = .error (.conversionError "String" t.name "can't parse string") :=
  (C25_string_to_int t x 0).2.2 h

theorem int_f64 {v : Value} {n : Int} {src : String} (hi : integerOf v = some (n, src)) : v.tryInto .f64 = .ok (F64.ofInt n) := by
  cases v <;> simp only [integerOf, Option.some.injEq, Prod.mk.injEq, reduceCtorEq] at hi
  all_goals obtain ⟨rfl, rfl⟩ := hi; rfl

theorem ofInt_f64 (t : IntTy) (r : IntOf t) : (Value.ofInt t r).tryInto .f64 = .ok (F64.ofInt r.1) := by
  obtain ⟨src, h⟩ := integerOf_ofInt t r
  exact int_f64 h

theorem display_float (x : F64) : (Value.float x).display = x.toText := by rw [Value.display]

/-- **C133.** The text of a float, read as an integer. If the float is not a whole number (or NaN or infinite), it is refused. If it is a whole number up to 2^53
either way, it is that number — in range, and unless it is the minus of minus zero for an unsigned type. Beyond 2^53 the digits shown need not
be the number's, but they are those of an integer that is rounded to the same float. -/
theorem C133_float_text (x : F64) :
    ((∀ n : Int, ratOf x.1 ≠ some (n : ℚ)) → ∀ t, (Value.string (Value.float x).display).tryInto (.int t) =
      .error (.conversionError "String" t.name "can't parse string")) ∧
    (∀ n : Int, ratOf x.1 = some (n : ℚ) → n.natAbs ≤ 2 ^ 53 → ∀ t (r : IntOf t),
      (Value.string (Value.float x).display).tryInto (.int t) = .ok r ↔ r.1 = n ∧ ¬ ((∃ e, x.1 = .fin true 0 e) ∧ isSigned t = false)) ∧
    (∀ t (r : IntOf t), (Value.string (Value.float x).display).tryInto (.int t) = .ok r →
      (r.1 = 0 ∧ ratOf x.1 = some 0) ∨ (Value.ofInt t r).tryInto .f64 = .ok x) := by
  rw [display_float]
  refine ⟨fun h t => ?_, fun n hn hle t r => ?_, fun t r h => ?_⟩
  · refine text_int_error fun n hn _ => ?_
    obtain ⟨z, hz, -⟩ := spelled_whole hn
    exact h z hz
  · rw [text_int_ok]
    constructor
    · intro h
      constructor
      · by_cases hr0 : r.1.natAbs ≤ 2 ^ 53
        · obtain ⟨z, hz, hz', -⟩ := spelled_whole h
          rw [hn, Option.some.injEq] at hz
          have : n = z := by exact_mod_cast hz
          rw [this, hz' hr0]
        · exfalso
          obtain ⟨neg, m, e, hx, hrd, hs, -⟩ := spelled_near h
          have hb := reads_big hrd (by omega)
          rw [hx] at hn
          simp only [ratOf, Option.some.injEq] at hn
          have hN : (m:ℚ) * (2:ℚ) ^ e = (n.natAbs : Nat) := by
            have h0 : (0:ℚ) ≤ (m:ℚ) * (2:ℚ) ^ e := by positivity
            rw [natAbs_rat, ← hn, mul_assoc, abs_mul, abs_of_nonneg h0]
            cases neg <;> simp
          have hm : m ≠ 0 := by rintro rfl; norm_num at hb
          have h53 : n.natAbs = 2 ^ 53 := by
            rw [hN] at hb
            have : 2 ^ 53 ≤ n.natAbs := by exact_mod_cast hb
            omega
          obtain ⟨ds, htext, hds⟩ := whole_text hx hm hN hle
          have := spelled_abs htext hds h
          omega
      · rintro ⟨⟨e, he⟩, ht⟩
        obtain ⟨neg, m', e', hx, -, -, hsg⟩ := spelled_near h
        rw [he] at hx
        cases hx
        rw [hsg rfl] at ht; cases ht
    · rintro ⟨rfl, hz⟩
      cases hx : x.1 with
      | nan => rw [hx] at hn; cases hn
      | inf => rw [hx] at hn; cases hn
      | fin neg m e =>
        rw [hx] at hn
        simp only [ratOf, Option.some.injEq] at hn
        have hN : (m:ℚ) * (2:ℚ) ^ e = (r.1.natAbs : Nat) := by
          have h0 : (0:ℚ) ≤ (m:ℚ) * (2:ℚ) ^ e := by positivity
          rw [natAbs_rat, ← hn, mul_assoc, abs_mul, abs_of_nonneg h0]
          cases neg <;> simp
        by_cases hm : m = 0
        · subst hm
          have hr0 : r.1 = 0 := by
            have : (r.1:ℚ) = 0 := by rw [← hn]; simp
            exact_mod_cast this
          rw [hr0]
          unfold F64.toText
          rw [hx]
          simp only [if_true]
          refine ⟨['0'], 0, ⟨by simp, by decide, by decide⟩, ?_⟩
          cases neg
          · exact Or.inl ⟨by simp, rfl⟩
          · refine Or.inr (Or.inr ⟨?_, by simp, rfl⟩)
            by_contra hs
            exact hz ⟨⟨e, hx⟩, by simpa using hs⟩
        · obtain ⟨ds, htext, hds⟩ := whole_text hx hm hN hle
          rw [htext]
          refine ⟨ds, _, hds, ?_⟩
          have hpos : (0:ℚ) < (m:ℚ) * (2:ℚ) ^ e := by
            have : (0:ℚ) < m := by exact_mod_cast Nat.pos_of_ne_zero hm
            positivity
          rw [mul_assoc] at hn
          cases neg
          · refine Or.inl ⟨by simp, ?_⟩
            have : (0:ℚ) < (r.1:ℚ) := by rw [← hn]; simpa using hpos
            have : (0:Int) < r.1 := by exact_mod_cast this
            omega
          · have h0 : r.1 < 0 := by
              have : (r.1:ℚ) < 0 := by rw [← hn]; simpa using hpos
              exact_mod_cast this
            refine Or.inr (Or.inr ⟨?_, by simp, by omega⟩)
            by_contra hs
            have hs : isSigned t = false := by simpa using hs
            have := inRange_self r
            rw [InRange, hs] at this
            simp only [Bool.false_eq_true, if_false] at this
            omega
  · rw [text_int_ok] at h
    by_cases h0 : r.1 = 0
    · left
      obtain ⟨z, hz, hz', -⟩ := spelled_whole h
      have := hz' (by omega)
      exact ⟨h0, by rw [hz, this, h0]; simp⟩
    · right
      obtain ⟨neg, hp, h1, -, -⟩ := spells_float h
      rw [parse_toText, Option.some.injEq] at hp
      rw [hp, h1 h0, ← ofInt_decimal]
      exact ofInt_f64 t r

/-! ## The table -/

theorem display_int {v : Value} {n : Int} {src : String} (hv : integerOf v = some (n, src)) : v.display = String.ofList (decInt n) := by
  cases v <;> simp only [integerOf, Option.some.injEq, Prod.mk.injEq, reduceCtorEq] at hv
  all_goals obtain ⟨rfl, rfl⟩ := hv; rw [Value.display]; rfl

theorem int_range {v : Value} {n : Int} {src : String} (hi : integerOf v = some (n, src)) : InRange .i128 n ∨ InRange .u128 n := by
  rw [inRange_iff, inRange_iff]
  cases v <;> simp only [integerOf, Option.some.injEq, Prod.mk.injEq, reduceCtorEq] at hi
  all_goals
    obtain ⟨rfl, rfl⟩ := hi
    rename_i k
    have := k.2
    simp only [IntTy.lo, IntTy.hi] at this ⊢
    omega

theorem decInt_head (n : Int) : ∃ c r, decInt n = c :: r ∧ (('0' ≤ c ∧ c ≤ '9') ∨ c = '-') := by
  unfold decInt
  split
  · exact ⟨'-', _, rfl, Or.inr rfl⟩
  · obtain ⟨c, r, h⟩ := List.exists_cons_of_ne_nil (decNat_ne_nil n.natAbs)
    exact ⟨c, r, h, Or.inl (decNat_digits n.natAbs c (by rw [h]; simp))⟩

theorem floatText_head (x : F64) : ∃ c r, x.toText.toList = c :: r ∧ (('0' ≤ c ∧ c ≤ '9') ∨ c = '-' ∨ c = 'N' ∨ c = 'i') := by
  unfold F64.toText
  split
  · exact ⟨'N', _, rfl, by simp⟩
  · exact ⟨'i', _, rfl, by simp⟩
  · exact ⟨'-', _, rfl, by simp⟩
  · rename_i neg m e _
    simp only [String.toList_ofList]
    cases neg
    · simp only [Bool.false_eq_true, if_false]
      by_cases hm : m = 0
      · rw [if_pos hm]; exact ⟨'0', [], rfl, Or.inl (by decide)⟩
      · rw [if_neg hm]
        obtain ⟨⟨c, r, h, hc⟩, -⟩ := positional_parse (shortestDec false m e).1 (shortestDec false m e).2
        exact ⟨c, r, h, Or.inl hc⟩
    · exact ⟨'-', _, rfl, by simp⟩

/-- A text that begins with something else than a `t` or an `f` is no boolean. -/
theorem not_bool_text {s : String} {c : Char} {r : List Char} (hs : s.toList = c :: r) (hc : ('0' ≤ c ∧ c ≤ '9') ∨ c = '-' ∨ c = 'N' ∨ c = 'i') (b : Bool) :
    (Value.string s).tryInto .bool ≠ .ok b := by
  have hn : ∀ w : String, (w = "true" ∨ w = "false") → ¬ EqIgnoreAsciiCase s w := by
    rintro w hw ⟨-, h⟩
    have h57 : ('0' ≤ c ∧ c ≤ '9') → c.toNat ≤ 57 := fun h => by
      have := h.2; rw [Char.le_def, UInt32.le_iff_toNat_le] at this; exact this
    rcases hw with rfl | rfl
    · have := h 0 c 't' (by rw [hs]; rfl) (by rfl)
      rcases hc with hc | rfl | rfl | rfl
      · have hle := h57 hc
        have e : 't'.toNat = 116 := rfl
        rcases this with rfl | ⟨h1, -⟩ <;> omega
      all_goals exact absurd this (by decide)
    · have := h 0 c 'f' (by rw [hs]; rfl) (by rfl)
      rcases hc with hc | rfl | rfl | rfl
      · have hle := h57 hc
        have e : 'f'.toNat = 102 := rfl
        rcases this with rfl | ⟨h1, -⟩ <;> omega
      all_goals exact absurd this (by decide)
  rw [(C29_string_to_bool s).2.2 (hn _ (Or.inl rfl)) (hn _ (Or.inr rfl))]
  intro h; cases h

theorem char_53 : ∀ n < 256, (decNat n).head? = some (Char.ofNat n) ↔ n = 53 := by decide +kernel

/-- The float direction of the table. -/
theorem float_int_agrees (t : IntTy) (x : F64) : TextAgrees (.int t) (.float x) ↔ ShownWhole t x ∨ FloatRefused t x.1 := by
  have hsm : refusesBigFloats t = small t := by cases t <;> rfl
  unfold TextAgrees ShownWhole FloatRefused
  rw [display_float, hsm]
  have hrange : small t = true → ∀ n, InRange t n → n.natAbs ≤ 2 ^ 53 := by
    intro h n hn
    rw [inRange_iff] at hn
    cases t <;> simp only [small, Bool.false_eq_true, IntTy.lo, IntTy.hi] at h hn
    all_goals omega
  constructor
  · intro h
    cases hd : (Value.float x).tryIntoInt t with
    | error e =>
      right
      cases hx : x.1 with
      | nan => obtain ⟨r, h1, -⟩ := (C27_nan_inf t x).1 hx; rw [h1] at hd; cases hd
      | inf s =>
        obtain ⟨-, -, h3, h4, h5, -⟩ := C27_nan_inf t x
        by_cases hst : small t = true
        · exact Or.inl ⟨hst, Or.inl ⟨s, rfl⟩⟩
        · by_cases hu : t = .u128
          · subst hu
            cases s
            · obtain ⟨r, h1, -⟩ := h5 hx; rw [h1] at hd; cases hd
            · exact Or.inr ⟨rfl, Or.inl rfl⟩
          · have ht : t = .i64 ∨ t = .i128 ∨ t = .u64 := by cases t <;> simp_all [small]
            cases s
            · obtain ⟨r, h1, -⟩ := h3 hx ht; rw [h1] at hd; cases hd
            · obtain ⟨r, h1, -⟩ := h4 hx ht; rw [h1] at hd; cases hd
      | fin neg m e =>
        obtain ⟨q, hq⟩ : ∃ q, ratOf x.1 = some q := by rw [hx]; exact ⟨_, rfl⟩
        obtain ⟨h1, h2, h3, h4⟩ := C27_float_to_int t x q hq
        rw [hx] at hq
        by_cases hu : t = .u128
        · subst hu
          obtain ⟨g1, g2, g3⟩ := C27_float_to_u128 x q (hx ▸ hq)
          refine Or.inr ⟨rfl, Or.inr ⟨q, hq, ?_⟩⟩
          by_contra hneg
          have h0 : 0 ≤ trunc q := by
            unfold trunc
            split
            · exact Int.floor_nonneg.2 (by assumption)
            · have : (-1 : Int) < ⌈q⌉ := Int.lt_ceil.2 (by push_cast; linarith)
              omega
          rcases lt_or_ge (trunc q) (2 ^ 127) with hb | hb
          · obtain ⟨r, g, -⟩ := g1 h0 hb; rw [g] at hd; cases hd
          · obtain ⟨r, g, -⟩ := g2 hb; rw [g] at hd; cases hd
        · by_cases hir : InRange t (trunc q)
          · obtain ⟨r, g, -⟩ := h1 hu hir; rw [g] at hd; cases hd
          · by_cases hst : small t = true
            · exact Or.inl ⟨hst, Or.inr ⟨q, hq, hir⟩⟩
            · have hst : small t = false := by simpa using hst
              rw [inRange_iff] at hir
              rcases lt_or_ge (trunc q) t.lo with hl | hl
              · obtain ⟨r, g, -⟩ := h3 hst hu hl; rw [g] at hd; cases hd
              · obtain ⟨r, g, -⟩ := h4 hst hu (by omega); rw [g] at hd; cases hd
    | ok r =>
      left
      have hsp := text_int_ok.1 ((h r).2 hd)
      obtain ⟨z, hz, hz', hzs⟩ := spelled_whole hsp
      have tz := trunc_int z
      obtain ⟨h1, h2, h3, h4⟩ := C27_float_to_int t x z hz
      rw [tz] at h1 h2 h3 h4
      have nothi : ∀ N : Nat, N % 10 ≠ 0 → 10 ^ 17 ≤ N → r.1 ≠ (N : Int) := by
        intro N hN hb hr
        obtain ⟨d, j, hd, he⟩ := spelled_digits hsp (by rw [hr]; omega)
        rw [hr, Int.natAbs_natCast] at he
        cases j with
        | zero => simp at he; omega
        | succ j =>
          rw [pow_succ, ← mul_assoc] at he
          generalize d * 10 ^ j = a at he
          omega
      by_cases hu : t = .u128
      · subst hu
        obtain ⟨g1, g2, g3⟩ := C27_float_to_u128 x z hz
        rw [tz] at g1 g2 g3
        have h0 : 0 ≤ z := by
          by_contra h0
          exact absurd (hzs (by omega)) (by decide)
        rcases lt_or_ge z (2 ^ 127) with hb | hb
        · obtain ⟨r', g, gr⟩ := g1 h0 hb
          rw [hd] at g; cases g
          exact ⟨z, hz, by rw [← gr]; exact inRange_self r, fun _ => hb, by rw [← gr]; exact hsp⟩
        · obtain ⟨r', g, gr⟩ := g2 hb
          rw [hd] at g; cases g
          exact absurd gr (nothi 170141183460469231731687303715884105727 (by decide) (by decide))
      · by_cases hir : InRange t z
        · obtain ⟨r', g, gr⟩ := h1 hu hir
          rw [hd] at g; cases g
          exact ⟨z, hz, hir, fun h => absurd h hu, by rw [← gr]; exact hsp⟩
        · exfalso
          by_cases hst : small t = true
          · rw [h2 hst hir] at hd; cases hd
          · have hst : small t = false := by simpa using hst
            have hir' := hir
            rw [inRange_iff] at hir
            rcases lt_or_ge z t.lo with hl | hl
            · obtain ⟨r', g, gr⟩ := h3 hst hu hl
              rw [hd] at g; cases g
              by_cases hsg : isSigned t = true
              · -- the least number is a power of two, so it is read exactly
                obtain ⟨neg, m, e, hx, hrd, hs, -⟩ := spelled_near hsp
                have hlo : ∃ k : Nat, 53 ≤ k ∧ k ≤ 127 ∧ r.1 = -(2:Int) ^ k := by
                  cases t <;> simp only [isSigned, small, Bool.false_eq_true, Bool.true_eq_false] at hsg hst
                  · exact ⟨63, by decide, by decide, gr⟩
                  · exact ⟨127, by decide, by decide, gr⟩
                obtain ⟨k, hk1, hk2, hrk⟩ := hlo
                have hpw : ((r.1.natAbs : Nat) : ℚ) = (1:Nat) * (2:ℚ) ^ (k : Int) := by
                  rw [hrk, Int.natAbs_neg, Int.natAbs_pow]
                  simp
                have hn := reads_nat hrd 1 k (by decide) (by
                  have : fmt64.emin ≤ 0 := by decide
                  omega)
                rw [hpw, sub_self, abs_zero] at hn
                have hval : (m:ℚ) * (2:ℚ) ^ e = (r.1.natAbs : Nat) := by
                  have := abs_eq_zero.1 (le_antisymm hn (abs_nonneg _))
                  rw [hpw]; linarith
                have := ratOf_signed hval hs
                rw [← hx, hz, Option.some.injEq] at this
                have : z = r.1 := by exact_mod_cast this
                rw [this] at hir'
                exact hir' (inRange_self r)
              · have hl0 : t.lo = 0 := by
                  cases t <;> simp only [isSigned, not_true_eq_false] at hsg <;> rfl
                have gr0 : r.1 = 0 := gr.trans hl0
                have := hz' (by rw [gr0]; decide)
                omega
            · obtain ⟨r', g, gr⟩ := h4 hst hu (by omega)
              rw [hd] at g; cases g
              cases t <;> simp only [small, Bool.true_eq_false, ne_eq, not_true_eq_false, reduceCtorEq, not_false_eq_true] at hst hu
              · exact nothi 9223372036854775807 (by decide) (by decide) gr
              · exact nothi 170141183460469231731687303715884105727 (by decide) (by decide) gr
              · exact nothi 18446744073709551615 (by decide) (by decide) gr
  · rintro (⟨n, hn, hir, hu, hsp⟩ | hre)
    · have hd : ∃ r, (Value.float x).tryIntoInt t = .ok r ∧ r.1 = n := by
        have tz := trunc_int n
        by_cases ht : t = .u128
        · subst ht
          have := (C27_float_to_u128 x n hn).1
          rw [tz] at this
          exact this (by rw [inRange_iff] at hir; exact hir.1) (hu rfl)
        · have := (C27_float_to_int t x n hn).1
          rw [tz] at this
          exact this ht hir
      obtain ⟨r, hd, hr⟩ := hd
      intro y
      rw [text_int_ok]
      show _ ↔ (Value.float x).tryIntoInt t = .ok y
      rw [hd, Except.ok.injEq]
      constructor
      · intro hy
        exact Subtype.ext (hr.trans (spells_unique hsp hy))
      · rintro rfl; rw [hr]; exact hsp
    · have hde : ∃ e, (Value.float x).tryIntoInt t = .error e := by
        rcases hre with ⟨hst, ⟨s, hx⟩ | ⟨q, hq, hir⟩⟩ | ⟨rfl, hx | ⟨q, hq, hle⟩⟩
        · exact ⟨_, (C27_nan_inf t x).2.1 s hx hst⟩
        · exact ⟨_, (C27_float_to_int t x q hq).2.1 hst hir⟩
        · exact ⟨_, (C27_nan_inf .u128 x).2.2.2.2.2 hx⟩
        · refine ⟨_, (C27_float_to_u128 x q hq).2.2 ?_⟩
          unfold trunc
          rw [if_neg (by linarith)]
          exact Int.ceil_le.2 (by push_cast; exact hle)
      obtain ⟨e, hde⟩ := hde
      have ht : (Value.string x.toText).tryInto (.int t) = .error (.conversionError "String" t.name "can't parse string") := by
        refine text_int_error fun n hn hir => ?_
        obtain ⟨z, hz, hz', hzs⟩ := spelled_whole hn
        rcases hre with ⟨hst, ⟨s, hx⟩ | ⟨q, hq, hnr⟩⟩ | ⟨rfl, hx | ⟨q, hq, hle⟩⟩
        · rw [hx] at hz; cases hz
        · rw [hz, Option.some.injEq] at hq
          have := hz' (hrange hst n hir)
          rw [← hq, trunc_int, this] at hnr
          exact hnr hir
        · rw [hx] at hz; cases hz
        · rw [hz, Option.some.injEq] at hq
          rw [← hq] at hle
          have : z ≤ -1 := by exact_mod_cast hle
          exact absurd (hzs (by omega)) (by decide)
      intro y
      rw [ht]
      show _ ↔ (Value.float x).tryIntoInt t = .ok y
      rw [hde]
      simp

/-- **C133.** Exactly when a scalar and its text are converted alike. -/
theorem C133_exact (s : Scalar) (v : Value) (hv : kindName v = none) : TextAgrees s v ↔ MeansSame s v := by
  have dec : ∀ (n : Int) (b : Bool), (Value.string (String.ofList (decInt n))).tryInto .bool ≠ .ok b := by
    intro n b
    obtain ⟨c, r, h, hc⟩ := decInt_head n
    exact not_bool_text (by rw [String.toList_ofList, h]) (hc.imp id Or.inl) b
  -- integers, one kind for all
  have hint : ∀ n src, integerOf v = some (n, src) → (TextAgrees s v ↔ MeansSame s v) := by
    intro n src hi
    cases s with
    | string =>
      refine ⟨fun _ => .toText v, fun _ x => ?_⟩
      rw [display_int hi]
      cases v <;> simp only [integerOf, Option.some.injEq, Prod.mk.injEq, reduceCtorEq] at hi
      all_goals obtain ⟨rfl, rfl⟩ := hi; rfl
    | bool =>
      constructor
      · intro h
        have hd := C29_number_to_bool.1 v n src hi
        exact absurd ((h _).2 hd) (by rw [display_int hi]; exact dec n _)
      · intro h; cases h <;> cases hi
    | f64 =>
      refine ⟨fun _ => .intFloat hi, fun _ x => ?_⟩
      have hd : v.tryInto .f64 = .ok (F64.ofInt n) := int_f64 hi
      have ht : (Value.string v.display).tryInto .f64 = .ok (F64.ofInt n) := by
        have hir : InRange .i128 n ∨ InRange .u128 n := by
          exact int_range hi
        have key : ∀ t, InRange t n → (Value.string v.display).tryInto .f64 = .ok (F64.ofInt n) := by
          intro t hir
          obtain ⟨neg, hp, h1, h2, -⟩ := spells_float (decInt_spells t n hir)
          refine toF64_some ?_
          rw [display_int hi, hp, ofInt_decimal]
          by_cases h0 : n = 0
          · subst h0
            have : neg = false := by
              by_contra hn
              have := h2.1 (by simpa using hn)
              exact absurd this (by decide)
            rw [this]; rfl
          · rw [h1 h0]
        rcases hir with h | h
        · exact key _ h
        · exact key _ h
      rw [hd, ht]
    | char =>
      have hb := C30_int_to_char v n src hi
      obtain ⟨c, r, hcr, -⟩ := decInt_head n
      have ht : (Value.string v.display).tryInto .char = .ok c := (C30_to_char v.display c r true ⟨.nan, trivial⟩).1 (by rw [display_int hi, String.toList_ofList, hcr])
      constructor
      · intro h
        have hd := (h c).1 ht
        by_cases hrange : 0 ≤ n ∧ n ≤ 255
        · obtain ⟨c', h1, h2⟩ := hb.1 hrange.1 hrange.2
          rw [hd] at h1; cases h1
          have hc : c = Char.ofNat n.toNat := by
            have : n.toNat = c.toNat := by omega
            rw [this]; simp
          have h53 := (char_53 n.toNat (by omega)).1 (by
            have : decInt n = decNat n.toNat := by
              unfold decInt
              rw [if_neg (by omega)]
              congr 1; omega
            rw [← this, hcr, hc]; rfl)
          have : n = 53 := by omega
          subst this
          exact .five hi
        · rw [hb.2 (by omega)] at hd; cases hd
      · intro h
        have : n = 53 := by
          cases h with
          | text => cases hi
          | five h => rw [hi] at h; cases h; rfl
        subst this
        intro x
        rw [ht]
        obtain ⟨c', h1, h2⟩ := hb.1 (by decide) (by decide)
        rw [h1]
        have e1 : c = '5' := by have : decInt 53 = ['5', '3'] := by decide
                                rw [this] at hcr; cases hcr; rfl
        have e2 : c' = '5' := by
          have : c'.toNat = 53 := by omega
          have h3 : Char.ofNat c'.toNat = c' := by simp
          rw [← h3, this]
        rw [e1, e2]
    | int t =>
      refine ⟨fun _ => .int t hi, fun _ x => ?_⟩
      obtain ⟨h1, h2⟩ := C23_int_to_int t v n src hi
      rw [text_int_ok, display_int hi]
      show _ ↔ v.tryIntoInt t = .ok x
      by_cases hir : InRange t n
      · obtain ⟨r, hd, hr⟩ := h1 hir
        rw [hd, Except.ok.injEq]
        constructor
        · intro h; exact Subtype.ext (hr.trans (spells_unique (decInt_spells t n hir) h))
        · rintro rfl; rw [hr]; exact decInt_spells t n hir
      · rw [h2 hir]
        constructor
        · intro h
          exfalso
          obtain ⟨ds, hds⟩ : ∃ ds, String.ofList (decInt n) = String.ofList (if decide (n < 0) then '-' :: ds else ds) ∧ DigitsSpell ds n.natAbs :=
            ⟨decNat n.natAbs, by unfold decInt; simp, decNat_spells _⟩
          have habs := spelled_abs hds.1 hds.2 h
          obtain ⟨neg, -, -, g1, g2⟩ := spells_float h
          have hxr := inRange_self x
          rcases lt_or_ge n 0 with hn | hn
          · -- a minus sign: the number read is not positive
            obtain ⟨ds', N', hds', hsp⟩ := h
            have hm : (String.ofList (decInt n)).toList = '-' :: decNat n.natAbs := by rw [String.toList_ofList]; unfold decInt; rw [if_pos hn]
            rw [hm] at hsp
            rcases hsp with ⟨hs, -⟩ | ⟨hs, -⟩ | ⟨-, hs, hx⟩
            · exact absurd (hds'.2.1 '-' (by rw [← hs]; simp)) (by decide)
            · exact absurd (List.cons.inj hs).1 (by decide)
            · have : x.1 = n := by omega
              rw [this] at hxr; exact hir hxr
          · obtain ⟨ds', N', hds', hsp⟩ := h
            have hm : (String.ofList (decInt n)).toList = decNat n.natAbs := by rw [String.toList_ofList]; unfold decInt; rw [if_neg (by omega)]
            rw [hm] at hsp
            rcases hsp with ⟨-, hx⟩ | ⟨-, hx⟩ | ⟨-, hs, -⟩
            · have : x.1 = n := by omega
              rw [this] at hxr; exact hir hxr
            · have : x.1 = n := by omega
              rw [this] at hxr; exact hir hxr
            · exact absurd (decNat_digits n.natAbs '-' (by rw [hs]; simp)) (by decide)
        · intro h; cases h
  cases v with
  | none => cases hv
  | array => cases hv
  | map => cases hv
  | integer n => exact hint _ _ rfl
  | longInteger n => exact hint _ _ rfl
  | uInteger n => exact hint _ _ rfl
  | uLongInteger n => exact hint _ _ rfl
  | string x =>
    have : (Value.string x).display = x := by rw [Value.display]
    exact ⟨fun _ => .text s x, fun _ y => by rw [this]⟩
  | boolean b =>
    have hdis : (Value.boolean b).display = boolText b := by rw [Value.display]
    have no : ∀ y : s.T, (Value.boolean b).tryInto s = .ok y → (Value.string (boolText b)).tryInto s ≠ .ok y → ¬ TextAgrees s (.boolean b) := by
      intro y h1 h2 h
      have := (h y).2 h1
      rw [hdis] at this
      exact h2 this
    cases s with
    | string => exact ⟨fun _ => .toText _, fun _ y => by rw [hdis]; rfl⟩
    | bool =>
      refine ⟨fun _ => .bool b, fun _ y => ?_⟩
      rw [hdis]
      have : (Value.string (boolText b)).tryInto .bool = .ok b := by cases b <;> decide
      rw [this]; rfl
    | f64 =>
      refine ⟨fun h => absurd h (no _ rfl ?_), fun h => by cases h with | intFloat h => cases h⟩
      have : (Value.string (boolText b)).tryInto .f64 = .error (.conversionError "String" "f64" "can't parse string") := by cases b <;> decide
      rw [this]; intro h; cases h
    | char =>
      refine ⟨fun h => absurd h (no _ rfl ?_), fun h => by cases h with | five h => cases h⟩
      cases b <;> decide
    | int t =>
      have hd : (Value.boolean b).tryInto (.int t) = .ok (boolToInt t b) := by cases t <;> rfl
      refine ⟨fun h => absurd h (no _ hd ?_), fun h => by cases h with | int _ h => cases h⟩
      have : (Value.string (boolText b)).tryInto (.int t) = .error (.conversionError "String" t.name "can't parse string") := by
        cases b <;> cases t <;> decide
      rw [this]; intro h; cases h
  | float x =>
    cases s with
    | string => exact ⟨fun _ => .toText _, fun _ y => by rw [display_float]; rfl⟩
    | bool =>
      constructor
      · intro h
        exfalso
        obtain ⟨c, r, hc, hcc⟩ := floatText_head x
        have hb : ∃ b, (Value.float x).tryInto .bool = .ok b := ⟨_, rfl⟩
        obtain ⟨b, hb⟩ := hb
        have := (h b).2 hb
        rw [display_float] at this
        exact not_bool_text hc hcc b this
      · intro h; cases h
    | f64 =>
      refine ⟨fun _ => .float x, fun _ y => ?_⟩
      rw [display_float, toF64_some (parse_toText x)]; rfl
    | char =>
      constructor
      · intro h
        exfalso
        obtain ⟨c, r, hc, -⟩ := floatText_head x
        have := (h c).1 (by rw [display_float]; exact (C30_to_char _ c r true x).1 hc)
        cases this
      · intro h; cases h with | five h => cases h
    | int t =>
      rw [float_int_agrees]
      constructor
      · rintro (h | h)
        · exact .whole t x h
        · exact .refused t x h
      · intro h
        cases h with
        | int _ h => cases h
        | whole _ _ h => exact Or.inl h
        | refused _ _ h => exact Or.inr h

/-! ## Typed settings -/

theorem de_scalar (structs : Nat → List (String × Ty)) (k : Nat) {T : Ty} {s : Scalar} (h : scalarOf T = some s) :
    ∃ f : s.T → Data, ∀ v d, deAt structs k T v = .ok d ↔ ∃ x, v.tryInto s = .ok x ∧ d = f x := by
  have fin : ∀ {α : Type} (o : Except ModelError α) (g : α → Data) (d : Data),
      ((Outcome.ofExcept o >>= fun x => Outcome.ok (g x)) = .ok d) ↔ ∃ x, o = .ok x ∧ d = g x := by
    intro α o g d
    rw [bind_eq_ok]
    constructor
    · rintro ⟨x, h1, h2⟩; cases h2; exact ⟨x, ofExcept_ok.1 h1, rfl⟩
    · rintro ⟨x, h1, rfl⟩; exact ⟨x, ofExcept_ok.2 h1, rfl⟩
  cases T <;> simp only [scalarOf, Option.some.injEq, reduceCtorEq] at h
  case bool => subst h; exact ⟨_, fun v d => by rw [deAt, de]; exact fin _ _ d⟩
  case f64 => subst h; exact ⟨_, fun v d => by rw [deAt, de]; exact fin _ _ d⟩
  case f32 => subst h; exact ⟨_, fun v d => by rw [deAt, de]; exact fin _ _ d⟩
  case char => subst h; exact ⟨_, fun v d => by rw [deAt, de]; exact fin _ _ d⟩
  case string => subst h; exact ⟨_, fun v d => by rw [deAt, de]; exact fin _ _ d⟩
  case int t =>
    have ht : Upto64 t := by constructor <;> (rintro rfl; cases h)
    have : scalarOf (.int t) = some (.int t) := by cases t <;> first | rfl | cases h
    have hs : s = .int t := by
      cases t <;> first | exact (Option.some.inj h).symm | cases h
    subst hs
    refine ⟨fun n => .int t n, fun v d => ?_⟩
    rw [deAt, de, deInt_eq ht]
    exact fin _ _ d

/-- **C133.** A field read with one of the conversions (in `Option` or a newtype, or not) is read from a scalar and from its text alike, if they are converted alike. -/
theorem C133_typed (structs : Nat → List (String × Ty)) (k : Nat) (s : Scalar) (T : Ty) (hT : ReadWith s T) (a : Value) (ha : kindName a = none)
    (h : TextAgrees s a) (d : Data) : deAt structs k T (.string a.display) = .ok d ↔ deAt structs k T a = .ok d := by
  induction hT generalizing d with
  | scalar hs =>
    obtain ⟨f, hf⟩ := de_scalar structs k hs
    rw [hf, hf]
    exact ⟨fun ⟨x, h1, h2⟩ => ⟨x, (h x).1 h1, h2⟩, fun ⟨x, h1, h2⟩ => ⟨x, (h x).2 h1, h2⟩⟩
  | @option T _ ih =>
    have ho : ∀ v : Value, v ≠ .none → deAt structs k (.option T) v = (deAt structs k T v >>= fun d => Outcome.ok (.some d)) := by
      intro v hv
      cases v <;> first | rfl | exact absurd rfl hv
    rw [ho _ (by simp), ho _ (by rintro rfl; cases ha), bind_eq_ok, bind_eq_ok]
    exact ⟨fun ⟨x, h1, h2⟩ => ⟨x, (ih x).1 h1, h2⟩, fun ⟨x, h1, h2⟩ => ⟨x, (ih x).2 h1, h2⟩⟩
  | @newtype T _ ih =>
    have ho : ∀ v : Value, deAt structs k (.newtype T) v = (deAt structs k T v >>= fun d => Outcome.ok (.newtypeStruct d)) := by
      intro v; rw [deAt, deAt, de]
    rw [ho, ho, bind_eq_ok, bind_eq_ok]
    exact ⟨fun ⟨x, h1, h2⟩ => ⟨x, (ih x).1 h1, h2⟩, fun ⟨x, h1, h2⟩ => ⟨x, (ih x).2 h1, h2⟩⟩

/-- **C133.** Repeating in the environment what the configuration says: a variable with the text of the scalar that a setting has anyway changes nothing for a
field that is read with a conversion that takes the scalar and its text alike. -/
theorem C133_env (b : Build) (fm : Formats) (calls : List RegCall) (w : World) (skip : Bool) (v v' : Value)
    (h : (register b fm calls).buildValue w skip = .ok v) (hp : ∀ e ∈ firsts (offers b fm calls), Proper e.2)
    (name pre P : String) (hnew : ∀ a ∈ offers b fm calls, a.1 ≠ name) (hP : Trimmed pre P) (hne : P ≠ "")
    (h' : (register b fm (calls ++ [.environment name pre])).buildValue w skip = .ok v')
    (structs : Nat → List (String × Ty)) (k : Nat) (key : String) (a : Value) (ha : child v (.key key) = some a) (hk : kindName a = none)
    (he : EnvGives w.env P key a.display) (s : Scalar) (T : Ty) (hT : ReadWith s T) (hs : TextAgrees s a) (d : Data) :
    deAt structs k (.struct [(key, T)]) v' = .ok d ↔ deAt structs k (.struct [(key, T)]) v = .ok d := by
  obtain ⟨hvm, hvu⟩ := C08_map b fm calls w skip v h
  obtain ⟨m, rfl⟩ : ∃ m, v = .map m := by
    rcases isMap_cases v with ⟨m, rfl⟩ | h
    · exact ⟨m, rfl⟩
    · rw [hvm] at h; cases h
  have hmn := (uniqueKeys_map.1 (hvu hp)).1
  rw [child_key_map] at ha
  have hv : ∀ d, deAt structs k (.struct [(key, T)]) (.map m) = .ok d ↔ ∃ x, d = .struct [(key, x)] ∧ deAt structs k T a = .ok x := by
    intro d
    rw [deAt, de_struct_ok _ [(key, T)] (by simp) _ hmn]
    constructor
    · rintro ⟨ds, rfl, hd⟩
      cases hd with
      | cons h1 h2 =>
        cases h2
        rename_i nd
        obtain ⟨e1, e2⟩ := h1
        rw [ha] at e2
        exact ⟨nd.2, by cases nd; cases e1; rfl, e2⟩
    · rintro ⟨x, rfl, hx⟩
      exact ⟨_, rfl, .cons ⟨rfl, by rw [ha]; exact hx⟩ .nil⟩
  rw [C122_overrides b fm calls w skip (.map m) v' h hp name pre P hnew hP hne h' structs k [(key, T)] (by simp) d, hv]
  have uniq : ∀ s1, EnvGives w.env P key s1 → s1 = a.display := by
    intro s1 h1
    obtain ⟨mx, -, -, g1, -⟩ := env_entry (w := w) hP hne
    have := (g1 _ _ h1).symm.trans (g1 _ _ he)
    cases this; rfl
  constructor
  · rintro ⟨ds, rfl, hd⟩
    cases hd with
    | cons h1 h2 =>
      cases h2
      rename_i nd
      obtain ⟨e1, ⟨s1, g1, g2⟩ | ⟨g1, -⟩⟩ := h1
      · cases uniq s1 g1
        refine ⟨nd.2, by cases nd; cases e1; rfl, ?_⟩
        exact (C133_typed structs k s T hT a hk hs _).1 ((C122_text structs k T _ _).2 g2)
      · exact absurd he (g1 _)
  · rintro ⟨x, rfl, hx⟩
    refine ⟨_, rfl, .cons ⟨rfl, Or.inl ⟨_, he, ?_⟩⟩ .nil⟩
    exact (C122_text structs k T _ _).1 ((C133_typed structs k s T hT a hk hs _).2 hx)

/-! ## Examples -/

/-- 2^60: the file's number as a float, and the text that stands for it, are different integers. -/
def exBig : F64 := ⟨.fin false (2 ^ 52) 8, by decide⟩
example : (Value.float exBig).display = "1152921504606847000" := by rw [display_float]; decide +kernel
example : ((Value.float exBig).tryInto (.int .i64)).toOption.map (·.1) = some 1152921504606846976 ∧
    ((Value.string "1152921504606847000").tryInto (.int .i64)).toOption.map (·.1) = some 1152921504606847000 := ⟨by decide +kernel, by decide +kernel⟩
example : ¬ TextAgrees (.int .i64) (.float exBig) := by
  intro h
  have h1 := (h ⟨1152921504606846976, by decide⟩).2 (by decide +kernel)
  rw [display_float, text_int_ok] at h1
  have : exBig.toText = "1152921504606847000" := by decide +kernel
  rw [this] at h1
  have h2 : Spells .i64 "1152921504606847000" 1152921504606847000 := ⟨"1152921504606847000".toList, _, ⟨by decide, by decide, by decide⟩, Or.inl ⟨rfl, rfl⟩⟩
  exact absurd (spells_unique h1 h2) (by decide)

def exEighty : F64 := ⟨.fin false (5 * 2 ^ 50) (-46), by decide⟩
def exMinusZero : F64 := ⟨.fin true 0 fmt64.emin, by decide⟩

/-- 80.0 is a whole number, shown as `80`; 1.5 is not, and is refused as a text; minus zero is refused for unsigned types only. -/
example : MeansSame (.int .u16) (.float exEighty) :=
  (C133_exact _ _ rfl).1 ((float_int_agrees _ _).2 (Or.inl ⟨80, by simp only [exEighty, ratOf]; norm_num, by simp [InRange, isSigned, width],
    (nomatch ·), ⟨['8', '0'], 80, ⟨by decide, by decide, by decide⟩, Or.inl ⟨by rw [display_float]; decide +kernel, rfl⟩⟩⟩))
example : (∀ n : Int, ratOf (.fin false (3 * 2 ^ 51) (-52)) ≠ some (n : ℚ)) := by
  intro n h
  simp only [ratOf, Option.some.injEq] at h
  have : (3:ℚ) = 2 * n := by rw [← h]; norm_num
  have : (3:Int) = 2 * n := by exact_mod_cast this
  omega
example : TextAgrees (.int .i8) (.float exMinusZero) ∧ ¬ TextAgrees (.int .u8) (.float exMinusZero) := by
  have hz : ratOf exMinusZero.1 = some ((0 : Int) : ℚ) := by simp [exMinusZero, ratOf]
  refine ⟨(float_int_agrees _ _).2 (Or.inl ⟨0, hz, by simp [InRange, isSigned, width], (nomatch ·), ['0'], 0, ⟨by decide, by decide, by decide⟩,
    Or.inr (Or.inr ⟨rfl, by rw [display_float]; decide +kernel, rfl⟩)⟩), fun h => ?_⟩
  obtain ⟨r, h1, h2⟩ := (C27_float_to_int .u8 exMinusZero (0 : Int) hz).1 (by decide) (by rw [trunc_int]; simp [InRange, isSigned, width])
  exact (((C133_float_text exMinusZero).2.1 0 hz (by decide) .u8 r).1 ((h r).2 h1)).2 ⟨⟨_, rfl⟩, rfl⟩

/-- `true` is not a text for 1, 7 is not a text for `true`, and 7 is not the character that `7` is. -/
example : ¬ TextAgrees (.int .u8) (.boolean true) ∧ ¬ TextAgrees .bool (.integer ⟨7, by decide⟩) ∧ ¬ TextAgrees .char (.integer ⟨7, by decide⟩) ∧
    TextAgrees .char (.integer ⟨53, by decide⟩) ∧ TextAgrees .f64 (.uLongInteger ⟨2 ^ 100 + 1, by decide⟩) := by
  refine ⟨fun h => ?_, fun h => ?_, fun h => ?_, (C133_exact _ _ rfl).2 (.five rfl), (C133_exact _ _ rfl).2 (.intFloat rfl)⟩
  · cases (C133_exact _ _ rfl).1 h with | int _ h => cases h
  · cases (C133_exact _ _ rfl).1 h
  · cases (C133_exact _ _ rfl).1 h with | five h => cases h

/-- `APP_port` set to `80`, which is what the port is anyway. -/
def exSameWorld : World := { exFresh with env := [(os "APP_port", os "80")] }
example (v' : Value) (h' : (register exB1 exFormats (exEnvCalls ++ [.environment "env" " APP_"])).buildValue exSameWorld false = .ok v') (d : Data) :
    deAt (fun _ => []) 0 (.struct [("port", .option (.int .u16))]) v' = .ok d ↔
      deAt (fun _ => []) 0 (.struct [("port", .option (.int .u16))])
        (.map [("port", .integer ⟨80, by decide⟩), ("name", .string "a"), ("ui", .map [("dark", .boolean true)])]) = .ok d :=
  C133_env exB1 exFormats exEnvCalls exSameWorld false _ v' rfl exEnv_proper "env" " APP_" "APP_" (by decide) exEnv_prefix (by decide) h' (fun _ => []) 0
    "port" (.integer ⟨80, by decide⟩) rfl rfl
    ⟨[], _, [], rfl, ⟨"APP_port", "APP_port", rfl, (trimStr_iff _ _).1 (by decide), by decide, 1, by decide, by decide⟩, by rw [Value.display]; rfl, by simp⟩
    (.int .u16) (.option (.int .u16)) (.option (.scalar rfl)) ((C133_exact _ _ rfl).2 (.int _ rfl)) d

end Verif.Props
