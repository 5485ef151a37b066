import Verif.Model.Float
import Mathlib.Tactic.Linarith
import Mathlib.Tactic.Ring
import Mathlib.Tactic.FieldSimp
import Mathlib.Tactic.Positivity
import Mathlib.Algebra.Order.Field.Rat
import Mathlib.Algebra.Order.Field.Power
import Mathlib.Data.Nat.Cast.Order.Field
import Mathlib.Algebra.Order.AbsoluteValue.Basic
/-! Lemmas about the float model: canonicity and correctness of rounding. -/
namespace Verif

theorem two_zpow_split (a : Int) : (2:ℚ) ^ a = (2:ℚ) ^ a.toNat / (2:ℚ) ^ (-a).toNat := by
  rcases le_total 0 a with h | h
  · obtain ⟨n, rfl⟩ := Int.eq_ofNat_of_zero_le h
    simp
  · obtain ⟨n, hn⟩ := Int.eq_ofNat_of_zero_le (by omega : 0 ≤ -a)
    have : a = -(n:Int) := by omega
    subst this
    simp

theorem pow_le_frac_iff (num den : Nat) (hd : 0 < den) (a : Int) :
    den * 2 ^ a.toNat ≤ num * 2 ^ (-a).toNat ↔ (2:ℚ) ^ a ≤ (num:ℚ) / den := by
  rw [two_zpow_split, div_le_div_iff₀ (by positivity) (by exact_mod_cast hd)]
  rw [← Nat.cast_le (α := ℚ)]
  push_cast
  rw [mul_comm]

theorem fracLog2_spec (num den : Nat) (hn : 0 < num) (hd : 0 < den) :
    (2:ℚ) ^ (fracLog2 num den) ≤ (num:ℚ) / den ∧ (num:ℚ) / den < (2:ℚ) ^ (fracLog2 num den + 1) := by
  have hdq : (0:ℚ) < den := by exact_mod_cast hd
  have n1 : ((2:ℚ) ^ (num.log2 : Int)) ≤ num := by
    rw [zpow_natCast]; exact_mod_cast Nat.log2_self_le (by omega)
  have n2 : (num:ℚ) < (2:ℚ) ^ ((num.log2 : Int) + 1) := by
    have := @Nat.lt_log2_self num
    have h : ((num.log2 : Int) + 1) = ((num.log2 + 1 : Nat) : Int) := by push_cast; rfl
    rw [h, zpow_natCast]; exact_mod_cast this
  have d1 : ((2:ℚ) ^ (den.log2 : Int)) ≤ den := by
    rw [zpow_natCast]; exact_mod_cast Nat.log2_self_le (by omega)
  have d2 : (den:ℚ) < (2:ℚ) ^ ((den.log2 : Int) + 1) := by
    have := @Nat.lt_log2_self den
    have h : ((den.log2 : Int) + 1) = ((den.log2 + 1 : Nat) : Int) := by push_cast; rfl
    rw [h, zpow_natCast]; exact_mod_cast this
  unfold fracLog2
  simp only
  generalize hl : ((num.log2 : Int) - (den.log2 : Int)) = l0
  have hnl : (num.log2 : Int) = l0 + den.log2 := by omega
  have lower : (2:ℚ) ^ (l0 - 1) ≤ (num:ℚ) / den := by
    rw [le_div_iff₀ hdq]
    calc (2:ℚ) ^ (l0 - 1) * den ≤ (2:ℚ) ^ (l0 - 1) * (2:ℚ) ^ ((den.log2 : Int) + 1) := by
            apply mul_le_mul_of_nonneg_left d2.le; positivity
      _ = (2:ℚ) ^ (num.log2 : Int) := by
            rw [← zpow_add₀ (by norm_num)]; congr 1; omega
      _ ≤ num := n1
  have upper : (num:ℚ) / den < (2:ℚ) ^ (l0 + 1) := by
    rw [div_lt_iff₀ hdq]
    calc (num:ℚ) < (2:ℚ) ^ ((num.log2 : Int) + 1) := n2
      _ = (2:ℚ) ^ (l0 + 1) * (2:ℚ) ^ (den.log2 : Int) := by
            rw [← zpow_add₀ (by norm_num)]; congr 1; omega
      _ ≤ (2:ℚ) ^ (l0 + 1) * den := by
            apply mul_le_mul_of_nonneg_left d1; positivity
  split
  · rename_i h
    exact ⟨(pow_le_frac_iff num den hd l0).1 h, upper⟩
  · rename_i h
    refine ⟨lower, ?_⟩
    rw [pow_le_frac_iff num den hd l0, not_le] at h
    simpa using h

/-- Rounding half to even: distance at most one half, and the tie goes to the even side. -/
theorem divHalfEven_spec (n d : Nat) (hd : 0 < d) :
    |(n:ℚ) / d - (divHalfEven n d : ℚ)| ≤ 1 / 2 ∧
      (|(n:ℚ) / d - (divHalfEven n d : ℚ)| = 1 / 2 → divHalfEven n d % 2 = 0) := by
  have hdq : (0:ℚ) < d := by exact_mod_cast hd
  have hmod := Nat.div_add_mod n d
  have hlt := Nat.mod_lt n hd
  unfold divHalfEven
  simp only
  generalize n / d = q at *
  generalize n % d = r at *
  have hnq : (n:ℚ) = d * q + r := by exact_mod_cast hmod.symm
  have hfrac : (n:ℚ) / d = q + r / d := by rw [hnq]; field_simp
  have hrd : (r:ℚ) / d < 1 := by rw [div_lt_one hdq]; exact_mod_cast hlt
  have hr0 : 0 ≤ (r:ℚ) / d := by positivity
  rw [hfrac]
  split
  · rename_i h
    have hge : (1:ℚ) / 2 ≤ r / d := by
      rw [div_le_div_iff₀ (by norm_num) hdq]
      have : d ≤ 2 * r := by omega
      have : (d:ℚ) ≤ 2 * r := by exact_mod_cast this
      linarith
    have e1 : (q:ℚ) + r / d - ((q + 1 : Nat) : ℚ) = r / d - 1 := by push_cast; ring
    rw [e1, abs_of_nonpos (by linarith)]
    refine ⟨by linarith, fun ht => ?_⟩
    have : (r:ℚ) / d = 1 / 2 := by linarith
    rw [div_eq_div_iff hdq.ne' (by norm_num)] at this
    have : r * 2 = 1 * d := by exact_mod_cast this
    omega
  · rename_i h
    have hle : (r:ℚ) / d ≤ 1 / 2 := by
      rw [div_le_div_iff₀ hdq (by norm_num)]
      have : 2 * r ≤ d := by omega
      have : (2:ℚ) * r ≤ d := by exact_mod_cast this
      linarith
    have e1 : (q:ℚ) + r / d - (q : ℚ) = r / d := by ring
    rw [e1, abs_of_nonneg hr0]
    refine ⟨hle, fun ht => ?_⟩
    rw [div_eq_div_iff hdq.ne' (by norm_num)] at ht
    have : r * 2 = 1 * d := by exact_mod_cast ht
    omega

/-- The rounded quotient is at least as close to the fraction as any other natural number. -/
theorem divHalfEven_nearest (n d : Nat) (hd : 0 < d) (k : Int) :
    |(n:ℚ) / d - (divHalfEven n d : ℚ)| ≤ |(n:ℚ) / d - (k : ℚ)| := by
  have h := (divHalfEven_spec n d hd).1
  by_cases hk : k = (divHalfEven n d : Int)
  · subst hk; simp
  · by_contra hlt
    push Not at hlt
    have h2 : |(k:ℚ) - (divHalfEven n d : ℚ)| < 1 := by
      calc |(k:ℚ) - (divHalfEven n d : ℚ)|
          = |((n:ℚ) / d - (divHalfEven n d : ℚ)) - ((n:ℚ) / d - k)| := by congr 1; ring
        _ ≤ |(n:ℚ) / d - (divHalfEven n d : ℚ)| + |(n:ℚ) / d - k| := abs_sub _ _
        _ < 1 := by linarith
    have h3 : |k - (divHalfEven n d : Int)| < 1 := by exact_mod_cast h2
    rw [Int.abs_lt_one_iff] at h3
    omega

end Verif
