import Verif.Lemmas.FloatParse
/-! Shortest decimals: the float printer picks a decimal with the fewest digits that reads back. -/
namespace Verif
open Spec

theorem divHalfEven_scale (n d c : Nat) (hd : 0 < d) (hc : 0 < c) : divHalfEven (n * c) (d * c) = divHalfEven n d := by
  unfold divHalfEven
  simp only
  rw [Nat.mul_div_mul_right _ _ hc, Nat.mul_mod_mul_right]
  have h1 : 2 * (n % d * c) > d * c ↔ 2 * (n % d) > d := by
    rw [← mul_assoc]; exact Nat.mul_lt_mul_right hc
  have h2 : 2 * (n % d * c) = d * c ↔ 2 * (n % d) = d := by
    rw [← mul_assoc]; exact Nat.mul_left_inj (by omega)
  simp only [h1, h2]

theorem divHalfEven_congr {n d n' d' : Nat} (hd : 0 < d) (hd' : 0 < d') (h : n * d' = n' * d) :
    divHalfEven n d = divHalfEven n' d' := by
  rw [← divHalfEven_scale n d d' hd hd', h, mul_comm d d', divHalfEven_scale n' d' d hd' hd]

theorem fracLog2_congr {n d n' d' : Nat} (hn : 0 < n) (hd : 0 < d) (hn' : 0 < n') (hd' : 0 < d') (h : (n:ℚ) / d = (n':ℚ) / d') :
    fracLog2 n d = fracLog2 n' d' := by
  obtain ⟨a1, a2⟩ := fracLog2_spec n d hn hd
  obtain ⟨b1, b2⟩ := fracLog2_spec n' d' hn' hd'
  rw [h] at a1 a2
  have h1 := (zpow_lt_zpow_iff_right₀ (by norm_num : (1:ℚ) < 2)).1 (lt_of_le_of_lt a1 b2)
  have h2 := (zpow_lt_zpow_iff_right₀ (by norm_num : (1:ℚ) < 2)).1 (lt_of_le_of_lt b1 a2)
  omega

/-- Rounding depends on the number, not on the fraction that denotes it. -/
theorem round_congr (f : Fmt) (neg : Bool) {n d n' d' : Nat} (hd : 0 < d) (hd' : 0 < d') (h : (n:ℚ) / d = (n':ℚ) / d') :
    f.round neg n d = f.round neg n' d' := by
  have hdq : (d:ℚ) ≠ 0 := by exact_mod_cast (by omega : d ≠ 0)
  have hdq' : (d':ℚ) ≠ 0 := by exact_mod_cast (by omega : d' ≠ 0)
  have hx : n * d' = n' * d := by
    rw [div_eq_div_iff hdq hdq'] at h
    exact_mod_cast h
  by_cases hn : n = 0
  · subst hn
    have : n' = 0 := by
      rw [zero_mul] at hx
      rcases Nat.mul_eq_zero.1 hx.symm with h | h
      · exact h
      · omega
    subst this
    simp [Fmt.round]
  · have hn' : n' ≠ 0 := by
      intro h0; subst h0
      rw [zero_mul] at hx
      rcases Nat.mul_eq_zero.1 hx with h | h <;> omega
    unfold Fmt.round
    rw [if_neg hn, if_neg hn']
    simp only
    rw [fracLog2_congr (by omega) hd (by omega) hd' h]
    have : ∀ e : Int, divHalfEven (n * 2 ^ (-e).toNat) (d * 2 ^ e.toNat) = divHalfEven (n' * 2 ^ (-e).toNat) (d' * 2 ^ e.toNat) := by
      intro e
      apply divHalfEven_congr (by positivity) (by positivity)
      calc n * 2 ^ (-e).toNat * (d' * 2 ^ e.toNat) = n * d' * (2 ^ (-e).toNat * 2 ^ e.toNat) := by ring
        _ = n' * d * (2 ^ (-e).toNat * 2 ^ e.toNat) := by rw [hx]
        _ = _ := by ring
    simp only [this]

/-- A finite result of rounding is a datum no other is nearer than (on magnitudes). -/
theorem round_nearest (f : Fmt) (hf : f.Ok) (neg : Bool) (num den : Nat) (hd : 0 < den) {s : Bool} {m : Nat} {e : Int}
    (hr : f.round neg num den = .fin s m e) (m' : Nat) (e' : Int) (hm : m' < 2 ^ f.p) (he : f.emin ≤ e') :
    |(num:ℚ) / den - (m:ℚ) * (2:ℚ) ^ e| ≤ |(num:ℚ) / den - (m':ℚ) * (2:ℚ) ^ e'| := by
  by_cases hn : num = 0
  · subst hn
    have hz : f.round neg 0 den = .fin neg 0 f.emin := by simp [Fmt.round]
    rw [hz] at hr; cases hr
    simp only [Nat.cast_zero, zero_div, zero_mul, sub_zero, abs_zero]
    exact abs_nonneg _
  · obtain ⟨rfl, hv, -⟩ := round_val f hf neg num den hn hr
    rw [hv]
    exact rman_nearest f hf num den (by omega) hd m' e' hm he

theorem round_sign (f : Fmt) (neg : Bool) (num den : Nat) {s : Bool} {m : Nat} {e : Int}
    (hr : f.round neg num den = .fin s m e) : s = neg := by
  unfold Fmt.round at hr
  split at hr
  · cases hr; rfl
  · simp only at hr
    split at hr <;> split at hr <;> cases hr <;> rfl

theorem round_ne_nan (f : Fmt) (neg : Bool) (num den : Nat) : f.round neg num den ≠ .nan := by
  unfold Fmt.round
  split
  · simp
  · simp only
    split <;> split <;> simp

/-- If rounding gives something below the overflow threshold a strictly nearest datum, that is it. -/
theorem round_of_strict (f : Fmt) (hf : f.Ok) (neg : Bool) (num den : Nat) (hd : 0 < den) {m : Nat} {e : Int}
    (hc : f.Canon (.fin neg m e)) (hb : (num:ℚ) / den < Spec.Fmt.tooBig f)
    (h : ∀ m' e', f.Canon (.fin neg m' e') → (m':ℚ) * (2:ℚ) ^ e' ≠ (m:ℚ) * (2:ℚ) ^ e →
      |(num:ℚ) / den - (m:ℚ) * (2:ℚ) ^ e| < |(num:ℚ) / den - (m':ℚ) * (2:ℚ) ^ e'|) :
    f.round neg num den = .fin neg m e := by
  obtain ⟨h1, h2⟩ := round_inf_iff f hf neg num den hd
  cases hr : f.round neg num den with
  | nan => exact absurd hr (round_ne_nan f neg num den)
  | inf s =>
    have := h2 s hr; subst this
    exact absurd (h1.1 hr) (by linarith)
  | fin s m' e' =>
    have hs := round_sign f neg num den hr
    subst hs
    have hc' := round_canon f hf s num den hd
    rw [hr] at hc'
    have hn := round_nearest f hf s num den hd hr m e hc.1 hc.2.1
    by_cases hv : (m':ℚ) * (2:ℚ) ^ e' = (m:ℚ) * (2:ℚ) ^ e
    · obtain ⟨rfl, rfl⟩ := canon_inj f hf hc' hc hv
      rfl
    · exact absurd (h m' e' hc' hv) (by linarith)

/-- What lies between a number that rounds to a datum and that datum rounds to it, too. -/
theorem round_between (f : Fmt) (hf : f.Ok) (neg : Bool) (n d n' d' : Nat) (hd : 0 < d) (hd' : 0 < d') {m : Nat} {e : Int}
    (hr : f.round neg n d = .fin neg m e)
    (hb : ((n:ℚ) / d ≤ (n':ℚ) / d' ∧ (n':ℚ) / d' ≤ (m:ℚ) * (2:ℚ) ^ e) ∨ ((m:ℚ) * (2:ℚ) ^ e ≤ (n':ℚ) / d' ∧ (n':ℚ) / d' ≤ (n:ℚ) / d)) :
    f.round neg n' d' = .fin neg m e := by
  by_cases he : (n:ℚ) / d = (n':ℚ) / d'
  · rw [← round_congr f neg hd hd' he, hr]
  have hc := round_canon f hf neg n d hd
  rw [hr] at hc
  obtain ⟨h1, h2⟩ := round_inf_iff f hf neg n d hd
  have hnb : (n:ℚ) / d < Spec.Fmt.tooBig f := by
    by_contra hcon
    rw [h1.2 (by linarith)] at hr; cases hr
  have hvb : (m:ℚ) * (2:ℚ) ^ e < Spec.Fmt.tooBig f := by
    unfold Spec.Fmt.tooBig
    have a1 : (m:ℚ) ≤ (2:ℚ) ^ f.p - 1 := by
      have : m + 1 ≤ 2 ^ f.p := hc.1
      have : ((m + 1 : Nat) : ℚ) ≤ ((2 ^ f.p : Nat) : ℚ) := by exact_mod_cast this
      push_cast at this; linarith
    have a2 : (2:ℚ) ^ e ≤ (2:ℚ) ^ f.emax := zpow_le_zpow_right₀ (by norm_num) hc.2.2.1
    have a3 : (0:ℚ) < (2:ℚ) ^ f.emax := by positivity
    have a4 : (0:ℚ) < (2:ℚ) ^ e := by positivity
    have a5 : (1:ℚ) ≤ (2:ℚ) ^ f.p := one_le_pow₀ (by norm_num)
    calc (m:ℚ) * (2:ℚ) ^ e ≤ ((2:ℚ) ^ f.p - 1) * (2:ℚ) ^ e := mul_le_mul_of_nonneg_right a1 a4.le
      _ ≤ ((2:ℚ) ^ f.p - 1) * (2:ℚ) ^ f.emax := mul_le_mul_of_nonneg_left a2 (by linarith)
      _ < _ := by nlinarith
  apply round_of_strict f hf neg n' d' hd' hc
  · rcases hb with hb | hb
    · linarith [hb.2]
    · linarith [hb.2]
  · intro m' e' hc' hv
    have hn := round_nearest f hf neg n d hd hr m' e' hc'.1 hc'.2.1
    generalize (m:ℚ) * (2:ℚ) ^ e = v at *
    generalize (m':ℚ) * (2:ℚ) ^ e' = w at *
    generalize (n:ℚ) / d = a at *
    generalize (n':ℚ) / d' = b at *
    rcases hb with ⟨b1, b2⟩ | ⟨b1, b2⟩
    · have b3 : a < b := lt_of_le_of_ne b1 he
      rw [abs_of_nonpos (by linarith : b - v ≤ 0)]
      rw [abs_of_nonpos (by linarith : a - v ≤ 0)] at hn
      rcases le_total w a with hw | hw
      · rw [abs_of_nonneg (by linarith)] at hn
        rw [abs_of_nonneg (by linarith)]; linarith
      · rw [abs_of_nonpos (by linarith)] at hn
        have : v < w := lt_of_le_of_ne (by linarith) (Ne.symm hv)
        rw [abs_of_nonpos (by linarith)]; linarith
    · have b3 : b < a := lt_of_le_of_ne b2 (Ne.symm he)
      rw [abs_of_nonneg (by linarith : 0 ≤ b - v)]
      rw [abs_of_nonneg (by linarith : 0 ≤ a - v)] at hn
      rcases le_total w a with hw | hw
      · rw [abs_of_nonneg (by linarith)] at hn
        have : w < v := lt_of_le_of_ne (by linarith) hv
        rw [abs_of_nonneg (by linarith)]; linarith
      · rw [abs_of_nonpos (by linarith)] at hn
        rw [abs_of_nonpos (by linarith)]; linarith

/-! ## Decimals -/

theorem decAux_bounds (fuel n : Nat) (h : n < fuel) (hn : 0 < n) :
    10 ^ ((decAux fuel n).length - 1) ≤ n ∧ n < 10 ^ (decAux fuel n).length ∧ (decAux fuel n).head? ≠ some '0' := by
  induction fuel generalizing n with
  | zero => omega
  | succ fuel ih =>
    rw [decAux]
    split
    · rename_i h10
      refine ⟨by simp; omega, by simpa using h10, ?_⟩
      rw [List.head?_cons]
      have : ∀ k < 10, 0 < k → some (digitChar k) ≠ some '0' := by decide
      exact this n h10 hn
    · rename_i h10
      obtain ⟨h1, h2, h3⟩ := ih (n / 10) (by omega) (by omega)
      have hne : decAux fuel (n / 10) ≠ [] := by
        cases fuel with
        | zero => omega
        | succ f => exact decAux_ne_nil f _
      have hl : 0 < (decAux fuel (n / 10)).length := List.length_pos_iff.2 hne
      rw [List.length_append, List.length_singleton]
      generalize (decAux fuel (n / 10)).length = l at *
      refine ⟨?_, ?_, ?_⟩
      · have : 10 ^ (l + 1 - 1) = 10 * 10 ^ (l - 1) := by rw [← Nat.pow_succ']; congr 1; omega
        rw [this]; omega
      · rw [Nat.pow_succ]; omega
      · cases hd : decAux fuel (n / 10) with
        | nil => exact absurd hd hne
        | cons c r => rw [hd] at h3; simpa using h3

theorem decNat_bounds (n : Nat) (hn : 0 < n) :
    10 ^ ((decNat n).length - 1) ≤ n ∧ n < 10 ^ (decNat n).length ∧ (decNat n).head? ≠ some '0' :=
  decAux_bounds _ _ (by omega) hn

theorem ten_split (a : Int) : (10:ℚ) ^ a = (10:ℚ) ^ a.toNat / (10:ℚ) ^ (-a).toNat := by
  have := ten_zpow_split 1 a
  simpa using this

theorem ten_le_frac_iff (num den : Nat) (hd : 0 < den) (a : Int) :
    den * 10 ^ a.toNat ≤ num * 10 ^ (-a).toNat ↔ (10:ℚ) ^ a ≤ (num:ℚ) / den := by
  rw [ten_split, div_le_div_iff₀ (by positivity) (by exact_mod_cast hd)]
  rw [← Nat.cast_le (α := ℚ)]
  push_cast
  rw [mul_comm]

theorem fracLog10_spec (num den : Nat) (hn : 0 < num) (hd : 0 < den) :
    (10:ℚ) ^ (fracLog10 num den) ≤ (num:ℚ) / den ∧ (num:ℚ) / den < (10:ℚ) ^ (fracLog10 num den + 1) := by
  have hdq : (0:ℚ) < den := by exact_mod_cast hd
  obtain ⟨n1, n2, -⟩ := decNat_bounds num hn
  obtain ⟨d1, d2, -⟩ := decNat_bounds den hd
  have ln : 0 < (decNat num).length := List.length_pos_iff.2 (decNat_ne_nil _)
  have ld : 0 < (decNat den).length := List.length_pos_iff.2 (decNat_ne_nil _)
  unfold fracLog10
  simp only
  generalize (decNat num).length = a at *
  generalize (decNat den).length = b at *
  have n1' : (10:ℚ) ^ ((a:Int) - 1) ≤ num := by
    have : ((a:Int) - 1) = ((a - 1 : Nat) : Int) := by omega
    rw [this, zpow_natCast]; exact_mod_cast n1
  have n2' : (num:ℚ) < (10:ℚ) ^ (a:Int) := by rw [zpow_natCast]; exact_mod_cast n2
  have d1' : (10:ℚ) ^ ((b:Int) - 1) ≤ den := by
    have : ((b:Int) - 1) = ((b - 1 : Nat) : Int) := by omega
    rw [this, zpow_natCast]; exact_mod_cast d1
  have d2' : (den:ℚ) < (10:ℚ) ^ (b:Int) := by rw [zpow_natCast]; exact_mod_cast d2
  have lower : (10:ℚ) ^ ((a:Int) - b - 1) ≤ (num:ℚ) / den := by
    rw [le_div_iff₀ hdq]
    calc (10:ℚ) ^ ((a:Int) - b - 1) * den ≤ (10:ℚ) ^ ((a:Int) - b - 1) * (10:ℚ) ^ (b:Int) := by
          apply mul_le_mul_of_nonneg_left d2'.le; positivity
      _ = (10:ℚ) ^ ((a:Int) - 1) := by rw [← zpow_add₀ (by norm_num)]; congr 1; omega
      _ ≤ num := n1'
  have upper : (num:ℚ) / den < (10:ℚ) ^ ((a:Int) - b + 1) := by
    rw [div_lt_iff₀ hdq]
    calc (num:ℚ) < (10:ℚ) ^ (a:Int) := n2'
      _ = (10:ℚ) ^ ((a:Int) - b + 1) * (10:ℚ) ^ ((b:Int) - 1) := by rw [← zpow_add₀ (by norm_num)]; congr 1; omega
      _ ≤ (10:ℚ) ^ ((a:Int) - b + 1) * den := by apply mul_le_mul_of_nonneg_left d1'; positivity
  split
  · rename_i h
    exact ⟨(ten_le_frac_iff num den hd _).1 h, upper⟩
  · rename_i h
    rw [ten_le_frac_iff num den hd] at h
    refine ⟨lower, ?_⟩
    rw [sub_add_cancel]; linarith

/-- The number a decimal denotes. -/
def decVal (c : Nat × Int) : ℚ := c.1 * (10:ℚ) ^ c.2

theorem carryDec_val (n d : Nat) (k : Int) (hn : 0 < n) : decVal (carryDec n d k) = d * (10:ℚ) ^ k := by
  unfold carryDec decVal
  split
  · rename_i h
    subst h
    simp only
    rw [zpow_add₀ (by norm_num), zpow_one]
    have : ((10 ^ n : Nat) : ℚ) = ((10 ^ (n - 1) : Nat) : ℚ) * 10 := by
      have h : n = n - 1 + 1 := by omega
      conv_lhs => rw [h]
      push_cast
      rw [pow_succ]
    rw [this]; ring
  · rfl

theorem carryDec_lt (n d : Nat) (k : Int) (hn : 0 < n) (h : d ≤ 10 ^ n) : (carryDec n d k).1 < 10 ^ n := by
  unfold carryDec
  split
  · exact Nat.pow_lt_pow_right (by decide) (by omega)
  · simp only; omega

/-- The two candidates: decimals of at most `n` digits, one on each side of the number with nothing of at most `n` digits between, the
nearer one first. -/
theorem decCandidates_spec (num den n : Nat) (hnum : 0 < num) (hd : 0 < den) (hn : 0 < n) :
    ∃ c1 c2 lo hi, decCandidates num den n = [c1, c2] ∧ c1.1 < 10 ^ n ∧ c2.1 < 10 ^ n ∧
      ((decVal c1 = lo ∧ decVal c2 = hi) ∨ (decVal c1 = hi ∧ decVal c2 = lo)) ∧
      lo ≤ (num:ℚ) / den ∧ (num:ℚ) / den < hi ∧
      (∀ c : Nat × Int, c.1 < 10 ^ n → decVal c ≤ lo ∨ hi ≤ decVal c) ∧
      |(num:ℚ) / den - decVal c1| ≤ |(num:ℚ) / den - decVal c2| ∧
      |(num:ℚ) / den - decVal c1| * 2 * (10:ℚ) ^ (n - 1) ≤ (num:ℚ) / den := by
  obtain ⟨l1, l2⟩ := fracLog10_spec num den hnum hd
  have hdq : (0:ℚ) < den := by exact_mod_cast hd
  unfold decCandidates
  simp only
  generalize hk : fracLog10 num den - ((n - 1 : Nat) : Int) = k
  have hL : fracLog10 num den = k + ((n - 1 : Nat) : Int) := by omega
  have hL1 : fracLog10 num den + 1 = k + (n : Int) := by omega
  rw [hL1, zpow_add₀ (by norm_num), zpow_natCast] at l2
  rw [hL, zpow_add₀ (by norm_num), zpow_natCast] at l1
  set a := num * 10 ^ (-k).toNat with ha
  set b := den * 10 ^ k.toNat with hb
  have hbpos : 0 < b := by positivity
  have hbq : (0:ℚ) < b := by exact_mod_cast hbpos
  have pk : (0:ℚ) < (10:ℚ) ^ k := by positivity
  have hab : (num:ℚ) / den = ((a:ℚ) / b) * (10:ℚ) ^ k := by
    rw [ha, hb, ten_split k]; push_cast
    have h1 : (10:ℚ) ^ (-k).toNat ≠ 0 := by positivity
    have h2 : (10:ℚ) ^ k.toNat ≠ 0 := by positivity
    field_simp
  have hdm : (a:ℚ) = b * (a / b : Nat) + (a % b : Nat) := by exact_mod_cast (Nat.div_add_mod a b).symm
  have hml : a % b < b := Nat.mod_lt _ hbpos
  generalize hq : a / b = q at *
  generalize hr : a % b = r at *
  have hx : (a:ℚ) / b = q + (r:ℚ) / b := by rw [hdm]; field_simp
  have hrb0 : (0:ℚ) ≤ (r:ℚ) / b := by positivity
  have hrb1 : (r:ℚ) / b < 1 := by rw [div_lt_one hbq]; exact_mod_cast hml
  rw [hab] at l1 l2 ⊢
  have l1' : (10:ℚ) ^ (n - 1) ≤ (a:ℚ) / b := by
    rw [mul_comm] at l1; exact le_of_mul_le_mul_right l1 pk
  have l2' : (a:ℚ) / b < (10:ℚ) ^ n := by
    rw [mul_comm ((10:ℚ) ^ k)] at l2; exact lt_of_mul_lt_mul_right l2 pk.le
  have hq1 : 10 ^ (n - 1) ≤ q := by
    have : (10:ℚ) ^ (n - 1) < q + 1 := by rw [hx] at l1'; linarith
    have : 10 ^ (n - 1) < q + 1 := by exact_mod_cast this
    omega
  have hq2 : q < 10 ^ n := by
    have : (q:ℚ) < (10:ℚ) ^ n := by rw [hx] at l2'; linarith
    exact_mod_cast this
  have vq : decVal (q, k) = q * (10:ℚ) ^ k := rfl
  have vq1 : decVal (carryDec n (q + 1) k) = (q + 1 : ℚ) * (10:ℚ) ^ k := by rw [carryDec_val n _ k hn]; push_cast; rfl
  have cq1 : (carryDec n (q + 1) k).1 < 10 ^ n := carryDec_lt n _ k hn (by omega)
  have gap : ∀ c : Nat × Int, c.1 < 10 ^ n → decVal c ≤ q * (10:ℚ) ^ k ∨ (q + 1 : ℚ) * (10:ℚ) ^ k ≤ decVal c := by
    rintro ⟨d, k'⟩ hc
    simp only at hc
    unfold decVal
    simp only
    rcases le_or_gt k k' with hkk | hkk
    · obtain ⟨j, hj⟩ := Int.eq_ofNat_of_zero_le (by omega : 0 ≤ k' - k)
      have : k' = (j:Int) + k := by omega
      rw [this, zpow_add₀ (by norm_num), zpow_natCast, ← mul_assoc]
      rcases Nat.lt_or_ge q (d * 10 ^ j) with h | h
      · right
        apply mul_le_mul_of_nonneg_right _ pk.le
        have : ((q + 1 : Nat) : ℚ) ≤ ((d * 10 ^ j : Nat) : ℚ) := by exact_mod_cast h
        push_cast at this; exact this
      · left
        apply mul_le_mul_of_nonneg_right _ pk.le
        have : ((d * 10 ^ j : Nat) : ℚ) ≤ ((q : Nat) : ℚ) := by exact_mod_cast h
        push_cast at this; exact this
    · left
      have h1 : (10:ℚ) ^ k' ≤ (10:ℚ) ^ (k - 1) := zpow_le_zpow_right₀ (by norm_num) (by omega)
      have h2 : (d:ℚ) ≤ (10:ℚ) ^ n := by exact_mod_cast hc.le
      have h3 : (10:ℚ) ^ (n - 1) ≤ q := by exact_mod_cast hq1
      calc (d:ℚ) * (10:ℚ) ^ k' ≤ (10:ℚ) ^ n * (10:ℚ) ^ (k - 1) := mul_le_mul h2 h1 (by positivity) (by positivity)
        _ = (10:ℚ) ^ (n - 1) * (10:ℚ) ^ k := by
          rw [← zpow_natCast, ← zpow_natCast, ← zpow_add₀ (by norm_num), ← zpow_add₀ (by norm_num)]; congr 1; omega
        _ ≤ q * (10:ℚ) ^ k := mul_le_mul_of_nonneg_right h3 pk.le
  have dlo : |(a:ℚ) / b * (10:ℚ) ^ k - q * (10:ℚ) ^ k| = (r:ℚ) / b * (10:ℚ) ^ k := by
    rw [← sub_mul, hx, abs_of_nonneg]
    · ring
    · apply mul_nonneg _ pk.le; linarith
  have dhi : |(a:ℚ) / b * (10:ℚ) ^ k - (q + 1) * (10:ℚ) ^ k| = (1 - (r:ℚ) / b) * (10:ℚ) ^ k := by
    rw [← sub_mul, hx, abs_of_nonpos]
    · ring
    · apply mul_nonpos_of_nonpos_of_nonneg _ pk.le; linarith
  have fin17 : ∀ t : ℚ, 0 ≤ t → t ≤ 1 / 2 → t * (10:ℚ) ^ k * 2 * (10:ℚ) ^ (n - 1) ≤ (a:ℚ) / b * (10:ℚ) ^ k := by
    intro t ht0 ht
    have p1 : (0:ℚ) < (10:ℚ) ^ (n - 1) := by positivity
    have : t * 2 * (10:ℚ) ^ (n - 1) ≤ (a:ℚ) / b := by nlinarith
    calc t * (10:ℚ) ^ k * 2 * (10:ℚ) ^ (n - 1) = (t * 2 * (10:ℚ) ^ (n - 1)) * (10:ℚ) ^ k := by ring
      _ ≤ _ := mul_le_mul_of_nonneg_right this pk.le
  have lo_le : (q:ℚ) * (10:ℚ) ^ k ≤ (a:ℚ) / b * (10:ℚ) ^ k := mul_le_mul_of_nonneg_right (by linarith) pk.le
  have lt_hi : (a:ℚ) / b * (10:ℚ) ^ k < (q + 1 : ℚ) * (10:ℚ) ^ k := mul_lt_mul_of_pos_right (by linarith) pk
  split
  · rename_i h
    have hrb : (r:ℚ) / b ≤ 1 / 2 := by
      rw [div_le_div_iff₀ hbq (by norm_num)]
      have : r * 2 ≤ 1 * b := by omega
      exact_mod_cast this
    refine ⟨_, _, _, _, rfl, hq2, cq1, Or.inl ⟨vq, vq1⟩, lo_le, lt_hi, gap, ?_, ?_⟩
    · rw [vq, vq1, dlo, dhi]
      apply mul_le_mul_of_nonneg_right _ pk.le; linarith
    · rw [vq, dlo]; exact fin17 _ hrb0 hrb
  · rename_i h
    have hrb : 1 / 2 ≤ (r:ℚ) / b := by
      rw [div_le_div_iff₀ (by norm_num) hbq]
      have : 1 * b ≤ r * 2 := by omega
      exact_mod_cast this
    refine ⟨_, _, _, _, rfl, cq1, hq2, Or.inr ⟨vq1, vq⟩, lo_le, lt_hi, gap, ?_, ?_⟩
    · rw [vq, vq1, dlo, dhi]
      apply mul_le_mul_of_nonneg_right _ pk.le; linarith
    · rw [vq1, dhi]; exact fin17 _ (by linarith) (by linarith)

/-! ## The shortest decimal -/

theorem ofDecimal_round (neg : Bool) (c : Nat × Int) :
    (F64.ofDecimal neg c.1 c.2).1 = fmt64.round neg (c.1 * 10 ^ c.2.toNat) (10 ^ (-c.2).toNat) := rfl

theorem decVal_frac (c : Nat × Int) : decVal c = ((c.1 * 10 ^ c.2.toNat : Nat) : ℚ) / ((10 ^ (-c.2).toNat : Nat) : ℚ) :=
  ten_zpow_split c.1 c.2

/-- The decimal is read as the datum. -/
def Reads (neg : Bool) (m : Nat) (e : Int) (c : Nat × Int) : Prop := (F64.ofDecimal neg c.1 c.2).1 = .fin neg m e

theorem reads_between {neg : Bool} {m : Nat} {e : Int} {c c' : Nat × Int} (h : Reads neg m e c)
    (hb : (decVal c ≤ decVal c' ∧ decVal c' ≤ (m:ℚ) * (2:ℚ) ^ e) ∨ ((m:ℚ) * (2:ℚ) ^ e ≤ decVal c' ∧ decVal c' ≤ decVal c)) :
    Reads neg m e c' := by
  unfold Reads at h ⊢
  rw [ofDecimal_round] at h ⊢
  rw [decVal_frac, decVal_frac] at hb
  exact round_between fmt64 fmt64_ok neg _ _ _ _ (by positivity) (by positivity) h hb

theorem reads_congr {neg : Bool} {m : Nat} {e : Int} {c c' : Nat × Int} (h : Reads neg m e c) (hc : decVal c = decVal c') :
    Reads neg m e c' := by
  rcases le_total (decVal c) ((m:ℚ) * (2:ℚ) ^ e) with h1 | h1
  · exact reads_between h (Or.inl ⟨hc.le, hc ▸ h1⟩)
  · exact reads_between h (Or.inr ⟨hc ▸ h1, hc.ge⟩)

/-- Any two data are far apart, compared with their size. -/
theorem gap64 {neg : Bool} {m m' : Nat} {e e' : Int} (hm : fmt64.Canon (.fin neg m e)) (hm' : fmt64.Canon (.fin neg m' e'))
    (hne : (m':ℚ) * (2:ℚ) ^ e' ≠ (m:ℚ) * (2:ℚ) ^ e) (hpos : 0 < m) :
    (m:ℚ) * (2:ℚ) ^ e < 10 ^ 16 * |(m:ℚ) * (2:ℚ) ^ e - (m':ℚ) * (2:ℚ) ^ e'| := by
  obtain ⟨h1, h2, h3, h4⟩ := hm
  obtain ⟨h1', h2', h3', h4'⟩ := hm'
  have h1 : m < 2 ^ 53 := h1
  have h1' : m' < 2 ^ 53 := h1'
  have pe : (0:ℚ) < (2:ℚ) ^ e := by positivity
  rcases le_or_gt e e' with hee | hee
  · obtain ⟨j, hj⟩ := Int.eq_ofNat_of_zero_le (by omega : 0 ≤ e' - e)
    have : e' = (j:Int) + e := by omega
    rw [this, zpow_add₀ (by norm_num), zpow_natCast, ← mul_assoc, ← sub_mul, abs_mul, abs_of_pos pe] 
    rw [this, zpow_add₀ (by norm_num), zpow_natCast, ← mul_assoc] at hne
    have hne' : (m' * 2 ^ j : Nat) ≠ m := by
      intro h; apply hne; rw [← h]; push_cast; ring
    have h1a : (1:ℚ) ≤ |(m:ℚ) - (m':ℚ) * 2 ^ j| := by
      have : (1:ℤ) ≤ |(m:ℤ) - (m':ℤ) * 2 ^ j| := by
        apply Int.one_le_abs
        intro h
        apply hne'
        have : (m:ℤ) = ((m' * 2 ^ j : Nat) : ℤ) := by push_cast; linarith
        exact_mod_cast this.symm
      exact_mod_cast this
    have h1q : (m:ℚ) < 2 ^ 53 := by exact_mod_cast h1
    calc (m:ℚ) * (2:ℚ) ^ e < 10 ^ 16 * (2:ℚ) ^ e := by
          apply mul_lt_mul_of_pos_right _ pe
          norm_num at h1q ⊢; linarith
      _ ≤ 10 ^ 16 * (|(m:ℚ) - (m':ℚ) * 2 ^ j| * (2:ℚ) ^ e) := by
          apply mul_le_mul_of_nonneg_left _ (by norm_num)
          nlinarith
  · have hn : 2 ^ 52 ≤ m := by
      rcases h4 with h | h
      · exact h
      · have h2' : fmt64.emin ≤ e' := h2'
        omega
    have hle : (2:ℚ) ^ e' ≤ (2:ℚ) ^ (e - 1) := zpow_le_zpow_right₀ (by norm_num) (by omega)
    have he : (2:ℚ) ^ e = 2 * (2:ℚ) ^ (e - 1) := by
      rw [← zpow_one_add₀ (by norm_num)]; congr 1; omega
    have p1 : (0:ℚ) < (2:ℚ) ^ (e - 1) := by positivity
    have hmq' : (m':ℚ) ≤ 2 ^ 53 - 1 := by
      have : ((m' + 1 : Nat) : ℚ) ≤ ((2 ^ 53 : Nat) : ℚ) := by exact_mod_cast h1'
      push_cast at this; linarith
    have hmq : (4503599627370496:ℚ) ≤ m := by
      have : 4503599627370496 ≤ m := by simpa using hn
      exact_mod_cast this
    have p53 : (2:ℚ) ^ 53 = 9007199254740992 := by norm_num
    have p16 : (10:ℚ) ^ 16 = 10000000000000000 := by norm_num
    have hw : (m':ℚ) * (2:ℚ) ^ e' ≤ (2 ^ 53 - 1) * (2:ℚ) ^ (e - 1) :=
      mul_le_mul hmq' hle (by positivity) (by norm_num)
    rw [he]
    generalize (2:ℚ) ^ (e - 1) = g at *
    generalize (m':ℚ) * (2:ℚ) ^ e' = w at *
    have hd : (2 * (m:ℚ) - (2 ^ 53 - 1)) * g ≤ (m:ℚ) * (2 * g) - w := by linarith
    have hd0 : 0 < (2 * (m:ℚ) - (2 ^ 53 - 1)) * g := by
      apply mul_pos _ p1; rw [p53]; linarith
    rw [abs_of_pos (by linarith)]
    have : (m:ℚ) * (2 * g) < 10 ^ 16 * ((2 * (m:ℚ) - (2 ^ 53 - 1)) * g) := by
      have : (m:ℚ) * 2 < 10 ^ 16 * (2 * (m:ℚ) - (2 ^ 53 - 1)) := by rw [p53, p16]; linarith
      nlinarith
    nlinarith

/-- The nearest decimal of at most 17 digits reads back. -/
theorem reads_17 {neg : Bool} {m : Nat} {e : Int} (h : fmt64.Canon (.fin neg m e)) (hpos : 0 < m) (c : Nat × Int)
    (hc : |(m:ℚ) * (2:ℚ) ^ e - decVal c| * 2 * (10:ℚ) ^ 16 ≤ (m:ℚ) * (2:ℚ) ^ e) : Reads neg m e c := by
  unfold Reads
  rw [ofDecimal_round]
  refine round_of_strict fmt64 fmt64_ok neg _ _ (by positivity) h ?_ ?_
  · rw [← decVal_frac]
    have hv : (m:ℚ) * (2:ℚ) ^ e ≤ (2 ^ 53 - 1) * (2:ℚ) ^ (971:Int) := by
      have h1 : m + 1 ≤ 2 ^ 53 := h.1
      have a1 : (m:ℚ) ≤ 2 ^ 53 - 1 := by
        have : ((m + 1 : Nat) : ℚ) ≤ ((2 ^ 53 : Nat) : ℚ) := by exact_mod_cast h1
        push_cast at this; linarith
      have a2 : (2:ℚ) ^ e ≤ (2:ℚ) ^ (971:Int) := zpow_le_zpow_right₀ (by norm_num) h.2.2.1
      exact mul_le_mul a1 a2 (by positivity) (by norm_num)
    have hT : Spec.Fmt.tooBig fmt64 = (2 ^ 53 - 1 / 2) * (2:ℚ) ^ (971:Int) := rfl
    rw [hT]
    have p : (0:ℚ) < (2:ℚ) ^ (971:Int) := by positivity
    have hab := neg_abs_le ((m:ℚ) * (2:ℚ) ^ e - decVal c)
    generalize (m:ℚ) * (2:ℚ) ^ e = v at *
    generalize |v - decVal c| = t at *
    generalize (2:ℚ) ^ (971:Int) = g at *
    norm_num at hc hv ⊢
    linarith
  · intro m' e' hc' hne
    rw [← decVal_frac]
    have hg := gap64 h hc' hne hpos
    have h1 := abs_sub_abs_le_abs_sub ((m:ℚ) * (2:ℚ) ^ e - (m':ℚ) * (2:ℚ) ^ e') ((m:ℚ) * (2:ℚ) ^ e - decVal c)
    have h2 : |(m:ℚ) * (2:ℚ) ^ e - (m':ℚ) * (2:ℚ) ^ e' - ((m:ℚ) * (2:ℚ) ^ e - decVal c)| = |decVal c - (m':ℚ) * (2:ℚ) ^ e'| := by
      congr 1; ring
    rw [h2] at h1
    rw [abs_sub_comm (decVal c) ((m:ℚ) * (2:ℚ) ^ e)]
    have hpow : (10:ℚ) ^ 16 = 10000000000000000 := by norm_num
    rw [hpow] at hg hc
    linarith

theorem find_flatMap {α β : Type} {p : β → Bool} {f : α → List β} {l : List α} {x : β} (h : (l.flatMap f).find? p = some x) :
    ∃ l1 a l2, l = l1 ++ a :: l2 ∧ (f a).find? p = some x ∧ ∀ a' ∈ l1, ∀ y ∈ f a', p y = false := by
  induction l with
  | nil => simp at h
  | cons a l ih =>
    rw [List.flatMap_cons, List.find?_append] at h
    cases hf : (f a).find? p with
    | some y =>
      rw [hf] at h; cases h
      exact ⟨[], a, l, rfl, hf, by simp⟩
    | none =>
      rw [hf] at h
      obtain ⟨l1, b, l2, rfl, h1, h2⟩ := ih (by simpa using h)
      refine ⟨a :: l1, b, l2, rfl, h1, ?_⟩
      intro a' ha' y hy
      rcases List.mem_cons.1 ha' with rfl | ha'
      · simpa using List.find?_eq_none.1 hf y hy
      · exact h2 a' ha' y hy

theorem range_split {n : Nat} {l1 l2 : List Nat} {a : Nat} (h : List.range n = l1 ++ a :: l2) : a < n ∧ ∀ i < a, i ∈ l1 := by
  have hl : l1.length < n := by
    have := congrArg List.length h
    simp at this; omega
  have ha : a = l1.length := by
    have h1 : (List.range n)[l1.length]? = some a := by rw [h]; simp
    rw [List.getElem?_range hl] at h1
    exact (Option.some.inj h1).symm
  refine ⟨by omega, fun i hi => ?_⟩
  have h1 : (List.range n)[i]? = some i := List.getElem?_range (by omega)
  rw [h, List.getElem?_append_left (by omega)] at h1
  exact List.mem_of_getElem? h1

/-- **The shortest decimal.** It reads back; it has at most 17 digits; no decimal with fewer digits reads back; of those with as many,
none is nearer. -/
theorem shortestDec_shortest (neg : Bool) (m : Nat) (e : Int) (h : fmt64.Canon (.fin neg m e)) (hpos : 0 < m) :
    ∃ n, 0 < n ∧ n ≤ 17 ∧ (shortestDec neg m e).1 < 10 ^ n ∧ Reads neg m e (shortestDec neg m e) ∧
      (∀ c n', Reads neg m e c → c.1 < 10 ^ n' → n ≤ n') ∧
      (∀ c, Reads neg m e c → c.1 < 10 ^ n →
        |(m:ℚ) * (2:ℚ) ^ e - decVal (shortestDec neg m e)| ≤ |(m:ℚ) * (2:ℚ) ^ e - decVal c|) := by
  have hv : (m:ℚ) * (2:ℚ) ^ e = ((m * 2 ^ e.toNat : Nat) : ℚ) / ((2 ^ (-e).toNat : Nat) : ℚ) := by
    rw [two_zpow_split]; push_cast; rw [mul_div_assoc]
  have hnum : 0 < m * 2 ^ e.toNat := by positivity
  have hden : 0 < 2 ^ (-e).toNat := by positivity
  have spec := fun n (hn : 0 < n) => decCandidates_spec (m * 2 ^ e.toNat) (2 ^ (-e).toNat) n hnum hden hn
  have h0 : ∀ c, Reads neg m e c → 0 < c.1 := by
    intro c hc
    by_contra hz
    have hz : c.1 = 0 := by omega
    unfold Reads at hc
    rw [ofDecimal_round, hz] at hc
    simp only [zero_mul, Fmt.round, if_true] at hc
    injection hc with _ hm0 _
    omega
  -- whatever reads back with at most `n` digits has a candidate that does
  have key : ∀ n, 0 < n → ∀ c, Reads neg m e c → c.1 < 10 ^ n → ∃ c' ∈ decCandidates (m * 2 ^ e.toNat) (2 ^ (-e).toNat) n, Reads neg m e c' := by
    intro n hn c hc hlt
    obtain ⟨c1, c2, lo, hi, hl, -, -, hlh, hlo, hhi, hgap, -, -⟩ := spec n hn
    rw [← hv] at hlo hhi
    rw [hl]
    rcases hgap c hlt with hg | hg
    · rcases hlh with ⟨e1, e2⟩ | ⟨e1, e2⟩
      · exact ⟨c1, by simp, reads_between hc (Or.inl ⟨by rw [e1]; exact hg, by rw [e1]; exact hlo⟩)⟩
      · exact ⟨c2, by simp, reads_between hc (Or.inl ⟨by rw [e2]; exact hg, by rw [e2]; exact hlo⟩)⟩
    · rcases hlh with ⟨e1, e2⟩ | ⟨e1, e2⟩
      · exact ⟨c2, by simp, reads_between hc (Or.inr ⟨by rw [e2]; exact hhi.le, by rw [e2]; exact hg⟩)⟩
      · exact ⟨c1, by simp, reads_between hc (Or.inr ⟨by rw [e1]; exact hhi.le, by rw [e1]; exact hg⟩)⟩
  have hsome : ∃ c, ((List.range 17).flatMap fun i => decCandidates (m * 2 ^ e.toNat) (2 ^ (-e).toNat) (i + 1)).find?
      (fun c => decide ((F64.ofDecimal neg c.1 c.2).1 = .fin neg m e)) = some c := by
    rw [← Option.isSome_iff_exists, List.find?_isSome]
    obtain ⟨c1, c2, lo, hi, hl, -, -, -, -, -, -, -, h17⟩ := spec 17 (by decide)
    refine ⟨c1, List.mem_flatMap.2 ⟨16, by simp, ?_⟩, ?_⟩
    · rw [hl]; simp
    · rw [← hv] at h17
      have := reads_17 h hpos c1 h17
      unfold Reads at this
      simpa using this
  obtain ⟨c, hc⟩ := hsome
  have hs : shortestDec neg m e = c := by
    unfold shortestDec
    simp only
    rw [hc]
  rw [hs]
  obtain ⟨l1, i, l2, hr, hfi, hsmall⟩ := find_flatMap hc
  obtain ⟨hi17, hbefore⟩ := range_split hr
  obtain ⟨c1, c2, lo, hi, hl, d1, d2, hlh, hlo, hhi, hgap, hnear, -⟩ := spec (i + 1) (by omega)
  rw [← hv] at hlo hhi hnear
  rw [hl] at hfi
  have hread : Reads neg m e c := by
    have := List.find?_some hfi
    unfold Reads
    simpa using this
  have hcases : c = c1 ∨ (c = c2 ∧ ¬ Reads neg m e c1) := by
    rw [List.find?_cons] at hfi
    split at hfi
    · cases hfi; exact Or.inl rfl
    · rename_i hno
      rw [List.find?_cons] at hfi
      split at hfi
      · cases hfi
        refine Or.inr ⟨rfl, ?_⟩
        unfold Reads; simpa using hno
      · simp at hfi
  refine ⟨i + 1, by omega, by omega, ?_, hread, ?_, ?_⟩
  · rcases hcases with rfl | ⟨rfl, -⟩ <;> assumption
  · intro c' n' hc' hlt
    by_contra hcon
    rcases Nat.eq_zero_or_pos n' with rfl | hn'
    · have := h0 c' hc'
      simp at hlt; omega
    · obtain ⟨c'', hm'', hr''⟩ := key n' hn' c' hc' hlt
      have := hsmall (n' - 1) (hbefore _ (by omega)) c'' (by rw [show n' - 1 + 1 = n' by omega]; exact hm'')
      unfold Reads at hr''
      simp [hr''] at this
  · intro c' hc' hlt
    have far_lo : decVal c' ≤ lo → |(m:ℚ) * (2:ℚ) ^ e - lo| ≤ |(m:ℚ) * (2:ℚ) ^ e - decVal c'| := by
      intro hle; rw [abs_of_nonneg (by linarith), abs_of_nonneg (by linarith)]; linarith
    have far_hi : hi ≤ decVal c' → |(m:ℚ) * (2:ℚ) ^ e - hi| ≤ |(m:ℚ) * (2:ℚ) ^ e - decVal c'| := by
      intro hle; rw [abs_of_nonpos (by linarith), abs_of_nonpos (by linarith)]; linarith
    rcases hcases with rfl | ⟨rfl, hno⟩
    · rcases hgap c' hlt with hg | hg
      · rcases hlh with ⟨e1, e2⟩ | ⟨e1, e2⟩
        · rw [e1]; exact far_lo hg
        · rw [e2] at hnear; exact hnear.trans (far_lo hg)
      · rcases hlh with ⟨e1, e2⟩ | ⟨e1, e2⟩
        · rw [e2] at hnear; exact hnear.trans (far_hi hg)
        · rw [e1]; exact far_hi hg
    · rcases hgap c' hlt with hg | hg
      · rcases hlh with ⟨e1, e2⟩ | ⟨e1, e2⟩
        · exact absurd (reads_between hc' (Or.inl ⟨by rw [e1]; exact hg, by rw [e1]; exact hlo⟩)) hno
        · rw [e2]; exact far_lo hg
      · rcases hlh with ⟨e1, e2⟩ | ⟨e1, e2⟩
        · rw [e2]; exact far_hi hg
        · exact absurd (reads_between hc' (Or.inr ⟨by rw [e1]; exact hhi.le, by rw [e1]; exact hg⟩)) hno

end Verif
