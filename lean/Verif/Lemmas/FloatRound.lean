import Verif.Lemmas.Float
import Verif.Spec.Float
/-! Canonicity and correctness of `Fmt.round`. -/
namespace Verif
open Spec

/-- Parameters for which the rounding function makes sense. -/
structure Fmt.Ok (f : Fmt) : Prop where
  hp : 2 ≤ f.p
  he : f.emin ≤ f.emax

theorem fmt64_ok : fmt64.Ok := ⟨by decide, by decide⟩
theorem fmt32_ok : fmt32.Ok := ⟨by decide, by decide⟩

/-- Scaled fraction. -/
theorem scaled_frac (num den : Nat) (hd : 0 < den) (e : Int) :
    ((num * 2 ^ (-e).toNat : Nat) : ℚ) / ((den * 2 ^ e.toNat : Nat) : ℚ) = (num:ℚ) / den / (2:ℚ) ^ e := by
  have hdq : (den:ℚ) ≠ 0 := by exact_mod_cast hd.ne'
  rw [two_zpow_split]
  push_cast
  field_simp

/-- The exponent chosen by `Fmt.round`. -/
def Fmt.rexp (f : Fmt) (num den : Nat) : Int := max f.emin (fracLog2 num den - ((f.p : Int) - 1))
/-- The mantissa chosen by `Fmt.round`, before carry. -/
def Fmt.rman (f : Fmt) (num den : Nat) : Nat :=
  divHalfEven (num * 2 ^ (-(f.rexp num den)).toNat) (den * 2 ^ (f.rexp num den).toNat)

theorem rman_facts (f : Fmt) (num den : Nat) (hn : 0 < num) (hd : 0 < den) :
    (num:ℚ) / den / (2:ℚ) ^ (f.rexp num den) < 2 ^ f.p ∧
    (f.rexp num den ≠ f.emin → (2:ℚ) ^ (f.p - 1 : Int) ≤ (num:ℚ) / den / (2:ℚ) ^ (f.rexp num den)) := by
  obtain ⟨h1, h2⟩ := fracLog2_spec num den hn hd
  have hpow : (0:ℚ) < (2:ℚ) ^ (f.rexp num den) := by positivity
  constructor
  · rw [div_lt_iff₀ hpow]
    refine lt_of_lt_of_le h2 ?_
    rw [← zpow_natCast (2:ℚ) f.p, ← zpow_add₀ (by norm_num)]
    apply zpow_le_zpow_right₀ (by norm_num)
    unfold Fmt.rexp; omega
  · intro hne
    rw [le_div_iff₀ hpow, ← zpow_add₀ (by norm_num)]
    refine le_trans ?_ h1
    apply zpow_le_zpow_right₀ (by norm_num)
    unfold Fmt.rexp at *; omega

theorem nat_le_of_near {t : ℚ} {q k : Nat} (h : |t - (q:ℚ)| ≤ 1 / 2) (ht : t < k) : q ≤ k := by
  have h1 := (abs_le.1 h).1
  have : (q:ℚ) < (k:ℚ) + 1 := by linarith
  have : q < k + 1 := by exact_mod_cast this
  omega

theorem nat_ge_of_near {t : ℚ} {q k : Nat} (h : |t - (q:ℚ)| ≤ 1 / 2) (ht : (k:ℚ) ≤ t) : k ≤ q := by
  have h1 := (abs_le.1 h).2
  have : (k:ℚ) < (q:ℚ) + 1 := by linarith
  have : k < q + 1 := by exact_mod_cast this
  omega

theorem rman_bounds (f : Fmt) (hf : f.Ok) (num den : Nat) (hn : 0 < num) (hd : 0 < den) :
    f.rman num den ≤ 2 ^ f.p ∧ (f.rexp num den ≠ f.emin → 2 ^ (f.p - 1) ≤ f.rman num den) := by
  obtain ⟨h1, h2⟩ := rman_facts f num den hn hd
  have hs := (divHalfEven_spec (num * 2 ^ (-(f.rexp num den)).toNat) (den * 2 ^ (f.rexp num den).toNat)
    (by positivity)).1
  rw [scaled_frac num den hd] at hs
  have hp := hf.hp
  constructor
  · exact nat_le_of_near hs (by push_cast; exact h1)
  · intro hne
    refine nat_ge_of_near hs ?_
    have := h2 hne
    have e1 : ((f.p : Int) - 1) = ((f.p - 1 : Nat) : Int) := by omega
    rw [e1, zpow_natCast] at this
    push_cast; exact this

theorem round_eq (f : Fmt) (neg : Bool) (num den : Nat) (hn : num ≠ 0) :
    f.round neg num den =
      (if f.rman num den = 2 ^ f.p then
        (if f.rexp num den + 1 > f.emax then .inf neg else .fin neg (2 ^ (f.p - 1)) (f.rexp num den + 1))
      else (if f.rexp num den > f.emax then .inf neg else .fin neg (f.rman num den) (f.rexp num den))) := by
  unfold Fmt.round
  simp only [hn, if_false]
  simp only [Fmt.rman, Fmt.rexp]
  split <;> simp_all

theorem round_canon (f : Fmt) (hf : f.Ok) (neg : Bool) (num den : Nat) (hd : 0 < den) :
    f.Canon (f.round neg num den) := by
  by_cases hn : num = 0
  · subst hn
    simp [Fmt.round, Fmt.Canon, hf.he]
  · rw [round_eq f neg num den hn]
    obtain ⟨b1, b2⟩ := rman_bounds f hf num den (by omega) hd
    have he : f.emin ≤ f.rexp num den := by unfold Fmt.rexp; omega
    have hp := hf.hp
    have hpp : 2 ^ f.p = 2 * 2 ^ (f.p - 1) := by rw [← Nat.pow_succ']; congr 1; omega
    have hpos : 0 < 2 ^ (f.p - 1) := by positivity
    split
    · split
      · trivial
      · refine ⟨by omega, by omega, by omega, Or.inl (le_refl _)⟩
    · split
      · trivial
      · refine ⟨by omega, by omega, by omega, ?_⟩
        by_cases h : f.rexp num den = f.emin
        · exact Or.inr h
        · exact Or.inl (b2 h)

/-- Value of the rounded magnitude. -/
theorem round_val (f : Fmt) (hf : f.Ok) (neg : Bool) (num den : Nat) (hn : num ≠ 0)
    {s m e} (h : f.round neg num den = .fin s m e) :
    s = neg ∧ (m:ℚ) * (2:ℚ) ^ e = (f.rman num den : ℚ) * (2:ℚ) ^ (f.rexp num den) ∧
      (f.rman num den % 2 = 0 → 2 < f.p → m % 2 = 0) := by
  rw [round_eq f neg num den hn] at h
  have hp := hf.hp
  split at h
  · rename_i hq
    split at h
    · simp at h
    · simp only [FpRaw.fin.injEq] at h
      obtain ⟨rfl, rfl, rfl⟩ := h
      refine ⟨rfl, ?_, ?_⟩
      · rw [hq, zpow_add₀ (by norm_num)]
        have hpp : ((2 ^ f.p : Nat) : ℚ) = 2 * ((2 ^ (f.p - 1) : Nat) : ℚ) := by
          have : 2 ^ f.p = 2 * 2 ^ (f.p - 1) := by rw [← Nat.pow_succ']; congr 1; omega
          exact_mod_cast this
        rw [hpp]; push_cast; ring
      · intro _ h2
        have : 2 ^ (f.p - 1) = 2 * 2 ^ (f.p - 1 - 1) := by rw [← Nat.pow_succ']; congr 1; omega
        omega
  · split at h
    · simp at h
    · simp only [FpRaw.fin.injEq] at h
      obtain ⟨rfl, rfl, rfl⟩ := h
      exact ⟨rfl, rfl, fun h _ => h⟩

/-- Key lemma: the rounded magnitude is nearest among all data with a mantissa of the format's width. -/
theorem rman_nearest (f : Fmt) (hf : f.Ok) (num den : Nat) (hn : 0 < num) (hd : 0 < den)
    (m' : Nat) (e' : Int) (hm : m' < 2 ^ f.p) (he : f.emin ≤ e') :
    |(num:ℚ) / den - (f.rman num den : ℚ) * (2:ℚ) ^ (f.rexp num den)| ≤
      |(num:ℚ) / den - (m' : ℚ) * (2:ℚ) ^ e'| := by
  obtain ⟨h1, h2⟩ := rman_facts f num den hn hd
  have hpow : (0:ℚ) < (2:ℚ) ^ (f.rexp num den) := by positivity
  have hnear := fun k => divHalfEven_nearest (num * 2 ^ (-(f.rexp num den)).toNat)
    (den * 2 ^ (f.rexp num den).toNat) (by positivity) k
  rw [scaled_frac num den hd] at hnear
  change ∀ k : Int, |(num:ℚ) / den / 2 ^ f.rexp num den - (f.rman num den : ℚ)| ≤ _ at hnear
  -- divide by the unit
  have scale : ∀ w : ℚ, |(num:ℚ) / den - w| =
      |(num:ℚ) / den / (2:ℚ) ^ (f.rexp num den) - w / (2:ℚ) ^ (f.rexp num den)| * (2:ℚ) ^ (f.rexp num den) := by
    intro w
    rw [← sub_div, abs_div, abs_of_pos hpow]; field_simp
  rw [scale, scale ((m':ℚ) * 2 ^ e')]
  apply mul_le_mul_of_nonneg_right _ hpow.le
  rw [mul_div_assoc, div_self hpow.ne', mul_one]
  by_cases hge : f.rexp num den ≤ e'
  · -- the other datum is an integer multiple of the unit
    obtain ⟨d, hd'⟩ := Int.eq_ofNat_of_zero_le (by omega : 0 ≤ e' - f.rexp num den)
    have := hnear ((m' * 2 ^ d : Nat) : Int)
    have e1 : (m':ℚ) * 2 ^ e' / 2 ^ (f.rexp num den) = (((m' * 2 ^ d : Nat) : Int) : ℚ) := by
      rw [mul_div_assoc, ← zpow_sub₀ (by norm_num), hd']; simp
    rw [e1]; exact this
  · push Not at hge
    have hne : f.rexp num den ≠ f.emin := by omega
    have hlow := h2 hne
    have hp := hf.hp
    have := hnear ((2 ^ (f.p - 1) : Nat) : Int)
    refine le_trans this ?_
    have e1 : ((((2 ^ (f.p - 1) : Nat) : Int)) : ℚ) = (2:ℚ) ^ ((f.p:Int) - 1) := by
      have : ((f.p : Int) - 1) = ((f.p - 1 : Nat) : Int) := by omega
      rw [this, zpow_natCast]; push_cast; rfl
    rw [e1, abs_of_nonneg (by linarith)]
    have hy : (m':ℚ) * 2 ^ e' / 2 ^ (f.rexp num den) ≤ (2:ℚ) ^ ((f.p:Int) - 1) := by
      rw [div_le_iff₀ hpow, ← zpow_add₀ (by norm_num)]
      calc (m':ℚ) * 2 ^ e' ≤ (2:ℚ) ^ (f.p : Int) * 2 ^ e' := by
            apply mul_le_mul_of_nonneg_right _ (by positivity)
            rw [zpow_natCast]; exact_mod_cast hm.le
        _ ≤ _ := by
            rw [← zpow_add₀ (by norm_num)]
            apply zpow_le_zpow_right₀ (by norm_num); omega
    rw [abs_of_nonneg (by linarith)]
    linarith

/-- If another datum is equally close and different, the chosen mantissa is even. -/
theorem rman_tie (f : Fmt) (num den : Nat) (hd : 0 < den)
    (w : ℚ) (hw : w ≠ (f.rman num den : ℚ) * (2:ℚ) ^ (f.rexp num den))
    (hint : ∃ k : Int, w = k * (2:ℚ) ^ (f.rexp num den))
    (ht : |(num:ℚ) / den - (f.rman num den : ℚ) * (2:ℚ) ^ (f.rexp num den)| = |(num:ℚ) / den - w|) :
    f.rman num den % 2 = 0 := by
  obtain ⟨k, rfl⟩ := hint
  have hpow : (0:ℚ) < (2:ℚ) ^ (f.rexp num den) := by positivity
  have hsp := divHalfEven_spec (num * 2 ^ (-(f.rexp num den)).toNat)
    (den * 2 ^ (f.rexp num den).toNat) (by positivity)
  rw [scaled_frac num den hd] at hsp
  change |(num:ℚ) / den / 2 ^ f.rexp num den - (f.rman num den : ℚ)| ≤ _ ∧
    (|(num:ℚ) / den / 2 ^ f.rexp num den - (f.rman num den : ℚ)| = _ → f.rman num den % 2 = 0) at hsp
  apply hsp.2
  have scale : ∀ j : ℚ, |(num:ℚ) / den - j * (2:ℚ) ^ (f.rexp num den)| =
      |(num:ℚ) / den / (2:ℚ) ^ (f.rexp num den) - j| * (2:ℚ) ^ (f.rexp num den) := by
    intro j
    have : (num:ℚ) / den / (2:ℚ) ^ (f.rexp num den) - j =
      ((num:ℚ) / den - j * (2:ℚ) ^ (f.rexp num den)) / (2:ℚ) ^ (f.rexp num den) := by field_simp
    rw [this, abs_div, abs_of_pos hpow]; field_simp
  rw [scale, scale] at ht
  have ht := mul_right_cancel₀ hpow.ne' ht
  have hk : k ≠ (f.rman num den : Int) := by
    intro h; apply hw; rw [h]; push_cast; rfl
  -- two different integers at the same distance ≤ 1/2: the distance is 1/2
  have hdist : (1:ℚ) ≤ |(k:ℚ) - (f.rman num den : ℚ)| := by
    have : (1:Int) ≤ |k - (f.rman num den : Int)| := Int.one_le_abs (by omega)
    exact_mod_cast this
  have htri : |(k:ℚ) - (f.rman num den : ℚ)| ≤
      |(num:ℚ) / den / 2 ^ f.rexp num den - (f.rman num den : ℚ)| +
      |(num:ℚ) / den / 2 ^ f.rexp num den - (k:ℚ)| := by
    have e : (k:ℚ) - (f.rman num den : ℚ) =
      ((num:ℚ) / den / 2 ^ f.rexp num den - (f.rman num den : ℚ)) -
        ((num:ℚ) / den / 2 ^ f.rexp num den - (k:ℚ)) := by ring
    rw [e]; exact abs_sub _ _
  have := hsp.1
  linarith

/-- A datum with a smaller exponent than the chosen one is strictly farther away. -/
theorem rman_strict (f : Fmt) (hf : f.Ok) (num den : Nat) (hn : 0 < num) (hd : 0 < den)
    (m' : Nat) (e' : Int) (hm : m' < 2 ^ f.p) (he : f.emin ≤ e') (hlt : e' < f.rexp num den) :
    |(num:ℚ) / den - (f.rman num den : ℚ) * (2:ℚ) ^ (f.rexp num den)| <
      |(num:ℚ) / den - (m' : ℚ) * (2:ℚ) ^ e'| := by
  obtain ⟨_, h2⟩ := rman_facts f num den hn hd
  have hpow : (0:ℚ) < (2:ℚ) ^ (f.rexp num den) := by positivity
  have hlow := h2 (by omega)
  have hp := hf.hp
  rw [le_div_iff₀ hpow, ← zpow_add₀ (by norm_num)] at hlow
  -- compare with the least normal mantissa of the chosen binade
  have hpm : 2 ^ (f.p - 1) < 2 ^ f.p := Nat.pow_lt_pow_right (by norm_num) (by omega)
  have hnear := rman_nearest f hf num den hn hd (2 ^ (f.p - 1)) (f.rexp num den) hpm (by omega)
  have e1 : (((2 ^ (f.p - 1) : Nat)) : ℚ) * (2:ℚ) ^ (f.rexp num den) =
      (2:ℚ) ^ ((f.p:Int) - 1 + f.rexp num den) := by
    rw [zpow_add₀ (by norm_num)]
    have : ((f.p : Int) - 1) = ((f.p - 1 : Nat) : Int) := by omega
    rw [this, zpow_natCast]; push_cast; rfl
  rw [e1] at hnear
  have hy : (m':ℚ) * 2 ^ e' < (2:ℚ) ^ ((f.p:Int) - 1 + f.rexp num den) := by
    calc (m':ℚ) * 2 ^ e' < (2:ℚ) ^ (f.p : Int) * 2 ^ e' := by
          apply mul_lt_mul_of_pos_right _ (by positivity)
          rw [zpow_natCast]; exact_mod_cast hm
      _ ≤ _ := by
          rw [← zpow_add₀ (by norm_num)]
          apply zpow_le_zpow_right₀ (by norm_num); omega
  rw [abs_of_nonneg (by linarith : (0:ℚ) ≤ (num:ℚ) / den - (2:ℚ) ^ ((f.p:Int) - 1 + f.rexp num den))] at hnear
  rw [abs_of_pos (by linarith : (0:ℚ) < (num:ℚ) / den - (m' : ℚ) * (2:ℚ) ^ e')]
  linarith

/-- Sign as a factor. -/
def sgn (neg : Bool) : ℚ := if neg then -1 else 1

theorem sgn_sq (b : Bool) : sgn b * sgn b = 1 := by cases b <;> simp [sgn]
theorem abs_sgn_mul (b : Bool) (x : ℚ) : |sgn b * x| = |x| := by
  cases b <;> simp [sgn]

/-- The rounding function is correct whenever it does not overflow. -/
theorem round_correct (f : Fmt) (hf : f.Ok) (hp3 : 2 < f.p) (neg : Bool) (num den : Nat) (hd : 0 < den)
    (hfin : ∀ s, f.round neg num den ≠ .inf s) :
    CorrectlyRounded f (sgn neg * ((num:ℚ) / den)) (f.round neg num den) := by
  refine ⟨round_canon f hf neg num den hd, ?_⟩
  by_cases hn : num = 0
  · subst hn
    have hz : f.round neg 0 den = .fin neg 0 f.emin := by simp [Fmt.round]
    rw [hz]
    refine ⟨0, by simp [ratOf], ?_, ?_⟩
    · intro y w _ _; simp
    · intro y w _ _ hne h
      exact ⟨neg, 0, _, rfl, rfl⟩
  · have hpos : 0 < num := by omega
    have hx : (0:ℚ) < (num:ℚ) / den := by
      have : (0:ℚ) < num := by exact_mod_cast hpos
      have : (0:ℚ) < den := by exact_mod_cast hd
      positivity
    cases hr : f.round neg num den with
    | nan =>
      rw [round_eq f neg num den hn] at hr
      split at hr <;> split at hr <;> simp at hr
    | inf s => exact absurd hr (hfin s)
    | fin s m e =>
      obtain ⟨rfl, hv, hev⟩ := round_val f hf neg num den hn hr
      refine ⟨sgn s * ((f.rman num den : ℚ) * (2:ℚ) ^ (f.rexp num den)), ?_, ?_, ?_⟩
      · simp only [ratOf, ← hv, sgn]; congr 1; ring
      · intro y w hy hw
        rw [← mul_sub, abs_sgn_mul]
        cases y with
        | nan => simp [ratOf] at hw
        | inf => simp [ratOf] at hw
        | fin s' m' e' =>
          simp only [ratOf, Option.some.injEq] at hw
          subst hw
          have hb := rman_nearest f hf num den hpos hd m' e' hy.1 hy.2.1
          refine le_trans hb ?_
          have hmp : (0:ℚ) ≤ (m':ℚ) * 2 ^ e' := by positivity
          cases s <;> cases s' <;> simp only [sgn, if_true, if_false, Bool.false_eq_true, one_mul, neg_mul, sub_neg_eq_add]
          · exact le_refl _
          · rw [abs_of_pos (by linarith : (0:ℚ) < (num:ℚ) / den + m' * 2 ^ e')]
            rw [abs_le]; constructor <;> linarith
          · rw [abs_of_neg (by linarith : -((num:ℚ) / den) - m' * 2 ^ e' < 0)]
            rw [abs_le]; constructor <;> linarith
          · rw [← abs_neg]; apply le_of_eq; congr 1; ring
      · intro y w hy hw hne ht
        rw [← mul_sub, abs_sgn_mul] at ht
        refine ⟨s, m, e, rfl, hev ?_ hp3⟩
        cases y with
        | nan => simp [ratOf] at hw
        | inf => simp [ratOf] at hw
        | fin s' m' e' =>
          simp only [ratOf, Option.some.injEq] at hw
          have hmp : (0:ℚ) ≤ (m':ℚ) * 2 ^ e' := by positivity
          -- the other datum has the same sign (or is zero)
          have hsame : w = sgn s * ((m':ℚ) * 2 ^ e') := by
            by_cases hss : s' = s
            · subst hss; rw [← hw]; simp only [sgn]; ring
            · have h0 := rman_nearest f hf num den hpos hd 0 f.emin (by positivity) (le_refl _)
              simp only [Nat.cast_zero, zero_mul, sub_zero] at h0
              rw [abs_of_pos hx] at h0
              have hz : (m':ℚ) * 2 ^ e' = 0 := by
                rw [ht] at h0
                cases s <;> cases s' <;> simp only [sgn, if_true, if_false, Bool.false_eq_true,
                  one_mul, neg_mul] at h0 hw hss
                · exact absurd trivial hss
                · rw [abs_of_pos (by linarith : (0:ℚ) < (num:ℚ) / den - w)] at h0
                  linarith
                · rw [abs_of_neg (by linarith : -((num:ℚ) / den) - w < 0)] at h0
                  linarith
                · exact absurd trivial hss
              rw [hz, ← hw, mul_assoc, hz]; simp
          have ht' : |(num:ℚ) / den - (f.rman num den : ℚ) * (2:ℚ) ^ (f.rexp num den)| =
              |(num:ℚ) / den - (m':ℚ) * 2 ^ e'| := by
            rw [ht, hsame, ← mul_sub, abs_sgn_mul]
          have hge : f.rexp num den ≤ e' := by
            by_contra hlt
            push Not at hlt
            have := rman_strict f hf num den hpos hd m' e' hy.1 hy.2.1 hlt
            linarith
          refine rman_tie f num den hd ((m':ℚ) * 2 ^ e') ?_ ?_ ht'
          · intro h; apply hne; rw [hsame, h]
          · obtain ⟨d, hd'⟩ := Int.eq_ofNat_of_zero_le (by omega : 0 ≤ e' - f.rexp num den)
            refine ⟨((m' * 2 ^ d : Nat) : Int), ?_⟩
            have : e' = (d : Int) + f.rexp num den := by omega
            rw [this, zpow_add₀ (by norm_num)]; push_cast; rw [zpow_natCast]; ring

end Verif
