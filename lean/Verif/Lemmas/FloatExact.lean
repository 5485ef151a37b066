import Verif.Model.FloatOps
/-! Exactness of rounding on representable numbers; no overflow for integers. -/
namespace Verif
open Spec

/-- Magnitudes of canonical data determine the datum. -/
theorem canon_inj (f : Fmt) (hf : f.Ok) {s s' : Bool} {m m' : Nat} {e e' : Int}
    (h : f.Canon (.fin s m e)) (h' : f.Canon (.fin s' m' e'))
    (hv : (m:ℚ) * (2:ℚ) ^ e = (m':ℚ) * (2:ℚ) ^ e') : m = m' ∧ e = e' := by
  wlog hle : e ≤ e' generalizing s s' m m' e e'
  · obtain ⟨a, b⟩ := this h' h hv.symm (by omega)
    exact ⟨a.symm, b.symm⟩
  obtain ⟨d, hd⟩ := Int.eq_ofNat_of_zero_le (by omega : 0 ≤ e' - e)
  have hm : m = m' * 2 ^ d := by
    have e1 : e' = (d:Int) + e := by omega
    rw [e1, zpow_add₀ (by norm_num), ← mul_assoc] at hv
    have := mul_right_cancel₀ (by positivity) hv
    rw [zpow_natCast] at this
    exact_mod_cast this
  obtain ⟨h1, h2, h3, h4⟩ := h
  obtain ⟨h1', h2', h3', h4'⟩ := h'
  rcases Nat.eq_zero_or_pos d with h0 | h0
  · subst h0; simp at hm; exact ⟨hm, by omega⟩
  · -- e < e', so the second datum is normal and the first would be too wide
    have hne : e' ≠ f.emin := by omega
    have hn : 2 ^ (f.p - 1) ≤ m' := by
      rcases h4' with h | h
      · exact h
      · exact absurd h hne
    have hp := hf.hp
    have hpp : 2 ^ f.p = 2 * 2 ^ (f.p - 1) := by rw [← Nat.pow_succ']; congr 1; omega
    have h2d : 2 ≤ 2 ^ d := by
      calc 2 = 2 ^ 1 := rfl
        _ ≤ 2 ^ d := Nat.pow_le_pow_right (by norm_num) h0
    have : 2 ^ (f.p - 1) * 2 ≤ m' * 2 ^ d := Nat.mul_le_mul hn h2d
    omega

theorem fracLog2_le {num den : Nat} {k : Int} (hn : 0 < num) (hd : 0 < den)
    (h : (num:ℚ) / den < (2:ℚ) ^ k) : fracLog2 num den < k := by
  have := (fracLog2_spec num den hn hd).1
  have h2 := lt_of_le_of_lt this h
  exact (zpow_lt_zpow_iff_right₀ (by norm_num : (1:ℚ) < 2)).1 h2

/-- Below `2^(emax + p - 1)` the rounding cannot overflow. -/
theorem round_finite (f : Fmt) (hf : f.Ok) (hp : 0 < f.p) (hlt : f.emin < f.emax) (neg : Bool) (num den : Nat)
    (hd : 0 < den) (h : (num:ℚ) / den < (2:ℚ) ^ (f.emax + f.p - 1)) (s : Bool) :
    f.round neg num den ≠ .inf s := by
  by_cases hn : num = 0
  · subst hn; simp [Fmt.round]
  · have hl := fracLog2_le (by omega) hd h
    have he : f.rexp num den < f.emax := by unfold Fmt.rexp; omega
    rw [round_eq f neg num den hn]
    intro hc
    split at hc
    · split at hc
      · omega
      · simp at hc
    · split at hc
      · omega
      · simp at hc

/-- Rounding a representable number returns it unchanged. -/
theorem round_exact (f : Fmt) (hf : f.Ok) (s : Bool) (num den : Nat) (hd : 0 < den)
    {m : Nat} {e : Int} (hc : f.Canon (.fin s m e)) (hv : (num:ℚ) / den = (m:ℚ) * (2:ℚ) ^ e) :
    f.round s num den = .fin s m e := by
  have hdq : (0:ℚ) < den := by exact_mod_cast hd
  by_cases hn : num = 0
  · subst hn
    have hm : m = 0 := by
      have : (m:ℚ) * (2:ℚ) ^ e = 0 := by rw [← hv]; simp
      have h2 : (2:ℚ) ^ e ≠ 0 := by positivity
      have := (mul_eq_zero.1 this).resolve_right h2
      exact_mod_cast this
    subst hm
    have he : e = f.emin := by
      rcases hc.2.2.2 with h | h
      · have : 0 < 2 ^ (f.p - 1) := by positivity
        omega
      · exact h
    simp [Fmt.round, he]
  · have hpos : 0 < num := by omega
    have hnear := rman_nearest f hf num den hpos hd m e hc.1 hc.2.1
    rw [hv] at hnear
    simp only [sub_self, abs_zero] at hnear
    have heq : (f.rman num den : ℚ) * (2:ℚ) ^ (f.rexp num den) = (m:ℚ) * (2:ℚ) ^ e := by
      have := abs_nonpos_iff.1 hnear
      linarith
    -- the result cannot overflow: its exponent is that of a canonical datum
    have hcan := round_canon f hf s num den hd
    cases hr : f.round s num den with
    | nan =>
      rw [round_eq f s num den hn] at hr
      split at hr <;> split at hr <;> simp at hr
    | inf s' =>
      exfalso
      obtain ⟨b1, b2⟩ := rman_bounds f hf num den hpos hd
      have hp := hf.hp
      have hpp : 2 ^ f.p = 2 * 2 ^ (f.p - 1) := by rw [← Nat.pow_succ']; congr 1; omega
      have hppos : 0 < 2 ^ (f.p - 1) := by positivity
      rw [round_eq f s num den hn] at hr
      split at hr
      · rename_i hq
        split at hr
        · rename_i hgt
          -- value = 2^(p-1) * 2^(rexp+1), with rexp + 1 > emax
          have hv2 : ((2 ^ (f.p - 1) : Nat):ℚ) * (2:ℚ) ^ (f.rexp num den + 1) = (m:ℚ) * 2 ^ e := by
            rw [← heq, hq, hpp, zpow_add₀ (by norm_num)]; push_cast; ring
          let f' : Fmt := ⟨f.p, f.emin, max f.emax (f.rexp num den + 1)⟩
          have hf' : f'.Ok := ⟨hf.hp, by have := hf.he; simp only [f']; omega⟩
          have hre : f.emin ≤ f.rexp num den := by unfold Fmt.rexp; omega
          have := canon_inj f' hf' (s := s) (s' := s)
            (h := ⟨by simp only [f']; omega, by simp only [f']; omega, by simp only [f']; omega, Or.inl (le_refl _)⟩)
            (h' := ⟨hc.1, hc.2.1, by have := hc.2.2.1; simp only [f']; omega, hc.2.2.2⟩) hv2
          have := hc.2.2.1
          omega
        · simp at hr
      · rename_i hq
        split at hr
        · rename_i hgt
          let f' : Fmt := ⟨f.p, f.emin, max f.emax (f.rexp num den)⟩
          have hf' : f'.Ok := ⟨hf.hp, by have := hf.he; simp only [f']; omega⟩
          have hre : f.emin ≤ f.rexp num den := by unfold Fmt.rexp; omega
          have hne : f.rexp num den ≠ f.emin := by have := hf.he; omega
          have := canon_inj f' hf' (s := s) (s' := s)
            (h := ⟨by simp only [f']; omega, by simp only [f']; omega, by simp only [f']; omega, Or.inl (b2 hne)⟩)
            (h' := ⟨hc.1, hc.2.1, by have := hc.2.2.1; simp only [f']; omega, hc.2.2.2⟩) heq
          have := hc.2.2.1
          omega
        · simp at hr
    | fin s' m' e' =>
      rw [hr] at hcan
      obtain ⟨rfl, hval, _⟩ := round_val f hf s num den hn hr
      obtain ⟨rfl, rfl⟩ := canon_inj f hf hcan hc (by rw [hval, heq])
      rfl

/-- Re-rounding a datum of a format to the same or a wider format keeps its value; here: same format. -/
theorem convert_self (f : Fmt) (hf : f.Ok) (x : FpRaw) (hx : f.Canon x) : f.convert x = x := by
  cases x with
  | nan => rfl
  | inf => rfl
  | fin s m e =>
    apply round_exact f hf s _ _ (by positivity) hx
    push_cast
    rw [two_zpow_split e]; ring

/-- Widening an `f32` to `f64` keeps its value. -/
theorem convert_f32 {s : Bool} {m : Nat} {e : Int} (hx : fmt32.Canon (.fin s m e)) :
    ∃ m' e', fmt64.convert (.fin s m e) = .fin s m' e' ∧ (m':ℚ) * (2:ℚ) ^ e' = (m:ℚ) * (2:ℚ) ^ e := by
  have hval : ((m * 2 ^ e.toNat : Nat):ℚ) / ((2 ^ (-e).toNat : Nat) : ℚ) = (m:ℚ) * (2:ℚ) ^ e := by
    push_cast; rw [two_zpow_split e]; ring
  by_cases hm : m = 0
  · subst hm
    refine ⟨0, fmt64.emin, by simp [Fmt.convert, Fmt.round], by simp⟩
  · -- the mantissa shifted to full width
    have hlog := Nat.log2_self_le hm
    have hlog2 := @Nat.lt_log2_self m
    have hm24 : m < 2 ^ 24 := hx.1
    have hemin : -149 ≤ e := hx.2.1
    have hemax : e ≤ 104 := hx.2.2.1
    have hl : m.log2 < 24 := (Nat.log2_lt hm).2 hm24
    refine ⟨m * 2 ^ (52 - m.log2), e - (52 - m.log2 : Nat), ?_, ?_⟩
    · apply round_exact fmt64 fmt64_ok s _ _ (by positivity)
      · refine ⟨?_, ?_, ?_, Or.inl ?_⟩
        · calc m * 2 ^ (52 - m.log2) < 2 ^ (m.log2 + 1) * 2 ^ (52 - m.log2) :=
                Nat.mul_lt_mul_of_pos_right hlog2 (by positivity)
            _ = 2 ^ 53 := by rw [← Nat.pow_add]; congr 1; omega
        · simp only [fmt64]; omega
        · simp only [fmt64]; omega
        · calc 2 ^ 52 = 2 ^ m.log2 * 2 ^ (52 - m.log2) := by rw [← Nat.pow_add]; congr 1; omega
            _ ≤ m * 2 ^ (52 - m.log2) := Nat.mul_le_mul_right _ hlog
      · rw [hval, zpow_sub₀ (by norm_num)]; push_cast; rw [zpow_natCast]; field_simp
    · rw [zpow_sub₀ (by norm_num)]; push_cast; rw [zpow_natCast]; field_simp

/-- `f32 → f64 → f32` is the identity. -/
theorem f32_roundtrip (x : F32) : F32.ofF64 (F64.ofF32 x) = x := by
  obtain ⟨x, hx⟩ := x
  apply Subtype.ext
  show fmt32.convert (fmt64.convert x) = x
  cases x with
  | nan => rfl
  | inf => rfl
  | fin s m e =>
    -- widening keeps the value
    obtain ⟨m', e', h1, h2⟩ := convert_f32 hx
    rw [h1]
    apply round_exact fmt32 fmt32_ok s _ _ (by positivity) hx
    rw [← h2]
    push_cast
    rw [two_zpow_split e']; ring

end Verif
