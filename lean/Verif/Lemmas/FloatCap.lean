import Verif.Lemmas.FloatParse
/-! # Exponents that std cuts off -/
namespace Verif
open Spec

/-- Two exponents that agree, or are both so far out that a mantissa of fewer than 65000 digits makes no difference. -/
def CapRel (e e' : Int) : Prop := e = e' ∨ (65536 ≤ e ∧ 65536 ≤ e') ∨ (e ≤ -65536 ∧ e' ≤ -65536)

theorem expVal_fold (l : List Char) : ∀ a b : Nat, (a = b ∨ (65536 ≤ a ∧ 65536 ≤ b)) →
    (l.foldl (fun acc c => acc * 10 + (charDigit c).getD 0) a = l.foldl (fun e c => if e < 65536 then e * 10 + (charDigit c).getD 0 else e) b ∨
      (65536 ≤ l.foldl (fun acc c => acc * 10 + (charDigit c).getD 0) a ∧
        65536 ≤ l.foldl (fun e c => if e < 65536 then e * 10 + (charDigit c).getD 0 else e) b)) := by
  induction l with
  | nil => intro a b h; exact h
  | cons c l ih =>
    intro a b h
    rw [List.foldl_cons, List.foldl_cons]
    apply ih
    split
    · rcases h with h | h
      · exact .inl (by rw [h])
      · omega
    · right; omega

theorem expVal_cases (l : List Char) : digitsVal l = expVal l ∨ (65536 ≤ digitsVal l ∧ 65536 ≤ expVal l) :=
  expVal_fold l 0 0 (.inl rfl)

theorem capRel_of {a b : Nat} (h : a = b ∨ (65536 ≤ a ∧ 65536 ≤ b)) : CapRel a b ∧ CapRel (-(a:Int)) (-(b:Int)) := by
  unfold CapRel
  rcases h with rfl | h
  · exact ⟨.inl rfl, .inl rfl⟩
  · exact ⟨.inr (.inl (by omega)), .inr (.inr (by omega))⟩

theorem readExp_of {ex : List Char} {e : Int} (h : Exponent ex e) : ∃ e', ReadExp ex e' ∧ CapRel e e' := by
  rcases h with ⟨h, rfl⟩ | ⟨c, ds, m, hc, hds, h⟩
  · exact ⟨0, .inl ⟨h, rfl⟩, .inl rfl⟩
  · obtain ⟨h1, h2, rfl⟩ := digitsSpell_val.1 hds
    have hr := capRel_of (expVal_cases ds)
    rcases h with ⟨h, rfl⟩ | ⟨h, rfl⟩ | ⟨h, rfl⟩
    · exact ⟨_, .inr ⟨c, ds, _, hc, ⟨h1, h2, rfl⟩, .inl ⟨h, rfl⟩⟩, hr.1⟩
    · exact ⟨_, .inr ⟨c, ds, _, hc, ⟨h1, h2, rfl⟩, .inr (.inl ⟨h, rfl⟩)⟩, hr.1⟩
    · exact ⟨_, .inr ⟨c, ds, _, hc, ⟨h1, h2, rfl⟩, .inr (.inr ⟨h, rfl⟩)⟩, hr.2⟩

theorem exp_of_read {ex : List Char} {e : Int} (h : ReadExp ex e) : ∃ e', Exponent ex e' := by
  rcases h with ⟨h, rfl⟩ | ⟨c, ds, m, hc, ⟨h1, h2, rfl⟩, h⟩
  · exact ⟨0, .inl ⟨h, rfl⟩⟩
  · have hds := digitsSpell_val.2 ⟨h1, h2, rfl⟩
    rcases h with ⟨h, rfl⟩ | ⟨h, rfl⟩ | ⟨h, rfl⟩
    · exact ⟨_, .inr ⟨c, ds, _, hc, hds, .inl ⟨h, rfl⟩⟩⟩
    · exact ⟨_, .inr ⟨c, ds, _, hc, hds, .inr (.inl ⟨h, rfl⟩)⟩⟩
    · exact ⟨_, .inr ⟨c, ds, _, hc, hds, .inr (.inr ⟨h, rfl⟩)⟩⟩

theorem round_zero (f : Fmt) (neg : Bool) (den : Nat) : f.round neg 0 den = .fin neg 0 f.emin := by simp [Fmt.round]

/-- Less than half the least subnormal rounds to zero. -/
theorem round_tiny (f : Fmt) (hf : f.Ok) (neg : Bool) (num den : Nat) (hd : 0 < den)
    (h : (num:ℚ) / den < 1 / 2 * (2:ℚ) ^ f.emin) : f.round neg num den = .fin neg 0 f.emin := by
  by_cases hn : num = 0
  · subst hn; exact round_zero f neg den
  have hp := hf.hp
  have he := hf.he
  obtain ⟨f1, f2⟩ := rman_facts f num den (by omega) hd
  have hx : f.rexp num den = f.emin := by
    by_contra hne
    have h2 := f2 hne
    have hge : f.emin ≤ f.rexp num den := by unfold Fmt.rexp; omega
    have h3 : (2:ℚ) ^ f.emin ≤ (2:ℚ) ^ (f.rexp num den) := zpow_le_zpow_right₀ (by norm_num) hge
    have h4 : (1:ℚ) ≤ (2:ℚ) ^ ((f.p : Int) - 1) := one_le_zpow₀ (by norm_num) (by omega)
    have hpos : (0:ℚ) < (2:ℚ) ^ (f.rexp num den) := by positivity
    have hpos' : (0:ℚ) < (2:ℚ) ^ f.emin := by positivity
    rw [le_div_iff₀ hpos] at h2
    nlinarith
  obtain ⟨s1, -⟩ := divHalfEven_spec (num * 2 ^ (-(f.rexp num den)).toNat) (den * 2 ^ (f.rexp num den).toNat) (by positivity)
  rw [scaled_frac num den hd] at s1
  change |_ - (f.rman num den : ℚ)| ≤ 1 / 2 at s1
  have hpos' : (0:ℚ) < (2:ℚ) ^ f.emin := by positivity
  have hT : (num:ℚ) / den / (2:ℚ) ^ (f.rexp num den) < 1 / 2 := by
    rw [hx, div_lt_iff₀ hpos']; exact h
  have hM : f.rman num den = 0 := by
    have h1 := (abs_le.1 s1).1
    have : (f.rman num den : ℚ) < 1 := by linarith
    have : f.rman num den < 1 := by exact_mod_cast this
    omega
  rw [round_eq f neg num den hn, hM, hx, if_neg (by positivity), if_neg (by omega)]

theorem digitsSpell_lt {ds : List Char} {n : Nat} (h : DigitsSpell ds n) : n < 10 ^ ds.length := by
  obtain ⟨-, h2, rfl⟩ := h
  have := Nat.ofDigits_lt_base_pow_length (b := 10) (l := (ds.map (fun c => c.toNat - '0'.toNat)).reverse) (by norm_num) (by
    intro x hx
    rw [List.mem_reverse, List.mem_map] at hx
    obtain ⟨c, hc, rfl⟩ := hx
    have := (h2 c hc).2
    rw [Char.le_def, UInt32.le_iff_toNat_le] at this
    have h9 : c.toNat ≤ 57 := this
    have h0 : '0'.toNat = 48 := rfl
    omega)
  simpa using this

theorem two_le_ten {a b : Nat} (h : a ≤ 3 * b) : (2:ℚ) ^ a ≤ (10:ℚ) ^ b :=
  calc (2:ℚ) ^ a ≤ 2 ^ (3 * b) := pow_le_pow_right₀ (by norm_num) h
    _ = (2 ^ 3) ^ b := pow_mul _ _ _
    _ ≤ 10 ^ b := pow_le_pow_left₀ (by norm_num) (by norm_num) _

theorem ofDecimal_big {d : Nat} {k : Int} (neg : Bool) (hd : d ≠ 0) (hk : 536 ≤ k) : (F64.ofDecimal neg d k).1 = .inf neg := by
  refine (round_inf_iff fmt64 fmt64_ok neg _ _ (Nat.pow_pos (by decide))).1.2 ?_
  rw [← ten_zpow_split]
  have h1 : (1:ℚ) ≤ d := by exact_mod_cast Nat.one_le_iff_ne_zero.2 hd
  have h2 : (10:ℚ) ^ (536:Int) ≤ (10:ℚ) ^ k := zpow_le_zpow_right₀ (by norm_num) hk
  have h3 : Fmt.tooBig fmt64 ≤ (10:ℚ) ^ (536:Int) := by
    have e1 : (18014398509481983 : ℚ) / 2 * 2 ^ 971 ≤ 2 ^ 1025 := by
      have : (2:ℚ) ^ 1025 = 2 ^ 54 * 2 ^ 971 := by rw [← pow_add]
      rw [this]
      exact mul_le_mul_of_nonneg_right (by norm_num) (pow_nonneg (by norm_num) _)
    have e2 : Fmt.tooBig fmt64 = (18014398509481983 : ℚ) / 2 * 2 ^ 971 := by
      unfold Fmt.tooBig fmt64
      norm_num
    rw [e2, show (536:Int) = ((536:Nat):Int) from rfl, zpow_natCast]
    exact e1.trans (two_le_ten (by omega))
  calc Fmt.tooBig fmt64 ≤ (10:ℚ) ^ (536:Int) := h3
    _ ≤ (10:ℚ) ^ k := h2
    _ = 1 * (10:ℚ) ^ k := (one_mul _).symm
    _ ≤ (d:ℚ) * (10:ℚ) ^ k := mul_le_mul_of_nonneg_right h1 (by positivity)

theorem ofDecimal_small {d : Nat} {k : Int} (neg : Bool) (hd : d < 10 ^ 65000) (hk : k ≤ -65536) :
    (F64.ofDecimal neg d k).1 = .fin neg 0 fmt64.emin := by
  refine round_tiny fmt64 fmt64_ok neg _ _ (Nat.pow_pos (by decide)) ?_
  rw [← ten_zpow_split]
  have h1 : (d:ℚ) ≤ (10:ℚ) ^ (65000:Int) := by
    have : (d:ℚ) ≤ ((10 ^ 65000 : Nat) : ℚ) := by exact_mod_cast hd.le
    rw [Nat.cast_pow] at this
    exact_mod_cast this
  have h2 : (10:ℚ) ^ k ≤ (10:ℚ) ^ (-65536:Int) := zpow_le_zpow_right₀ (by norm_num) hk
  have h3 : (10:ℚ) ^ (65000:Int) * (10:ℚ) ^ (-65536:Int) = (10:ℚ) ^ (-536:Int) := by
    rw [← zpow_add₀ (by norm_num)]; norm_num
  have h4 : (10:ℚ) ^ (-536:Int) < 1 / 2 * (2:ℚ) ^ fmt64.emin := by
    have e2 : (1:ℚ) / 2 * (2:ℚ) ^ fmt64.emin = ((2:ℚ) ^ 1075)⁻¹ := by
      have : fmt64.emin = -((1074:Nat):Int) := rfl
      rw [this, zpow_neg, zpow_natCast, pow_succ _ 1074, mul_inv, mul_comm, one_div]
    rw [e2, show (-536:Int) = -((536:Nat):Int) from rfl, zpow_neg, zpow_natCast]
    refine inv_strictAnti₀ (pow_pos (by norm_num) _) ?_
    exact lt_of_lt_of_le (pow_lt_pow_right₀ (by norm_num) (by omega : 1075 < 1076)) (two_le_ten (by omega))
  calc (d:ℚ) * (10:ℚ) ^ k ≤ (10:ℚ) ^ (65000:Int) * (10:ℚ) ^ (-65536:Int) := mul_le_mul h1 h2 (by positivity) (by positivity)
    _ = (10:ℚ) ^ (-536:Int) := h3
    _ < _ := h4

/-- A numeral is read, and unless it is very long, as if the exponent were not cut off. -/
theorem decimal_read {body : List Char} {d : Nat} {k : Int} (h : Decimal body d k) :
    ∃ k', DecimalRead body d k' ∧ (body.length ≤ 65000 → ∀ neg, F64.ofDecimal neg d k' = F64.ofDecimal neg d k) := by
  obtain ⟨ip, fp, ex, e, h1, h2, h3, rfl⟩ := h
  obtain ⟨e', h4, h5⟩ := readExp_of h2
  refine ⟨_, ⟨ip, fp, ex, e', h1, h4, h3, rfl⟩, fun hl neg => Subtype.ext ?_⟩
  have hlen : (ip ++ fp).length ≤ body.length := by
    rcases h3 with ⟨rfl, rfl⟩ | rfl
    · simp
    · simp only [List.length_append, List.length_cons]; omega
  have hfp : fp.length ≤ (ip ++ fp).length := by simp
  by_cases hd : d = 0
  · subst hd
    show fmt64.round neg _ _ = fmt64.round neg _ _
    rw [Nat.zero_mul, Nat.zero_mul, round_zero, round_zero]
  · rcases h5 with rfl | h5 | h5
    · rfl
    · rw [ofDecimal_big neg hd (by omega), ofDecimal_big neg hd (by omega)]
    · have hlt : d < 10 ^ 65000 := lt_of_lt_of_le (digitsSpell_lt h1) (Nat.pow_le_pow_right (by decide) (hlen.trans hl))
      rw [ofDecimal_small neg hlt (by omega), ofDecimal_small neg hlt (by omega)]

theorem decimal_of_read {body : List Char} {d : Nat} {k : Int} (h : DecimalRead body d k) : ∃ k', Decimal body d k' := by
  obtain ⟨ip, fp, ex, e, h1, h2, h3, rfl⟩ := h
  obtain ⟨e', h4⟩ := exp_of_read h2
  exact ⟨_, ip, fp, ex, e', h1, h4, h3, rfl⟩

/-- Without an exponent nothing is cut off. -/
theorem decimal_of_read_plain {body : List Char} {d : Nat} {k : Int} (h : DecimalRead body d k) (he : ∀ c ∈ body, c ≠ 'e' ∧ c ≠ 'E') :
    Decimal body d k := by
  obtain ⟨ip, fp, ex, e, h1, h2, h3, rfl⟩ := h
  have hx : ∀ c ∈ ex, c ∈ body := by
    intro c hc
    rcases h3 with ⟨-, rfl⟩ | rfl <;> simp [hc]
  refine ⟨ip, fp, ex, e, h1, ?_, h3, rfl⟩
  rcases h2 with h2 | ⟨c, ds, m, hc, -, h⟩
  · exact .inl h2
  · exfalso
    have hm : c ∈ ex := by rcases h with ⟨rfl, -⟩ | ⟨rfl, -⟩ | ⟨rfl, -⟩ <;> simp
    have := he c (hx c hm)
    rcases hc with rfl | rfl
    · exact this.1 rfl
    · exact this.2 rfl

end Verif
