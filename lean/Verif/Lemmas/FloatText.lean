import Verif.Lemmas.Convert
/-! Float printing and parsing round-trip; truncation. -/
namespace Verif
open Spec

theorem all_isDec {l : List Char} (h : ∀ c ∈ l, '0' ≤ c ∧ c ≤ '9') : ∀ c ∈ l, isDec c = true :=
  fun c hc => isDec_iff.2 (h c hc)

theorem takeWhile_all {l : List Char} {p : Char → Bool} (h : ∀ c ∈ l, p c = true) (r : List Char)
    (hr : ∀ c t, r = c :: t → p c = false) : (l ++ r).takeWhile p = l ∧ (l ++ r).dropWhile p = r := by
  induction l with
  | nil =>
    cases r with
    | nil => simp
    | cons c t => simp [hr c t rfl]
  | cons c l ih =>
    have := ih (fun d hd => h d (List.mem_cons_of_mem _ hd))
    simp [h c List.mem_cons_self, this.1, this.2]

theorem digitsVal_replicate (n : Nat) : digitsVal (List.replicate n '0') = 0 := by
  induction n with
  | zero => rfl
  | succ n ih =>
    rw [List.replicate_succ, digitsVal_cons, ih]
    have : charDigit '0' = some 0 := by decide
    simp [this]

theorem zeros_digits (n : Nat) : ∀ c ∈ List.replicate n '0', '0' ≤ c ∧ c ≤ '9' := by
  intro c hc
  rw [(List.mem_replicate.1 hc).2]; decide

theorem parseDecimal_int {l : List Char} (h : ∀ c ∈ l, '0' ≤ c ∧ c ≤ '9') (hne : l ≠ []) :
    parseDecimal l = some (digitsVal l, 0) := by
  unfold parseDecimal
  obtain ⟨h1, h2⟩ := takeWhile_all (all_isDec h) [] (by simp)
  rw [List.append_nil] at h1 h2
  simp only [h1, h2, hne, if_false, parseExp, Option.map_some]

theorem parseDecimal_frac {a b : List Char} (ha : ∀ c ∈ a, '0' ≤ c ∧ c ≤ '9') (hb : ∀ c ∈ b, '0' ≤ c ∧ c ≤ '9')
    (hne : a ≠ []) : parseDecimal (a ++ '.' :: b) = some (digitsVal (a ++ b), -(b.length : Int)) := by
  unfold parseDecimal
  obtain ⟨h1, h2⟩ := takeWhile_all (all_isDec ha) ('.' :: b) (by rintro c t h; cases h; decide)
  obtain ⟨h3, h4⟩ := takeWhile_all (all_isDec hb) [] (by simp)
  rw [List.append_nil] at h3 h4
  simp only [h1, h2, h3, h4, hne, false_and, if_false, parseExp, Option.map_some, zero_sub]

theorem positional_parse (d : Nat) (k : Int) :
    (∃ c r, positional d k = c :: r ∧ '0' ≤ c ∧ c ≤ '9') ∧
    ∃ d' k', parseDecimal (positional d k) = some (d', k') ∧
      (d' * 10 ^ k'.toNat = d * 10 ^ k.toNat ∧ (-k').toNat = (-k).toNat) := by
  unfold positional
  have hd := decNat_digits d
  have hn := decNat_ne_nil d
  have hv := decNat_val d
  generalize decNat d = s at hd hn hv
  simp only
  split
  · rename_i hk
    have hall : ∀ c ∈ s ++ List.replicate k.toNat '0', '0' ≤ c ∧ c ≤ '9' := by
      intro c hc
      rcases List.mem_append.1 hc with hc | hc
      · exact hd c hc
      · exact zeros_digits _ c hc
    refine ⟨?_, _, _, parseDecimal_int hall (by simp [hn]), ?_, by simp; omega⟩
    · obtain ⟨c, r, rfl⟩ := List.exists_cons_of_ne_nil hn
      exact ⟨c, _, List.cons_append, hd c List.mem_cons_self⟩
    · rw [digitsVal_app, digitsVal_replicate, hv]; simp
  · rename_i hk
    have hk0 : k.toNat = 0 := by omega
    split
    · rename_i hf
      have ht : ∀ c ∈ s.take (s.length - (-k).toNat), '0' ≤ c ∧ c ≤ '9' := fun c hc => hd c (List.mem_of_mem_take hc)
      have hdr : ∀ c ∈ s.drop (s.length - (-k).toNat), '0' ≤ c ∧ c ≤ '9' := fun c hc => hd c (List.mem_of_mem_drop hc)
      have hne : s.take (s.length - (-k).toNat) ≠ [] := by
        intro h
        have := congrArg List.length h
        simp at this; omega
      refine ⟨?_, _, _, parseDecimal_frac ht hdr hne, ?_, ?_⟩
      · obtain ⟨c, r, e⟩ := List.exists_cons_of_ne_nil hne
        exact ⟨c, _, by rw [e, List.cons_append], ht c (by rw [e]; exact List.mem_cons_self)⟩
      · rw [List.take_append_drop, hv]; simp [hk0]
      · simp; omega
    · rename_i hf
      have h0 : ∀ c ∈ ['0'], '0' ≤ c ∧ c ≤ '9' := by
        intro c hc; rw [List.mem_singleton.1 hc]; decide
      have hz : ∀ c ∈ List.replicate ((-k).toNat - s.length) '0' ++ s, '0' ≤ c ∧ c ≤ '9' := by
        intro c hc
        rcases List.mem_append.1 hc with hc | hc
        · exact zeros_digits _ c hc
        · exact hd c hc
      have := parseDecimal_frac h0 hz (by simp)
      refine ⟨⟨'0', _, rfl, by decide⟩, _, _, this, ?_, ?_⟩
      · rw [← List.append_assoc, digitsVal_app, hv]
        have : digitsVal (['0'] ++ List.replicate ((-k).toNat - s.length) '0') = 0 := by
          have := digitsVal_replicate ((-k).toNat - s.length + 1)
          rwa [List.replicate_succ] at this
        rw [this, Nat.zero_mul, Nat.zero_add, hk0]
        have : (-((List.replicate ((-k).toNat - s.length) '0' ++ s).length : Int)).toNat = 0 := by omega
        rw [this]
      · simp; omega

/-- Reading a sign and a positional decimal. -/
theorem parseF64_positional (neg : Bool) (d : Nat) (k : Int) :
    parseF64 (String.ofList (if neg then '-' :: positional d k else positional d k)) =
      some (F64.ofDecimal neg d k) := by
  obtain ⟨⟨c, r, hc, hc0⟩, d', k', hp, h1, h2⟩ := positional_parse d k
  have hof : F64.ofDecimal neg d' k' = F64.ofDecimal neg d k := by
    apply Subtype.ext
    show fmt64.round neg _ _ = fmt64.round neg _ _
    rw [h1, h2]
  unfold parseF64
  cases neg with
  | true =>
    simp only [String.toList_ofList, if_true, true_or, hp, hof, beq_self_eq_true]
  | false =>
    have hm : c ≠ '-' := fun h => minus_not_digit (h ▸ hc0)
    have hpl : c ≠ '+' := fun h => plus_not_digit (h ▸ hc0)
    have hb : (c == '-') = false := by simpa using hm
    simp only [Bool.false_eq_true, if_false, String.toList_ofList]
    rw [hc]
    simp only [hm, hpl, or_self, if_false, hb]
    rw [← hc, hp]
    simp only [hof]

theorem shortestDec_spec (neg : Bool) (m : Nat) (e : Int) (h : fmt64.Canon (.fin neg m e)) :
    (F64.ofDecimal neg (shortestDec neg m e).1 (shortestDec neg m e).2).1 = .fin neg m e := by
  unfold shortestDec
  simp only
  split
  · rename_i c hc
    have := List.find?_some hc
    simpa using this
  · split
    · rename_i he
      show fmt64.round neg (m * 2 ^ e.toNat * 10 ^ (0:Int).toNat) (10 ^ (-(0:Int)).toNat) = _
      refine round_exact fmt64 fmt64_ok neg _ _ (by decide) h ?_
      simp only [Int.toNat_zero, pow_zero, mul_one, neg_zero, Nat.cast_one, div_one, Nat.cast_mul, Nat.cast_pow]
      rw [two_zpow_split e]
      have : (-e).toNat = 0 := by omega
      simp [this]
    · rename_i he
      show fmt64.round neg (m * 5 ^ (-e).toNat * 10 ^ e.toNat) (10 ^ (-e).toNat) = _
      refine round_exact fmt64 fmt64_ok neg _ _ (Nat.pow_pos (by decide)) h ?_
      have h0 : e.toNat = 0 := by omega
      rw [two_zpow_split e, h0]
      simp only [pow_zero, mul_one, Nat.cast_mul, Nat.cast_pow, Nat.cast_ofNat, one_div]
      have : (10:ℚ) ^ (-e).toNat = 2 ^ (-e).toNat * 5 ^ (-e).toNat := by rw [← mul_pow]; norm_num
      rw [this]
      have h5 : (5:ℚ) ^ (-e).toNat ≠ 0 := by positivity
      have h2 : (2:ℚ) ^ (-e).toNat ≠ 0 := by positivity
      field_simp

/-- `to_string` then `parse` is the identity on `f64`. -/
theorem parse_toText (x : F64) : parseF64 x.toText = some x := by
  have ext : ∀ y : F64, y.1 = x.1 → some y = some x := fun y h => congrArg some (Subtype.ext h)
  have hx := x.2
  unfold F64.toText
  cases h : x.1 with
  | nan =>
    have : parseF64 "NaN" = some ⟨.nan, trivial⟩ := by decide
    exact this.trans (ext _ h.symm)
  | inf s =>
    cases s with
    | false =>
      have : parseF64 "inf" = some ⟨.inf false, trivial⟩ := by decide
      exact this.trans (ext _ h.symm)
    | true =>
      have : parseF64 "-inf" = some ⟨.inf true, trivial⟩ := by decide
      exact this.trans (ext _ h.symm)
  | fin neg m e =>
    rw [h] at hx
    simp only
    by_cases hm : m = 0
    · subst hm
      have he : e = -1074 := by
        obtain ⟨-, -, -, h⟩ := hx
        rcases h with h | h
        · exact absurd h (by decide)
        · exact h
      subst he
      cases neg with
      | false =>
        have : parseF64 "0" = some ⟨.fin false 0 (-1074), by decide⟩ := by decide
        exact this.trans (ext _ h.symm)
      | true =>
        have : parseF64 "-0" = some ⟨.fin true 0 (-1074), by decide⟩ := by decide
        exact this.trans (ext _ h.symm)
    · simp only [hm, if_false]
      rw [parseF64_positional]
      exact ext _ ((shortestDec_spec neg m e hx).trans h.symm)

/-! ## Truncation -/

theorem truncFin_spec (neg : Bool) (m : Nat) (e : Int) (q : ℚ) (h : ratOf (.fin neg m e) = some q) :
    truncFin neg m e = trunc q := by
  simp only [ratOf, Option.some.injEq] at h
  -- the magnitude as a floor
  have hmag : ((if 0 ≤ e then m * 2 ^ e.toNat else m / 2 ^ (-e).toNat : Nat) : Int) = ⌊(m:ℚ) * (2:ℚ) ^ e⌋ := by
    rw [two_zpow_split e]
    split
    · have h0 : (-e).toNat = 0 := by omega
      rw [h0]
      have : (m:ℚ) * ((2:ℚ) ^ e.toNat / 2 ^ 0) = ((m * 2 ^ e.toNat : Nat) : ℚ) := by push_cast; ring
      rw [this, Int.floor_natCast]
    · have h0 : e.toNat = 0 := by omega
      rw [h0]
      have : (m:ℚ) * ((2:ℚ) ^ 0 / 2 ^ (-e).toNat) = (m:ℚ) / ((2 ^ (-e).toNat : Nat) : ℚ) := by push_cast; ring
      rw [this, Rat.floor_natCast_div_natCast]; push_cast; rfl
  have hnn : (0:ℚ) ≤ (m:ℚ) * (2:ℚ) ^ e := by positivity
  unfold truncFin
  simp only [hmag]
  cases neg with
  | false =>
    simp only [Bool.false_eq_true, if_false, one_mul] at h ⊢
    subst h
    simp [trunc, hnn]
  | true =>
    simp only [if_true] at h ⊢
    have hq : q = -((m:ℚ) * (2:ℚ) ^ e) := by rw [← h]; ring
    rw [hq]
    unfold trunc
    split
    · rename_i h0
      have : (m:ℚ) * (2:ℚ) ^ e = 0 := le_antisymm (by linarith) hnn
      simp [this]
    · rw [Int.ceil_neg]

/-! ## Integers to floats -/

/-- Every integer of magnitude at most `2^53` is representable. -/
theorem int_representable (s : Bool) (k : Nat) (h : k ≤ 2 ^ 53) :
    ∃ m e, fmt64.Canon (.fin s m e) ∧ (m:ℚ) * (2:ℚ) ^ e = k := by
  rcases Nat.eq_zero_or_pos k with rfl | h0
  · exact ⟨0, -1074, by simp [Fmt.Canon, fmt64], by simp⟩
  rcases Nat.lt_or_ge k (2 ^ 53) with h1 | h1
  · have hl1 := Nat.log2_self_le (by omega : k ≠ 0)
    have hl2 : k < 2 ^ (k.log2 + 1) := Nat.lt_log2_self
    have hl : k.log2 ≤ 52 := by
      have := (Nat.log2_lt (by omega : k ≠ 0)).2 h1
      omega
    have e1 : 2 ^ k.log2 * 2 ^ (52 - k.log2) = 2 ^ 52 := by rw [← Nat.pow_add]; congr 1; omega
    have e2 : 2 ^ (k.log2 + 1) * 2 ^ (52 - k.log2) = 2 ^ 53 := by rw [← Nat.pow_add]; congr 1; omega
    refine ⟨k * 2 ^ (52 - k.log2), (k.log2 : Int) - 52, ⟨?_, ?_, ?_, Or.inl ?_⟩, ?_⟩
    · show _ < 2 ^ 53
      rw [← e2]; exact Nat.mul_lt_mul_of_pos_right hl2 (Nat.pow_pos (by decide))
    · show (-1074 : Int) ≤ _
      omega
    · show _ ≤ (971 : Int)
      omega
    · show 2 ^ 52 ≤ _
      rw [← e1]; exact Nat.mul_le_mul_right _ hl1
    · have : ((k.log2 : Int) - 52) = -((52 - k.log2 : Nat) : Int) := by omega
      rw [this, zpow_neg, zpow_natCast]
      push_cast
      field_simp
  · have : k = 2 ^ 53 := by omega
    subst this
    refine ⟨2 ^ 52, 1, ?_, by norm_num⟩
    cases s <;> decide

theorem ofInt_correct (n : Int) (hn : n.natAbs < 2 ^ 128) :
    CorrectlyRounded fmt64 n (F64.ofInt n).1 ∧ (n.natAbs ≤ 2 ^ 53 → ratOf (F64.ofInt n).1 = some (n : ℚ)) := by
  have hq : sgn (decide (n < 0)) * ((n.natAbs : ℚ) / (1:Nat)) = (n : ℚ) := by
    have h : (n:ℚ) = ((n.sign * n.natAbs : Int) : ℚ) := by rw [Int.sign_mul_natAbs]
    by_cases h0 : n < 0
    · have : ((n.natAbs : Int) : ℚ) = -(n:ℚ) := by
        have : (n.natAbs : Int) = -n := by omega
        rw [this]; push_cast; rfl
      simp only [Int.cast_natCast] at this
      simp [sgn, h0, this]
    · have : ((n.natAbs : Int) : ℚ) = (n:ℚ) := by
        have : (n.natAbs : Int) = n := by omega
        rw [this]
      simp only [Int.cast_natCast] at this
      simp [sgn, h0, this]
  have hfin : ∀ s, fmt64.round (decide (n < 0)) n.natAbs 1 ≠ .inf s := by
    intro s
    refine round_finite fmt64 fmt64_ok (by decide) (by decide) _ _ 1 (by decide) ?_ s
    have h1 : (n.natAbs : ℚ) < 2 ^ 128 := by exact_mod_cast hn
    have h2 : ((2:ℚ) ^ (128:Nat)) ≤ (2:ℚ) ^ (fmt64.emax + fmt64.p - 1) := by
      rw [← zpow_natCast]
      exact zpow_le_zpow_right₀ (by norm_num) (by decide)
    simpa using lt_of_lt_of_le h1 h2
  have hc := round_correct fmt64 fmt64_ok (by decide) (decide (n < 0)) n.natAbs 1 (by decide) hfin
  rw [hq] at hc
  refine ⟨hc, fun h53 => ?_⟩
  obtain ⟨-, v, hv, hnear, -⟩ := hc
  obtain ⟨m, e, hcan, hval⟩ := int_representable (decide (n < 0)) n.natAbs h53
  have hw : ratOf (.fin (decide (n < 0)) m e) = some (n : ℚ) := by
    simp only [ratOf, Option.some.injEq]
    rw [mul_assoc, hval, ← hq]
    simp [sgn]
  have := hnear _ _ hcan hw
  rw [sub_self, abs_zero] at this
  have : (n:ℚ) - v = 0 := abs_eq_zero.1 (le_antisymm this (abs_nonneg _))
  have : v = (n:ℚ) := by linarith
  rw [← this]; exact hv

/-! ## Booleans -/

theorem toNat_ofNat_valid {n : Nat} (h : n.isValidChar) : (Char.ofNat n).toNat = n := by
  unfold Char.ofNat; rw [dif_pos h]; rfl

/-- Lower-casing gives an ASCII word without `i` and `k` iff each character is the word's, or its capital. -/
theorem lowerChar_eq {c d : Char} (hd : 'a' ≤ d ∧ d ≤ 'z') (hi : d ≠ 'i') (hk : d ≠ 'k') :
    (∃ r, lowerChar c = d :: r) ↔ (c = d ∨ c.toNat + 32 = d.toNat) := by
  have h97 : 97 ≤ d.toNat := by have := hd.1; rw [Char.le_def, UInt32.le_iff_toNat_le] at this; exact this
  have h122 : d.toNat ≤ 122 := by have := hd.2; rw [Char.le_def, UInt32.le_iff_toNat_le] at this; exact this
  have inj : ∀ {a b : Char}, a.toNat = b.toNat → a = b := fun h => Char.toNat_inj.1 h
  unfold lowerChar
  split
  · rename_i h
    constructor
    · rintro ⟨r, h'⟩; simp only [List.cons.injEq] at h'; exact absurd h'.1.symm hk
    · rintro (rfl | h')
      · omega
      · omega
  · split
    · rename_i h
      constructor
      · rintro ⟨r, h'⟩; simp only [List.cons.injEq] at h'; exact absurd h'.1.symm hi
      · rintro (rfl | h') <;> omega
    · simp only [List.cons.injEq]
      have : (∃ r : List Char, asciiLower c = d ∧ [] = r) ↔ asciiLower c = d := by simp
      rw [this]
      unfold asciiLower
      split
      · rename_i hc
        have e : (Char.ofNat (c.toNat + 32)).toNat = c.toNat + 32 := by
          exact toNat_ofNat_valid (by left; omega)
        constructor
        · rintro rfl; right; rw [e]
        · rintro (rfl | h')
          · omega
          · exact inj (by rw [e, h'])
      · rename_i hc
        constructor
        · rintro rfl; left; rfl
        · rintro (rfl | h')
          · rfl
          · omega

theorem lowerChar_length {c : Char} : (∃ x, lowerChar c = [x]) ∨ ∃ r, lowerChar c = 'i' :: r := by
  unfold lowerChar
  split
  · exact Or.inl ⟨_, rfl⟩
  · split
    · exact Or.inr ⟨_, rfl⟩
    · exact Or.inl ⟨_, rfl⟩

theorem lowercase_list (w : List Char) (hw : ∀ d ∈ w, ('a' ≤ d ∧ d ≤ 'z') ∧ d ≠ 'i' ∧ d ≠ 'k') (l : List Char) :
    l.flatMap lowerChar = w ↔ l.length = w.length ∧ ∀ (i : Nat) c d, l[i]? = some c → w[i]? = some d →
      (c = d ∨ (c.toNat + 32 = d.toNat ∧ 'a' ≤ d ∧ d ≤ 'z')) := by
  induction w generalizing l with
  | nil =>
    cases l with
    | nil => simp
    | cons c l =>
      constructor
      · intro h
        simp only [List.flatMap_cons, List.append_eq_nil_iff] at h
        rcases lowerChar_length (c := c) with ⟨x, hx⟩ | ⟨r, hx⟩ <;> rw [hx] at h <;> simp at h
      · rintro ⟨h, -⟩; simp at h
  | cons d w ih =>
    have hd := hw d List.mem_cons_self
    have ih := ih (fun x hx => hw x (List.mem_cons_of_mem _ hx))
    cases l with
    | nil => simp
    | cons c l =>
      rw [List.flatMap_cons]
      constructor
      · intro h
        rcases lowerChar_length (c := c) with ⟨x, hx⟩ | ⟨r, hx⟩
        · rw [hx] at h
          simp only [List.cons_append, List.nil_append, List.cons.injEq] at h
          obtain ⟨rfl, h⟩ := h
          have hc := (lowerChar_eq (c := c) hd.1 hd.2.1 hd.2.2).1 ⟨[], hx⟩
          obtain ⟨h1, h2⟩ := (ih l).1 h
          refine ⟨by simp [h1], fun i a b ha hb => ?_⟩
          cases i with
          | zero =>
            simp only [List.getElem?_cons_zero, Option.some.injEq] at ha hb
            subst ha hb
            rcases hc with hc | hc
            · exact Or.inl hc
            · exact Or.inr ⟨hc, hd.1⟩
          | succ i => exact h2 i a b (by simpa using ha) (by simpa using hb)
        · rw [hx] at h
          simp only [List.cons_append, List.cons.injEq] at h
          exact absurd h.1.symm hd.2.1
      · rintro ⟨h1, h2⟩
        have hc := h2 0 c d rfl rfl
        have hc' : c = d ∨ c.toNat + 32 = d.toNat := by
          rcases hc with hc | hc
          · exact Or.inl hc
          · exact Or.inr hc.1
        obtain ⟨r, hr⟩ := (lowerChar_eq hd.1 hd.2.1 hd.2.2).2 hc'
        rcases lowerChar_length (c := c) with ⟨x, hx⟩ | ⟨r', hx⟩
        · rw [hx] at hr
          simp only [List.cons.injEq] at hr
          rw [hx, hr.1]
          simp only [List.cons_append, List.nil_append, List.cons.injEq, true_and]
          refine (ih l).2 ⟨by simpa using h1, fun i a b ha hb => h2 (i + 1) a b (by simpa using ha) (by simpa using hb)⟩
        · rw [hx] at hr
          simp only [List.cons.injEq] at hr
          exact absurd hr.1.symm hd.2.1

theorem lowercase_iff (s w : String) (hw : ∀ d ∈ w.toList, ('a' ≤ d ∧ d ≤ 'z') ∧ d ≠ 'i' ∧ d ≠ 'k') :
    toLowercase s = w ↔ s.toList.length = w.toList.length ∧ ∀ (i : Nat) c d, s.toList[i]? = some c →
      w.toList[i]? = some d → (c = d ∨ (c.toNat + 32 = d.toNat ∧ 'a' ≤ d ∧ d ≤ 'z')) := by
  rw [← lowercase_list w.toList hw]
  unfold toLowercase
  constructor
  · intro h; rw [← h, String.toList_ofList]
  · intro h; rw [h, String.ofList_toList]

end Verif
