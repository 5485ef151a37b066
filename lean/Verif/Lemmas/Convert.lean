import Verif.Model.Convert
import Verif.Spec.Numbers
import Verif.Lemmas.FloatExact
import Mathlib.Tactic.IntervalCases
/-! Lemmas about numbers, text and conversions. -/
namespace Verif
open Spec

theorem inRange_iff (t : IntTy) (n : Int) : InRange t n ↔ t.lo ≤ n ∧ n ≤ t.hi := by
  cases t <;> simp only [InRange, isSigned, width, IntTy.lo, IntTy.hi] <;> norm_num <;> omega

theorem tryFrom_ok {t : IntTy} {n : Int} (h : InRange t n) : ∃ r, t.tryFrom n = some r ∧ r.1 = n := by
  rw [inRange_iff] at h
  exact ⟨⟨n, h⟩, by simp [IntTy.tryFrom, h], rfl⟩

theorem tryFrom_none {t : IntTy} {n : Int} (h : ¬ InRange t n) : t.tryFrom n = none := by
  rw [inRange_iff] at h
  simp only [IntTy.tryFrom]
  rw [dif_neg h]

theorem tryFrom_self {t : IntTy} (r : IntOf t) : t.tryFrom r.1 = some r := by
  simp only [IntTy.tryFrom]
  rw [dif_pos r.2]

theorem inRange_self {t : IntTy} (r : IntOf t) : InRange t r.1 := (inRange_iff t _).2 r.2

theorem wrap_of_inRange {t : IntTy} {n : Int} (h : InRange t n) : (t.wrap n).1 = n := by
  rw [inRange_iff] at h
  simp only [IntTy.wrap]
  rw [Int.emod_eq_of_lt] <;> omega

theorem toNumber_ok {t : IntTy} {n : Int} {src : String} (h : InRange t n) :
    ∃ r, toNumber n src t = .ok r ∧ r.1 = n := by
  obtain ⟨r, h1, h2⟩ := tryFrom_ok h
  exact ⟨r, by simp [toNumber, h1], h2⟩

theorem toNumber_err {t : IntTy} {n : Int} {src : String} (h : ¬ InRange t n) :
    toNumber n src t = .error (.conversionError src t.name "Number value is out of target bounds") := by
  simp [toNumber, tryFrom_none h]

/-! ## Digits -/

theorem charDigit_some {c : Char} {d : Nat} : charDigit c = some d ↔ ('0' ≤ c ∧ c ≤ '9') ∧ d = c.toNat - '0'.toNat := by
  have e0 : '0' ≤ c ↔ 48 ≤ c.toNat := by
    rw [Char.le_def, UInt32.le_iff_toNat_le]; rfl
  have e9 : c ≤ '9' ↔ c.toNat ≤ 57 := by
    rw [Char.le_def, UInt32.le_iff_toNat_le]; rfl
  rw [e0, e9]
  unfold charDigit
  have : '0'.toNat = 48 := rfl
  rw [this]
  split
  · rename_i h; simp [h, eq_comm]
  · rename_i h; simp [h]

theorem isDec_iff {c : Char} : isDec c = true ↔ ('0' ≤ c ∧ c ≤ '9') := by
  unfold isDec
  cases h : charDigit c with
  | none =>
    simp only [Option.isSome_none, Bool.false_eq_true, false_iff]
    intro hc
    have := (charDigit_some (c := c) (d := c.toNat - '0'.toNat)).2 ⟨hc, rfl⟩
    rw [h] at this; cases this
  | some d => simpa using (charDigit_some.1 h).1

theorem digitsVal_append (l : List Char) (c : Char) :
    digitsVal (l ++ [c]) = digitsVal l * 10 + (charDigit c).getD 0 := by
  simp [digitsVal]

theorem foldl_digits (l : List Char) (acc : Nat) :
    l.foldl (fun acc c => acc * 10 + (charDigit c).getD 0) acc = acc * 10 ^ l.length + digitsVal l := by
  induction l generalizing acc with
  | nil => simp [digitsVal]
  | cons c l ih =>
    simp only [List.foldl_cons, List.length_cons]
    rw [ih]
    have : digitsVal (c :: l) = (charDigit c).getD 0 * 10 ^ l.length + digitsVal l := by
      simp only [digitsVal, List.foldl_cons]
      have := ih (0 * 10 + (charDigit c).getD 0)
      rw [this]; simp [digitsVal]
    rw [this, Nat.pow_succ]; ring

theorem digitsVal_cons (c : Char) (l : List Char) :
    digitsVal (c :: l) = (charDigit c).getD 0 * 10 ^ l.length + digitsVal l := by
  have := foldl_digits l (0 * 10 + (charDigit c).getD 0)
  simpa [digitsVal] using this

theorem digitsVal_app (a b : List Char) : digitsVal (a ++ b) = digitsVal a * 10 ^ b.length + digitsVal b := by
  have := foldl_digits b (digitsVal a)
  rw [← this]; simp [digitsVal]

/-- The model's digit evaluation is Mathlib's. -/
theorem digitsVal_ofDigits {ds : List Char} (h : ∀ c ∈ ds, '0' ≤ c ∧ c ≤ '9') :
    digitsVal ds = Nat.ofDigits 10 (ds.map (fun c => c.toNat - '0'.toNat)).reverse := by
  induction ds with
  | nil => simp [digitsVal]
  | cons c ds ih =>
    rw [digitsVal_cons, ih (fun d hd => h d (List.mem_cons_of_mem _ hd))]
    have := (charDigit_some (c := c) (d := c.toNat - '0'.toNat)).2 ⟨h c List.mem_cons_self, rfl⟩
    rw [this]
    simp only [List.map_cons, List.reverse_cons, Nat.ofDigits_append, Nat.ofDigits_singleton, Option.getD_some,
      List.length_reverse, List.length_map]
    ring

theorem checked_some {t : IntTy} {n m : Int} : t.checked n = some m ↔ m = n ∧ InRange t n := by
  rw [inRange_iff]
  unfold IntTy.checked
  split
  · rename_i h; simp [h, eq_comm]
  · rename_i h; simp [h]

theorem zero_inRange (t : IntTy) : InRange t 0 := by rw [inRange_iff]; cases t <;> decide

theorem inRange_mono {t : IntTy} {a b : Int} (h : InRange t b) (h1 : 0 ≤ a) (h2 : a ≤ b) : InRange t a := by
  have h0 := zero_inRange t
  rw [inRange_iff] at h h0 ⊢; omega

theorem inRange_mono_neg {t : IntTy} {a b : Int} (h : InRange t b) (h1 : a ≤ 0) (h2 : b ≤ a) : InRange t a := by
  have h0 := zero_inRange t
  rw [inRange_iff] at h h0 ⊢; omega

/-- The digit loop: succeeds exactly on digit strings whose value fits, and then returns it. -/
theorem parseDigits_pos (t : IntTy) (ds : List Char) (acc : Nat) (n : Int) (hacc : InRange t acc) :
    parseDigits t false ds acc = some n ↔
      (∀ c ∈ ds, '0' ≤ c ∧ c ≤ '9') ∧ n = acc * 10 ^ ds.length + digitsVal ds ∧ InRange t n := by
  induction ds generalizing acc with
  | nil =>
    simp only [parseDigits, Option.some.injEq, List.not_mem_nil, false_imp_iff, implies_true, List.length_nil, pow_zero,
      mul_one, true_and]
    have : digitsVal [] = 0 := rfl
    rw [this]; simp only [Nat.cast_zero, add_zero]
    constructor
    · rintro rfl; exact ⟨rfl, hacc⟩
    · rintro ⟨h, -⟩; exact h.symm
  | cons c ds ih =>
    rw [parseDigits]
    cases hc : charDigit c with
    | none =>
      simp only [Option.bind_eq_bind, Option.bind_none, reduceCtorEq, false_iff]
      rintro ⟨h, -⟩
      have := (charDigit_some (c := c) (d := c.toNat - '0'.toNat)).2 ⟨h c List.mem_cons_self, rfl⟩
      rw [hc] at this; cases this
    | some d =>
      have hd := charDigit_some.1 hc
      have hval : digitsVal (c :: ds) = d * 10 ^ ds.length + digitsVal ds := by rw [digitsVal_cons, hc]; rfl
      simp only [Option.bind_eq_bind, Option.bind_some, Bool.false_eq_true, if_false]
      have hall : (∀ x ∈ c :: ds, '0' ≤ x ∧ x ≤ '9') ↔ (∀ x ∈ ds, '0' ≤ x ∧ x ≤ '9') := by
        constructor
        · intro h x hx; exact h x (List.mem_cons_of_mem _ hx)
        · intro h x hx
          rcases List.mem_cons.1 hx with rfl | hx
          · exact hd.1
          · exact h x hx
      rw [hall, hval, List.length_cons]
      have key : ((acc:Int) * 10 ^ (ds.length + 1) + ((d * 10 ^ ds.length + digitsVal ds : Nat) : Int)) =
          ((acc * 10 + d : Nat) : Int) * 10 ^ ds.length + (digitsVal ds : Int) := by
        push_cast; ring
      rw [key]
      by_cases h2 : InRange t ((acc * 10 + d : Nat) : Int)
      · have h1 : InRange t ((acc:Int) * 10) := inRange_mono h2 (by positivity) (by push_cast; omega)
        have e1 : t.checked ((acc:Int) * 10) = some ((acc:Int) * 10) := checked_some.2 ⟨rfl, h1⟩
        have e2 : t.checked ((acc:Int) * 10 + d) = some (((acc * 10 + d : Nat)) : Int) :=
          checked_some.2 ⟨by push_cast; ring, by push_cast at h2; exact h2⟩
        rw [e1, Option.bind_some, e2, Option.bind_some]
        exact ih _ h2
      · have hno : ¬ InRange t (((acc * 10 + d : Nat) : Int) * 10 ^ ds.length + (digitsVal ds : Int)) := by
          intro h
          apply h2
          refine inRange_mono h (by positivity) ?_
          have : (1:Int) ≤ 10 ^ ds.length := one_le_pow₀ (by norm_num)
          have h3 : (0:Int) ≤ ((acc * 10 + d : Nat) : Int) := by positivity
          have h4 : (0:Int) ≤ (digitsVal ds : Int) := by positivity
          nlinarith
        have hl : (t.checked ((acc:Int) * 10)).bind (fun m => (t.checked (m + (d:Int))).bind fun a => parseDigits t false ds a) = none := by
          cases e1 : t.checked ((acc:Int) * 10) with
          | none => rfl
          | some m =>
            rw [Option.bind_some]
            obtain ⟨rfl, -⟩ := checked_some.1 e1
            cases e2 : t.checked ((acc:Int) * 10 + (d:Int)) with
            | none => rfl
            | some a =>
              obtain ⟨-, hh⟩ := checked_some.1 e2
              exact absurd (by push_cast; exact hh) h2
        rw [hl]
        simp only [reduceCtorEq, false_iff]
        rintro ⟨-, rfl, h⟩
        exact hno h

theorem parseDigits_neg (t : IntTy) (ds : List Char) (acc : Nat) (n : Int) (hacc : InRange t (-(acc:Int))) :
    parseDigits t true ds (-(acc:Int)) = some n ↔
      (∀ c ∈ ds, '0' ≤ c ∧ c ≤ '9') ∧ n = -((acc * 10 ^ ds.length + digitsVal ds : Nat) : Int) ∧ InRange t n := by
  induction ds generalizing acc with
  | nil =>
    simp only [parseDigits, Option.some.injEq, List.not_mem_nil, false_imp_iff, implies_true, List.length_nil, pow_zero,
      mul_one, true_and]
    have : digitsVal [] = 0 := rfl
    rw [this]; simp only [add_zero]
    constructor
    · rintro rfl; exact ⟨rfl, hacc⟩
    · rintro ⟨h, -⟩; exact h.symm
  | cons c ds ih =>
    rw [parseDigits]
    cases hc : charDigit c with
    | none =>
      simp only [Option.bind_eq_bind, Option.bind_none, reduceCtorEq, false_iff]
      rintro ⟨h, -⟩
      have := (charDigit_some (c := c) (d := c.toNat - '0'.toNat)).2 ⟨h c List.mem_cons_self, rfl⟩
      rw [hc] at this; cases this
    | some d =>
      have hd := charDigit_some.1 hc
      have hval : digitsVal (c :: ds) = d * 10 ^ ds.length + digitsVal ds := by rw [digitsVal_cons, hc]; rfl
      simp only [Option.bind_eq_bind, Option.bind_some, if_true]
      have hall : (∀ x ∈ c :: ds, '0' ≤ x ∧ x ≤ '9') ↔ (∀ x ∈ ds, '0' ≤ x ∧ x ≤ '9') := by
        constructor
        · intro h x hx; exact h x (List.mem_cons_of_mem _ hx)
        · intro h x hx
          rcases List.mem_cons.1 hx with rfl | hx
          · exact hd.1
          · exact h x hx
      rw [hall, hval, List.length_cons]
      have key : (acc * 10 ^ (ds.length + 1) + (d * 10 ^ ds.length + digitsVal ds)) =
          (acc * 10 + d) * 10 ^ ds.length + digitsVal ds := by ring
      rw [key]
      by_cases h2 : InRange t (-((acc * 10 + d : Nat) : Int))
      · have h1 : InRange t (-(acc:Int) * 10) := inRange_mono_neg h2 (by
          have : (0:Int) ≤ acc := by positivity
          omega) (by push_cast; omega)
        have e1 : t.checked (-(acc:Int) * 10) = some (-(acc:Int) * 10) := checked_some.2 ⟨rfl, h1⟩
        have e2 : t.checked (-(acc:Int) * 10 - d) = some (-((acc * 10 + d : Nat) : Int)) :=
          checked_some.2 ⟨by push_cast; ring, by
            have : -(acc:Int) * 10 - d = (-((acc * 10 + d : Nat) : Int)) := by push_cast; ring
            rw [this]; exact h2⟩
        rw [e1, Option.bind_some, e2, Option.bind_some]
        exact ih _ h2
      · have hno : ¬ InRange t (-(((acc * 10 + d) * 10 ^ ds.length + digitsVal ds : Nat) : Int)) := by
          intro h
          apply h2
          refine inRange_mono_neg (a := -((acc * 10 + d : Nat) : Int)) h (by omega) ?_
          have : 1 ≤ 10 ^ ds.length := Nat.one_le_pow _ _ (by norm_num)
          have : (acc * 10 + d) ≤ (acc * 10 + d) * 10 ^ ds.length + digitsVal ds := by nlinarith
          exact neg_le_neg (by exact_mod_cast this)
        have hl : (t.checked (-(acc:Int) * 10)).bind (fun m => (t.checked (m - (d:Int))).bind fun a => parseDigits t true ds a) = none := by
          cases e1 : t.checked (-(acc:Int) * 10) with
          | none => rfl
          | some m =>
            rw [Option.bind_some]
            obtain ⟨rfl, -⟩ := checked_some.1 e1
            cases e2 : t.checked (-(acc:Int) * 10 - (d:Int)) with
            | none => rfl
            | some a =>
              obtain ⟨-, hh⟩ := checked_some.1 e2
              have : -(acc:Int) * 10 - d = (-((acc * 10 + d : Nat) : Int)) := by push_cast; ring
              exact absurd (this ▸ hh) h2
        rw [hl]
        simp only [reduceCtorEq, false_iff]
        rintro ⟨-, rfl, h⟩
        exact hno h

theorem isSigned_eq (t : IntTy) : t.signed = isSigned t := by cases t <;> rfl

theorem plus_not_digit : ¬ ('0' ≤ '+' ∧ '+' ≤ '9') := by decide
theorem minus_not_digit : ¬ ('0' ≤ '-' ∧ '-' ≤ '9') := by decide

/-- Rust's integer parser accepts exactly the spellings of numbers in range. -/
theorem parseInt_iff (t : IntTy) (s : String) (r : IntOf t) : parseInt t s = some r ↔ Spells t s r.1 := by
  unfold parseInt Spells
  have hz : InRange t ((0:Nat):Int) := zero_inRange t
  have hz' : InRange t (-((0:Nat):Int)) := by simpa using zero_inRange t
  have bindEq : ∀ o : Option Int, o.bind t.tryFrom = some r ↔ o = some r.1 := by
    intro o
    cases o with
    | none => simp
    | some n =>
      rw [Option.bind_some, Option.some.injEq]
      constructor
      · intro h
        simp only [IntTy.tryFrom] at h
        split at h
        · cases h; rfl
        · cases h
      · rintro rfl; exact tryFrom_self r
  have pos : ∀ ds : List Char, parseDigits t false ds 0 = some r.1 ↔
      (∀ c ∈ ds, '0' ≤ c ∧ c ≤ '9') ∧ r.1 = digitsVal ds := by
    intro ds
    have := parseDigits_pos t ds 0 r.1 hz
    simp only [Nat.cast_zero, zero_mul, zero_add] at this
    rw [this]
    constructor
    · rintro ⟨a, b, -⟩; exact ⟨a, b⟩
    · rintro ⟨a, b⟩; exact ⟨a, b, inRange_self r⟩
  have negp : ∀ ds : List Char, parseDigits t true ds 0 = some r.1 ↔
      (∀ c ∈ ds, '0' ≤ c ∧ c ≤ '9') ∧ r.1 = -(digitsVal ds : Int) := by
    intro ds
    have := parseDigits_neg t ds 0 r.1 hz'
    simp only [Nat.cast_zero, neg_zero, zero_mul, zero_add] at this
    rw [this]
    constructor
    · rintro ⟨a, b, -⟩; exact ⟨a, b⟩
    · rintro ⟨a, b⟩; exact ⟨a, b, inRange_self r⟩
  have spell : ∀ (ds : List Char) (m : Nat), DigitsSpell ds m ↔
      (ds ≠ [] ∧ (∀ c ∈ ds, '0' ≤ c ∧ c ≤ '9') ∧ m = digitsVal ds) := by
    intro ds m
    unfold DigitsSpell
    constructor
    · rintro ⟨a, b, c⟩; exact ⟨a, b, by rw [c, digitsVal_ofDigits b]⟩
    · rintro ⟨a, b, c⟩; exact ⟨a, b, by rw [c, digitsVal_ofDigits b]⟩
  simp only [spell]
  cases hs : s.toList with
  | nil =>
    simp only [reduceCtorEq, false_iff]
    rintro ⟨ds, m, ⟨h1, -, -⟩, h⟩
    simp [h1.symm] at h
  | cons c rest =>
    simp only
    rw [bindEq]
    by_cases hc1 : c = '+'
    · subst hc1
      by_cases hr : rest = []
      · subst hr
        simp only [true_or, and_self, if_true, reduceCtorEq, false_iff]
        rintro ⟨ds, m, ⟨h1, h2, -⟩, h⟩
        rcases h with ⟨h, -⟩ | ⟨h, -⟩ | ⟨-, h, -⟩
        · exact plus_not_digit (h2 '+' (h ▸ List.mem_cons_self))
        · simp at h; exact h1 h
        · simp at h
      · simp only [true_or, true_and, hr, if_false, if_true]
        rw [pos]
        constructor
        · rintro ⟨h1, h2⟩
          exact ⟨rest, _, ⟨hr, h1, rfl⟩, Or.inr (Or.inl ⟨rfl, h2⟩)⟩
        · rintro ⟨ds, m, ⟨h1, h2, rfl⟩, h⟩
          rcases h with ⟨h, -⟩ | ⟨h, hn⟩ | ⟨-, h, -⟩
          · exact absurd (h2 '+' (h ▸ List.mem_cons_self)) plus_not_digit
          · simp only [List.cons.injEq, true_and] at h; subst h; exact ⟨h2, hn⟩
          · simp at h
    · by_cases hc2 : c = '-'
      · subst hc2
        by_cases hr : rest = []
        · subst hr
          simp only [or_true, and_self, if_true, reduceCtorEq, false_iff]
          rintro ⟨ds, m, ⟨h1, h2, -⟩, h⟩
          rcases h with ⟨h, -⟩ | ⟨h, -⟩ | ⟨-, h, -⟩
          · exact minus_not_digit (h2 '-' (h ▸ List.mem_cons_self))
          · simp at h
          · simp at h; exact h1 h
        · simp only [or_true, true_and, hr, if_false, hc1]
          rw [isSigned_eq]
          by_cases hsg : isSigned t = true
          · rw [if_pos hsg, negp]
            constructor
            · rintro ⟨h1, h2⟩
              exact ⟨rest, _, ⟨hr, h1, rfl⟩, Or.inr (Or.inr ⟨hsg, rfl, h2⟩)⟩
            · rintro ⟨ds, m, ⟨h1, h2, rfl⟩, h⟩
              rcases h with ⟨h, -⟩ | ⟨h, hn⟩ | ⟨-, h, hn⟩
              · exact absurd (h2 '-' (h ▸ List.mem_cons_self)) minus_not_digit
              · simp at h
              · simp only [List.cons.injEq, true_and] at h; subst h; exact ⟨h2, hn⟩
          · rw [if_neg hsg, pos]
            constructor
            · rintro ⟨h1, h2⟩; exact absurd (h1 '-' List.mem_cons_self) minus_not_digit
            · rintro ⟨ds, m, ⟨h1, h2, rfl⟩, h⟩
              rcases h with ⟨h, -⟩ | ⟨h, hn⟩ | ⟨h3, h, hn⟩
              · exact absurd (h2 '-' (h ▸ List.mem_cons_self)) minus_not_digit
              · simp at h
              · exact absurd h3 hsg
      · simp only [hc1, hc2, or_self, false_and, if_false]
        rw [pos]
        constructor
        · rintro ⟨h1, h2⟩
          exact ⟨c :: rest, _, ⟨by simp, h1, rfl⟩, Or.inl ⟨rfl, h2⟩⟩
        · rintro ⟨ds, m, ⟨h1, h2, rfl⟩, h⟩
          rcases h with ⟨h, hn⟩ | ⟨h, hn⟩ | ⟨-, h, hn⟩
          · subst h; exact ⟨h2, hn⟩
          · simp only [List.cons.injEq] at h; exact absurd h.1 hc1
          · simp only [List.cons.injEq] at h; exact absurd h.1 hc2

/-! ## Printing -/

theorem charDigit_digitChar {d : Nat} (h : d < 10) : charDigit (digitChar d) = some d := by
  interval_cases d <;> decide

theorem digitChar_range {d : Nat} (h : d < 10) : '0' ≤ digitChar d ∧ digitChar d ≤ '9' := by
  interval_cases d <;> decide

theorem decAux_digits (fuel n : Nat) : ∀ c ∈ decAux fuel n, '0' ≤ c ∧ c ≤ '9' := by
  induction fuel generalizing n with
  | zero => simp [decAux]
  | succ f ih =>
    rw [decAux]
    split
    · rename_i h; intro c hc; rw [List.mem_singleton.1 hc]; exact digitChar_range h
    · intro c hc
      rcases List.mem_append.1 hc with hc | hc
      · exact ih _ c hc
      · rw [List.mem_singleton.1 hc]; exact digitChar_range (Nat.mod_lt _ (by decide))

theorem decAux_val (fuel n : Nat) (h : n < fuel) : digitsVal (decAux fuel n) = n := by
  induction fuel generalizing n with
  | zero => omega
  | succ f ih =>
    rw [decAux]
    split
    · rename_i h10
      rw [digitsVal_cons, charDigit_digitChar h10]; simp [digitsVal]
    · rw [digitsVal_append, charDigit_digitChar (Nat.mod_lt _ (by decide)), ih _ (by omega)]
      simp only [Option.getD_some]; omega

theorem decAux_ne_nil (f n : Nat) : decAux (f + 1) n ≠ [] := by
  rw [decAux]; split <;> simp

theorem decNat_digits (n : Nat) : ∀ c ∈ decNat n, '0' ≤ c ∧ c ≤ '9' := decAux_digits _ _
theorem decNat_val (n : Nat) : digitsVal (decNat n) = n := decAux_val _ _ (by omega)
theorem decNat_ne_nil (n : Nat) : decNat n ≠ [] := decAux_ne_nil _ _

theorem decNat_spells (n : Nat) : DigitsSpell (decNat n) n :=
  ⟨decNat_ne_nil n, decNat_digits n, by rw [← digitsVal_ofDigits (decNat_digits n), decNat_val]⟩

/-- The printed form of an integer spells it, for every type that can hold it. -/
theorem decInt_spells (t : IntTy) (n : Int) (h : InRange t n) : Spells t (String.ofList (decInt n)) n := by
  refine ⟨decNat n.natAbs, n.natAbs, decNat_spells _, ?_⟩
  unfold decInt
  split
  · rename_i hn
    right; right
    refine ⟨?_, by simp, by omega⟩
    cases ht : isSigned t with
    | true => rfl
    | false => simp [InRange, ht] at h; omega
  · rename_i hn
    left
    exact ⟨by simp, by omega⟩

end Verif
