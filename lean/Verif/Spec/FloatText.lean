import Verif.Spec.Numbers
/-!
# How floats are spelled

The grammar of Rust's `f64::from_str`, and the number that a text stands for, as a rational.
-/
namespace Verif.Spec

/-- The exponent of a numeral: nothing, or `e` or `E`, an optional sign and one or more digits. -/
def Exponent (ex : List Char) (e : Int) : Prop :=
  (ex = [] ∧ e = 0) ∨
  ∃ c ds m, (c = 'e' ∨ c = 'E') ∧ DigitsSpell ds m ∧
    ((ex = c :: ds ∧ e = m) ∨ (ex = c :: '+' :: ds ∧ e = m) ∨ (ex = c :: '-' :: ds ∧ e = -(m : Int)))

/-- An unsigned decimal numeral and the number it stands for: digits, optionally a point and digits (at least one digit in all),
optionally an exponent. -/
def Numeral (body : List Char) (q : ℚ) : Prop :=
  ∃ ip fp ex n e, DigitsSpell (ip ++ fp) n ∧ Exponent ex e ∧
    ((fp = [] ∧ body = ip ++ ex) ∨ body = ip ++ '.' :: fp ++ ex) ∧ q = n * (10 : ℚ) ^ (e - fp.length)

/-- An optional sign and what it signs. -/
def Signed (s : String) (neg : Bool) (body : List Char) : Prop :=
  (neg = true ∧ s.toList = '-' :: body) ∨ (neg = false ∧ (s.toList = '+' :: body ∨ s.toList = body))

/-- The least number that no finite float of the format is nearest to: half a step above the largest. -/
def Fmt.tooBig (f : Fmt) : ℚ := ((2 : ℚ) ^ f.p - 1 / 2) * (2 : ℚ) ^ f.emax

/-- `x` is what the number `q` (with its sign, so that zero has one) becomes in the format: correctly rounded, or infinite if it
is too big. -/
def Rounds (f : Fmt) (neg : Bool) (q : ℚ) (x : FpRaw) : Prop :=
  (q < Fmt.tooBig f ∧ (∃ m e, x = .fin neg m e) ∧ CorrectlyRounded f ((if neg then -1 else 1) * q) x) ∨
  (Fmt.tooBig f ≤ q ∧ x = .inf neg)

/-- The number can be written with at most `n` significant decimal digits. -/
def WithDigits (n : Nat) (q : ℚ) : Prop := ∃ (d : Nat) (k : Int), d < 10 ^ n ∧ q = d * (10 : ℚ) ^ k

/-- Digits without a superfluous zero in front. -/
def NoLeadingZero (ds : List Char) : Prop := ds.head? = some '0' → ds = ['0']

/-- Plain positional notation, nothing superfluous: digits without leading zeros, and, if there is a fraction, a point and digits that
do not end in zero. No exponent. -/
def Plain (body : List Char) : Prop :=
  ∃ ip fp : List Char, (∀ c ∈ ip ++ fp, '0' ≤ c ∧ c ≤ '9') ∧ ip ≠ [] ∧ NoLeadingZero ip ∧ fp.getLast? ≠ some '0' ∧
    ((fp = [] ∧ body = ip) ∨ (fp ≠ [] ∧ body = ip ++ '.' :: fp))

end Verif.Spec
