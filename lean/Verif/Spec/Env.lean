import Verif.Model.Path
/-!
# Environment variables and prefixes
-/
namespace Verif.Spec

/-- The code points with the Unicode property `White_Space`. -/
def whiteSpace : List Nat :=
  [9, 10, 11, 12, 13, 0x20, 0x85, 0xA0, 0x1680, 0x2000, 0x2001, 0x2002, 0x2003, 0x2004, 0x2005, 0x2006, 0x2007, 0x2008,
   0x2009, 0x200A, 0x2028, 0x2029, 0x202F, 0x205F, 0x3000]

/-- `t` is `s` without the blanks around it. -/
def Trimmed (s t : String) : Prop :=
  (∃ l r : List Char, s.toList = l ++ t.toList ++ r ∧ (∀ c ∈ l, c.toNat ∈ whiteSpace) ∧ (∀ c ∈ r, c.toNat ∈ whiteSpace)) ∧
  (∀ c, t.toList.head? = some c → c.toNat ∉ whiteSpace) ∧ (∀ c, t.toList.getLast? = some c → c.toNat ∉ whiteSpace)

/-- `P` written `n` times. -/
def times (n : Nat) (P : List Char) : List Char := (List.replicate n P).flatten

/-- The name of the variable is text, and without the blanks around it, it is `P` once or more often and then `k`,
which does not start with `P` again. -/
def Lands (P : String) (var : OsStr × OsStr) (k : String) : Prop :=
  ∃ name t, var.1 = os name ∧ Trimmed name t ∧ ¬ P.toList <+: k.toList ∧
    ∃ n, 1 ≤ n ∧ t.toList = times n P.toList ++ k.toList

/-- The value of the variable is the text `s`. -/
def HasText (var : OsStr × OsStr) (s : String) : Prop := var.2 = os s

end Verif.Spec
