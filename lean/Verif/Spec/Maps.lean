import Verif.Spec.Serde
/-!
# Reading a map with typed keys
-/
namespace Verif.Spec

/-- The text denotes the key: a boolean in any case of its letters, an integer (of at most 64 bits) in decimal and in range, a character by a text
that starts with it, a text itself. -/
def Denotes : KeyTy → String → Key → Prop
  | .bool, s, k => (k = .bool true ∧ EqIgnoreAsciiCase s "true") ∨ (k = .bool false ∧ EqIgnoreAsciiCase s "false")
  | .int t, s, k => Upto64 t ∧ ∃ n : IntOf t, k = .int t n ∧ Spells t s n.1
  | .char, s, k => ∃ c, k = .char c ∧ s.toList.head? = some c
  | .string, s, k => k = .str s

end Verif.Spec
