import Verif.Spec.Pinned
import Verif.Spec.Toml
import Mathlib.Data.Set.Card
/-!
# How much there is in a value
-/
namespace Verif.Spec

/-- The places of a value: all paths that lead somewhere. -/
def places (v : Value) : Set Path := {p | view v p ≠ none}

end Verif.Spec
