import Verif.Spec.Layering
import Verif.Spec.Config
/-!
# When the order of layers matters, and what a layer can change
-/
namespace Verif.Spec

/-- At every chain of keys at which both values hold something, they hold a map each, or the same thing. -/
def Concur (u v : Value) : Prop :=
  ∀ (q : List String) (h h' : Head), view u (keys q) = some h → view v (keys q) = some h' →
    (h = .map ∧ h' = .map) ∨ ∀ r, view u (keys q ++ r) = view v (keys q ++ r)

/-- Where `v` and `t` both have a map, every key of `v`'s map is a key of `t`'s. -/
def DropsNothing (v t : Value) : Prop :=
  ∀ (q : List String) (k : String), view v (keys q) = some .map → view t (keys q) = some .map →
    view v (keys (q ++ [k])) ≠ none → view t (keys (q ++ [k])) ≠ none

end Verif.Spec
