import Verif.Model.Nesting
import Verif.Spec.Cost
import Verif.Spec.Equality
/-!
# How deep things are nested
-/
namespace Verif.Spec

/-- A document of a foreign format that is nested less than `n` deep (what a `Value` refuses right away counts as a leaf). -/
inductive DocBelow : Doc → Nat → Prop
  | leaf (d : Doc) (n : Nat) (h1 : ∀ x, d ≠ .some x) (h2 : ∀ x, d ≠ .seq x) (h3 : ∀ x, d ≠ .map x) : DocBelow d (n + 1)
  | some {d : Doc} {n : Nat} (h : DocBelow d n) : DocBelow (.some d) (n + 1)
  | seq {ds : List Doc} {n : Nat} (h : ∀ d ∈ ds, DocBelow d n) : DocBelow (.seq ds) (n + 1)
  | map {es : List (Doc × Doc)} {n : Nat} (h : ∀ e ∈ es, DocBelow e.2 n) : DocBelow (.map es) (n + 1)

/-- What a loop makes that puts the value made so far into a new map (`Value::new_map().set(key, value)`, /repo/src/model/value.rs:66-74), once for each key. -/
def nestIn (v : Value) : List String → Value
  | [] => v
  | k :: ks => nestIn ((Value.map []).set k v).2 ks

end Verif.Spec
