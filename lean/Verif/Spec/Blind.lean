import Verif.Spec.Kept
/-!
# Reading does not depend on the order of maps
-/
namespace Verif.Spec

/-- Two values that are the same up to the order of their maps are both refused, or both read, as the same data up to the order of its maps. -/
def AnyOrder (dec : Decoder) : Prop :=
  ∀ v v' d, UniqueKeys v → UniqueKeys v' → Same v v' → dec v = .ok d → ∃ d', dec v' = .ok d' ∧ DSame d d'

/-- All types in the shape are read, from such a buffer, without regard to the order. -/
def ShapeBlind (owned : Bool) : Shape → Prop
  | .unit => True
  | .newtype r => AnyOrder (r.buffered owned)
  | .tuple rs => ∀ r ∈ rs, AnyOrder (r.buffered owned)
  | .struct fs => (fs.map RField.name).Nodup ∧ ∀ f ∈ fs, AnyOrder (f.reader.buffered owned)

/-- The same of a flattened field: a struct owns its part of the buffer, a map borrows. -/
def PartBlind : Part → Prop
  | .struct fs => (fs.map RField.name).Nodup ∧ ∀ f ∈ fs, AnyOrder (f.reader.buffered true)
  | .rest r => AnyOrder (r.buffered false)

end Verif.Spec
