import Verif.Model.Attrs
import Verif.Spec.Config
/-!
# What a field with attributes gets
-/
namespace Verif.Spec

/-- The keys a field is read from: its name and its aliases, or none if it is skipped. -/
def readFrom (f : AttrField) : List String :=
  match f.skip with
  | true => []
  | false => f.name :: f.aliases

/-- No key is claimed twice and no two fields have one name, as Rust's compiler checks. -/
def AttrsDistinct (fs : List AttrField) : Prop := (fs.map AttrField.name).Nodup ∧ (fs.flatMap readFrom).Nodup

/-- What the field gets from the map `v`: what is under the one of its keys that is there, or, if none is there, what it gets when absent. -/
inductive FieldGets (v : Value) (f : AttrField) (d : Data) : Prop
  | read (k : String) (x : Value) (hk : k ∈ readFrom f) (hx : child v (.key k) = some x)
      (only : ∀ k' ∈ readFrom f, child v (.key k') ≠ none → k' = k) (hd : f.dec x = .ok d)
  | absent (none : ∀ k ∈ readFrom f, child v (.key k) = none) (hd : f.missing = .ok d)

/-- A field without attributes. -/
def AttrField.plain (fd : FieldDec) : AttrField := ⟨fd.name, [], false, fd.dec, fd.missing⟩

end Verif.Spec
