import Verif.Spec.Serde
/-!
# Where a type looks

The paths of a value that reading it as a type depends on.
-/
namespace Verif.Spec

/-- Reading a value as the type looks at this path: at the value itself; through an `Option` or a newtype; at all elements of a list, at those elements of
a tuple that the type has; at all entries of a map; at the fields of a struct, and at no other key. A `Value` is looked at as a whole. -/
inductive Looks (structs : Nat → List (String × Ty)) : Ty → Path → Prop
  | here (t) : Looks structs t []
  | value (p) : Looks structs .value p
  | option {t p} : Looks structs t p → Looks structs (.option t) p
  | newtype {t p} : Looks structs t p → Looks structs (.newtype t) p
  | seq {t p} (i) : Looks structs t p → Looks structs (.seq t) (.idx i :: p)
  | tuple {ts : List Ty} {i t p} : ts[i]? = some t → Looks structs t p → Looks structs (.tuple ts) (.idx i :: p)
  | tupleStruct {ts : List Ty} {i t p} : ts[i]? = some t → Looks structs t p → Looks structs (.tupleStruct ts) (.idx i :: p)
  | map {kt t p} (k) : Looks structs t p → Looks structs (.map kt t) (.key k :: p)
  | struct {fs : List (String × Ty)} {name t p} : (name, t) ∈ fs → Looks structs t p → Looks structs (.struct fs) (.key name :: p)
  | ref {n p} : Looks structs (.struct (structs n)) p → Looks structs (.ref n) p

end Verif.Spec
