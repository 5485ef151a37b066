import Verif.Spec.Footprint
import Verif.Spec.Config
/-!
# Settings that are all given

When a value leaves nothing to the layers below it, as far as a type is concerned.
-/
namespace Verif.Spec

/-- The value has something to say (if only that an entry is not a map) at every path that reading it as the type looks at. -/
def Settles (structs : Nat → List (String × Ty)) (T : Ty) (x : Value) : Prop := ∀ p, Looks structs T p → ¬ Silent x p

/-- Types without a map, except inside of lists and tuples: which keys they have is fixed by their structs. -/
inductive NoTables : Ty → Prop
  | leaf {t} : t ∈ [Ty.bool, .f32, .f64, .char, .string, .unit, .unitStruct] → NoTables t
  | int (t) : NoTables (.int t)
  | option {t} : NoTables t → NoTables (.option t)
  | newtype {t} : NoTables t → NoTables (.newtype t)
  | seq (t) : NoTables (.seq t)
  | tuple (ts) : NoTables (.tuple ts)
  | tupleStruct (ts) : NoTables (.tupleStruct ts)
  | struct {fs} : (∀ f ∈ fs, NoTables (Prod.snd f)) → NoTables (.struct fs)
  | ref (n) : NoTables (.ref n)

/-- The settings lack something: they are `None`, or a field of them (of a field, …) is. Lists and tuples are not searched. -/
inductive Lacks : Data → Prop
  | none : Lacks .none
  | some {d} : Lacks d → Lacks (.some d)
  | newtype {d} : Lacks d → Lacks (.newtypeStruct d)
  | field {fs : List (String × Data)} {n d} : (n, d) ∈ fs → Lacks d → Lacks (.struct fs)

end Verif.Spec
