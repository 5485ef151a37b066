import Verif.Spec.Serde
import Verif.Spec.EnvSettings
/-!
# The worst a configuration can do to a program that reads it with a type
-/
namespace Verif.Spec

/-- Some value (whose maps have no key twice) can be read as the type. -/
def HasReading (structs : Nat → List (String × Ty)) (T : Ty) : Prop := ∃ v k d, UniqueKeys v ∧ deAt structs k T v = .ok d

/-- Reading the type can come upon an enum or a byte buffer: it is one; or one is inside an `Option`, a newtype, the elements of a list, the values of a map
(whose keys are not 128-bit integers, which can never be read), a field of a struct, or a component of a tuple before which only readable components stand. -/
inductive Explosive (structs : Nat → List (String × Ty)) : Ty → Prop
  | enum : Explosive structs .enum
  | bytes : Explosive structs .bytes
  | option {T : Ty} : Explosive structs T → Explosive structs (.option T)
  | newtype {T : Ty} : Explosive structs T → Explosive structs (.newtype T)
  | seq {T : Ty} : Explosive structs T → Explosive structs (.seq T)
  | map {kt : KeyTy} {T : Ty} : kt ≠ .int .i128 → kt ≠ .int .u128 → Explosive structs T → Explosive structs (.map kt T)
  | tuple {before after : List Ty} {T : Ty} : (∀ B ∈ before, HasReading structs B) → Explosive structs T → Explosive structs (.tuple (before ++ T :: after))
  | tupleStruct {before after : List Ty} {T : Ty} : (∀ B ∈ before, HasReading structs B) → Explosive structs T →
      Explosive structs (.tupleStruct (before ++ T :: after))
  | struct {fs : List (String × Ty)} {name : String} {T : Ty} : (name, T) ∈ fs → Explosive structs T → Explosive structs (.struct fs)
  | ref {n : Nat} : Explosive structs (.struct (structs n)) → Explosive structs (.ref n)

/-- An enum or byte buffer, perhaps inside `Option`s and newtypes. -/
inductive ExplosiveText : Ty → Prop
  | enum : ExplosiveText .enum
  | bytes : ExplosiveText .bytes
  | option {T : Ty} : ExplosiveText T → ExplosiveText (.option T)
  | newtype {T : Ty} : ExplosiveText T → ExplosiveText (.newtype T)


/-- The types that can be read from something: no 128-bit integer, enum or byte buffer, other than in an `Option`, a list or a map (which may be absent or empty);
and no struct that needs itself. -/
inductive Fillable (structs : Nat → List (String × Ty)) : Ty → Prop
  | bool : Fillable structs .bool
  | int {t : IntTy} : t ≠ .i128 → t ≠ .u128 → Fillable structs (.int t)
  | f32 : Fillable structs .f32
  | f64 : Fillable structs .f64
  | char : Fillable structs .char
  | string : Fillable structs .string
  | unit : Fillable structs .unit
  | unitStruct : Fillable structs .unitStruct
  | value : Fillable structs .value
  | option (T : Ty) : Fillable structs (.option T)
  | seq (T : Ty) : Fillable structs (.seq T)
  | map (kt : KeyTy) (T : Ty) : Fillable structs (.map kt T)
  | newtype {T : Ty} : Fillable structs T → Fillable structs (.newtype T)
  | tuple {Ts : List Ty} : (∀ T ∈ Ts, Fillable structs T) → Fillable structs (.tuple Ts)
  | tupleStruct {Ts : List Ty} : (∀ T ∈ Ts, Fillable structs T) → Fillable structs (.tupleStruct Ts)
  | struct {fs : List (String × Ty)} : (∀ f ∈ fs, Fillable structs f.2) → Fillable structs (.struct fs)
  | ref {n : Nat} : Fillable structs (.struct (structs n)) → Fillable structs (.ref n)

end Verif.Spec
