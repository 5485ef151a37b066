import Verif.Spec.Footprint
import Verif.Spec.Attrs
/-!
# Who is to blame for an error, and what it reveals
-/
namespace Verif.Spec

/-- Reading the value as the first type, one comes along the path to a part of it that is read as the second type: through an `Option` that is there,
through a newtype, to all elements of a list, to those elements of a tuple that the type has, to all entries of a map, to the entries of a struct that are
fields of it. -/
inductive Reaches (structs : Nat → List (String × Ty)) : Ty → Value → Path → Ty → Value → Prop
  | here (t v) : Reaches structs t v [] t v
  | option {t v p u x} : v ≠ .none → Reaches structs t v p u x → Reaches structs (.option t) v p u x
  | newtype {t v p u x} : Reaches structs t v p u x → Reaches structs (.newtype t) v p u x
  | seq {t v i w p u x} : child v (.idx i) = some w → Reaches structs t w p u x → Reaches structs (.seq t) v (.idx i :: p) u x
  | tuple {ts : List Ty} {t v i w p u x} : ts[i]? = some t → child v (.idx i) = some w → Reaches structs t w p u x →
      Reaches structs (.tuple ts) v (.idx i :: p) u x
  | tupleStruct {ts : List Ty} {t v i w p u x} : ts[i]? = some t → child v (.idx i) = some w → Reaches structs t w p u x →
      Reaches structs (.tupleStruct ts) v (.idx i :: p) u x
  | map {kt t v k w p u x} : child v (.key k) = some w → Reaches structs t w p u x → Reaches structs (.map kt t) v (.key k :: p) u x
  | struct {fs : List (String × Ty)} {name t v w p u x} : (name, t) ∈ fs → child v (.key name) = some w → Reaches structs t w p u x →
      Reaches structs (.struct fs) v (.key name :: p) u x
  | ref {n v p u x} : Reaches structs (.struct (structs n)) v p u x → Reaches structs (.ref n) v p u x

/-- The scalar target that a scalar type is converted to (a 32-bit float goes through the 64-bit one). -/
def scalarOf : Ty → Option Scalar
  | .bool => some .bool
  | .int .i128 => none
  | .int .u128 => none
  | .int t => some (.int t)
  | .f32 => some .f64
  | .f64 => some .f64
  | .char => some .char
  | .string => some .string
  | _ => none

/-- What a value has to be for a type that is not a scalar. -/
inductive Needs : Ty → String → (Value → Prop) → Prop
  | unit : Needs .unit "None" (fun v => v = .none)
  | unitStruct : Needs .unitStruct "None" (fun v => v = .none)
  | seq (t) : Needs (.seq t) "Array" (fun v => ∃ xs, v = .array xs)
  | tuple (ts) : Needs (.tuple ts) "Array" (fun v => ∃ xs, v = .array xs)
  | tupleStruct (ts) : Needs (.tupleStruct ts) "Array" (fun v => ∃ xs, v = .array xs)
  | map (kt t) : Needs (.map kt t) "Map" (fun v => ∃ m, v = .map m)
  | struct (fs) : Needs (.struct fs) "Map" (fun v => ∃ m, v = .map m)

/-- The type a key is read as. -/
def keyTy : KeyTy → Ty
  | .bool => .bool
  | .int t => .int t
  | .char => .char
  | .string => .string

/-- Reading this value as this type fails by itself, with this error, whatever its parts are. -/
inductive Complains : Ty → Value → ModelError → Prop
  | scalar {t s v e} : scalarOf t = some s → v.tryInto s = .error e → Complains t v e
  | i128 (v) : Complains (.int .i128) v (.deserializationError "i128 is not supported")
  | u128 (v) : Complains (.int .u128) v (.deserializationError "u128 is not supported")
  | shape {t name need v} : Needs t name need → ¬ need v → Complains t v (.deserializationError ("Can't deserialize " ++ v.display ++ " to " ++ name))
  | tooShort {ts : List Ty} {xs : List Value} : xs.length < ts.length →
      Complains (.tuple ts) (.array xs) (.deserializationError ("invalid length " ++ String.ofList (decNat xs.length)))
  | tooShortStruct {ts : List Ty} {xs : List Value} : xs.length < ts.length →
      Complains (.tupleStruct ts) (.array xs) (.deserializationError ("invalid length " ++ String.ofList (decNat xs.length)))
  | key {kt t v k w e} : child v (.key k) = some w → Complains (keyTy kt) (.string k) e → Complains (.map kt t) v e
  | missing {fs : List (String × Ty)} {m name t} : (name, t) ∈ fs → (∀ u, t ≠ .option u) → child (.map m) (.key name) = none →
      Complains (.struct fs) (.map m) (.deserializationError ("missing field `" ++ name ++ "`"))

/-- The values are of the same kind: what they hold may differ. -/
def SameKind : Value → Value → Prop
  | .none, .none | .boolean _, .boolean _ | .integer _, .integer _ | .longInteger _, .longInteger _ | .uInteger _, .uInteger _
  | .uLongInteger _, .uLongInteger _ | .float _, .float _ | .string _, .string _ | .array _, .array _ | .map _, .map _ => True
  | _, _ => False

/-- The text occurs in the other text. -/
def OccursIn (small big : String) : Prop := ∃ a b, big = a ++ small ++ b

/-- The values differ at most in what the type has no name for: entries of structs that are not fields (of which there may be others, or more, or fewer, and
of any contents), and elements of lists beyond the length of a tuple. What the type has names for comes in the same order. -/
inductive HiddenOnly (structs : Nat → List (String × Ty)) : Ty → Value → Value → Prop
  | refl (t v) : HiddenOnly structs t v v
  | option {t v w} : v ≠ .none → w ≠ .none → HiddenOnly structs t v w → HiddenOnly structs (.option t) v w
  | newtype {t v w} : HiddenOnly structs t v w → HiddenOnly structs (.newtype t) v w
  | seq {t} {xs ys : List Value} : xs.length = ys.length → (∀ (i : Nat) x y, xs[i]? = some x → ys[i]? = some y → HiddenOnly structs t x y) →
      HiddenOnly structs (.seq t) (.array xs) (.array ys)
  | tuple {ts : List Ty} {xs ys : List Value} : (∀ i, i < ts.length → (xs[i]? = none ↔ ys[i]? = none)) →
      (∀ (i : Nat) t x y, ts[i]? = some t → xs[i]? = some x → ys[i]? = some y → HiddenOnly structs t x y) →
      HiddenOnly structs (.tuple ts) (.array xs) (.array ys)
  | tupleStruct {ts : List Ty} {xs ys : List Value} : (∀ i, i < ts.length → (xs[i]? = none ↔ ys[i]? = none)) →
      (∀ (i : Nat) t x y, ts[i]? = some t → xs[i]? = some x → ys[i]? = some y → HiddenOnly structs t x y) →
      HiddenOnly structs (.tupleStruct ts) (.array xs) (.array ys)
  | map {kt t} {m n : Entries} : m.map Prod.fst = n.map Prod.fst →
      (∀ (i : Nat) e f, m[i]? = some e → n[i]? = some f → HiddenOnly structs t e.2 f.2) → HiddenOnly structs (.map kt t) (.map m) (.map n)
  | struct {fs : List (String × Ty)} {m n : Entries} :
      (m.map Prod.fst).filter (fs.map Prod.fst).contains = (n.map Prod.fst).filter (fs.map Prod.fst).contains →
      (∀ name t e f, (name, t) ∈ fs → (name, e) ∈ m → (name, f) ∈ n → HiddenOnly structs t e f) →
      HiddenOnly structs (.struct fs) (.map m) (.map n)
  | ref {n v w} : HiddenOnly structs (.struct (structs n)) v w → HiddenOnly structs (.ref n) v w

/-- One value is the other, or a part of it, at any depth. -/
inductive PartOf : Value → Value → Prop
  | here (v) : PartOf v v
  | step {x w v s} : child v s = some w → PartOf x w → PartOf x v

/-- The error shows nothing of any value: it tells the kinds of a conversion's source and target, a width, the length of a list, or the name of a missing
field (which is in the program, not in the settings). -/
inductive Quiet (field : String → Prop) : ModelError → Prop
  | conversion {src tgt why} : src ∈ ["None", "Array", "Map", "String", "bool", "i64", "i128", "u64", "u128", "f64", "Float"] →
      tgt ∈ ["bool", "f64", "char", "String", "i8", "i16", "i32", "i64", "u8", "u16", "u32", "u64"] →
      why ∈ ["conversion not supported", "can't parse string as boolean", "can't parse string", "Number value is out of target bounds"] →
      Quiet field (.conversionError src tgt why)
  | i128 : Quiet field (.deserializationError "i128 is not supported")
  | u128 : Quiet field (.deserializationError "u128 is not supported")
  | length (n : Nat) : Quiet field (.deserializationError ("invalid length " ++ String.ofList (decNat n)))
  | missing {name} : field name → Quiet field (.deserializationError ("missing field `" ++ name ++ "`"))

/-- Why a struct with attributes refuses the map `v`: the entry of a field is refused; the same field is given under two keys; a key is unknown where unknown
fields are denied; or a field is absent and must not be. -/
inductive Refuses (deny : Bool) (fs : List AttrField) (v : Value) (e : ModelError) : Prop
  | entry (f) (hf : f ∈ fs) (k) (hk : k ∈ readFrom f) (x) (hx : child v (.key k) = some x) (he : f.dec x = .err e)
  | twice (f) (hf : f ∈ fs) (k k') (hk : k ∈ readFrom f) (hk' : k' ∈ readFrom f) (hne : k ≠ k') (h : child v (.key k) ≠ none) (h' : child v (.key k') ≠ none)
      (he : e = .deserializationError ("duplicate field `" ++ f.name ++ "`"))
  | unknown (hd : deny = true) (k) (hk : ∀ f ∈ fs, k ∉ readFrom f) (h : child v (.key k) ≠ none) (he : e = .deserializationError ("unknown field `" ++ k ++ "`"))
  | absent (f) (hf : f ∈ fs) (h : ∀ k ∈ readFrom f, child v (.key k) = none) (he : f.missing = .err e)

end Verif.Spec
