import Verif.Spec.Serde
/-!
# A settings type that changes from one version of a program to the next

Fields are dropped, optional fields are added, a field becomes optional, an integer type gets wider. What is stored stays readable.
-/
namespace Verif.Spec

/-- The type `t'` may take the place of `t`: an integer type (of at most 64 bits) by one that holds all its numbers, `f32` by `f64`, a type that is
never `None` by an `Option` of it or by a newtype around it, a newtype by what it wraps, a tuple by a shorter one; in a struct the fields are matched
by name, fields may be dropped, and fields that the old struct does not have are `Option`s. Structs that are referred to by their number keep it. -/
inductive Evolves : Ty → Ty → Prop
  | leaf {t} : t ∈ [Ty.bool, .f32, .f64, .char, .string, .unit, .unitStruct, .value] → Evolves t t
  | int {t t' : IntTy} : Upto64 t' → t'.lo ≤ t.lo → t.hi ≤ t'.hi → Evolves (.int t) (.int t')
  | float : Evolves .f32 .f64
  | wrap {t t'} : Nullable t = false → Evolves t t' → Evolves t (.option t')
  | intoNewtype {t t'} : Nullable t = false → Evolves t t' → Evolves t (.newtype t')
  | outOfNewtype {t t'} : Evolves t t' → Evolves (.newtype t) t'
  | option {t t'} : Evolves t t' → Evolves (.option t) (.option t')
  | newtype {t t'} : Evolves t t' → Evolves (.newtype t) (.newtype t')
  | seq {t t'} : Evolves t t' → Evolves (.seq t) (.seq t')
  | tuple {ts ts' : List Ty} : ts'.length ≤ ts.length →
      (∀ (i : Nat) t t', ts[i]? = some t → ts'[i]? = some t' → Evolves t t') → Evolves (.tuple ts) (.tuple ts')
  | tupleStruct {ts ts' : List Ty} : ts'.length ≤ ts.length →
      (∀ (i : Nat) t t', ts[i]? = some t → ts'[i]? = some t' → Evolves t t') → Evolves (.tupleStruct ts) (.tupleStruct ts')
  | map {kt t t'} : Evolves t t' → Evolves (.map kt t) (.map kt t')
  | struct {fs fs' : List (String × Ty)} : (fs.map Prod.fst).Nodup → (fs'.map Prod.fst).Nodup →
      (∀ name t t', (name, t) ∈ fs → (name, t') ∈ fs' → Evolves t t') →
      (∀ name t', (name, t') ∈ fs' → name ∉ fs.map Prod.fst → ∃ t, t' = .option t) → Evolves (.struct fs) (.struct fs')
  | ref (n) : Evolves (.ref n) (.ref n)

/-- What was read as `d` is read as `d'` by the other version of the type: the same content, where both have it. `new` says what may be found in a
field of which `d` knows nothing. -/
inductive Carried (new : Data → Prop) : Data → Data → Prop
  | same (d) : Carried new d d
  | int {t t'} (n : IntOf t) (n' : IntOf t') : n.1 = n'.1 → Carried new (.int t n) (.int t' n')
  | float (x : F64) : Carried new (.f32 (F32.ofF64 x)) (.f64 x)
  | wrap {d d'} : Carried new d d' → Carried new d (.some d')
  | intoNewtype {d d'} : Carried new d d' → Carried new d (.newtypeStruct d')
  | outOfNewtype {d d'} : Carried new d d' → Carried new (.newtypeStruct d) d'
  | some {d d'} : Carried new d d' → Carried new (.some d) (.some d')
  | newtype {d d'} : Carried new d d' → Carried new (.newtypeStruct d) (.newtypeStruct d')
  | seq {ds ds' : List Data} : ds'.length = ds.length → (∀ (i : Nat) d d', ds[i]? = Option.some d → ds'[i]? = Option.some d' → Carried new d d') →
      Carried new (.seq ds) (.seq ds')
  | tuple {ds ds' : List Data} : ds'.length ≤ ds.length →
      (∀ (i : Nat) d d', ds[i]? = Option.some d → ds'[i]? = Option.some d' → Carried new d d') → Carried new (.tuple ds) (.tuple ds')
  | tupleStruct {ds ds' : List Data} : ds'.length ≤ ds.length →
      (∀ (i : Nat) d d', ds[i]? = Option.some d → ds'[i]? = Option.some d' → Carried new d d') → Carried new (.tupleStruct ds) (.tupleStruct ds')
  | map {es es' : List (Data × Data)} : es'.map Prod.fst = es.map Prod.fst →
      (∀ (i : Nat) e e', es[i]? = Option.some e → es'[i]? = Option.some e' → Carried new e.2 e'.2) → Carried new (.map es) (.map es')
  | struct {ds ds' : List (String × Data)} :
      (∀ name d d', (name, d) ∈ ds → (name, d') ∈ ds' → Carried new d d') →
      (∀ name d', (name, d') ∈ ds' → name ∉ ds.map Prod.fst → new d') → Carried new (.struct ds) (.struct ds')

/-- Where the type has a struct, the value has no key that is not one of its fields. -/
inductive OnlyKnown (structs : Nat → List (String × Ty)) : Ty → Value → Prop
  | leaf {t v} : t ∈ [Ty.bool, .f32, .f64, .char, .string, .unit, .unitStruct, .value] → OnlyKnown structs t v
  | int {t v} : OnlyKnown structs (.int t) v
  | option {t v} : OnlyKnown structs t v → OnlyKnown structs (.option t) v
  | newtype {t v} : OnlyKnown structs t v → OnlyKnown structs (.newtype t) v
  | seq {t v} : (∀ i x, child v (.idx i) = some x → OnlyKnown structs t x) → OnlyKnown structs (.seq t) v
  | tuple {ts : List Ty} {v} : (∀ (i : Nat) t x, ts[i]? = some t → child v (.idx i) = some x → OnlyKnown structs t x) → OnlyKnown structs (.tuple ts) v
  | tupleStruct {ts : List Ty} {v} : (∀ (i : Nat) t x, ts[i]? = some t → child v (.idx i) = some x → OnlyKnown structs t x) →
      OnlyKnown structs (.tupleStruct ts) v
  | map {kt t v} : (∀ k x, child v (.key k) = some x → OnlyKnown structs t x) → OnlyKnown structs (.map kt t) v
  | struct {fs : List (String × Ty)} {v} : (∀ k x, child v (.key k) = some x → k ∈ fs.map Prod.fst) →
      (∀ k x t, child v (.key k) = some x → (k, t) ∈ fs → OnlyKnown structs t x) → OnlyKnown structs (.struct fs) v
  | ref {n v} : OnlyKnown structs (.struct (structs n)) v → OnlyKnown structs (.ref n) v

end Verif.Spec
