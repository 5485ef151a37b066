import Verif.Spec.Serde
import Verif.Spec.Doc
/-!
# Which settings can be said at all

Which data of a Rust type some configuration gives, where `None` is at hand (memory layers, formats with a null) and where it is not (TOML).
-/
namespace Verif.Spec

/-- The value is nowhere `None`. -/
def NoNone (v : Value) : Prop := ∀ p, view v p ≠ some .none

/-- Data that is nothing: `None`, `()`, a unit struct, or a newtype around nothing. -/
inductive Nothing : Data → Prop
  | none : Nothing .none
  | unit : Nothing .unit
  | unitStruct : Nothing .unitStruct
  | newtype {d : Data} : Nothing d → Nothing (.newtypeStruct d)

/-- `nulls`: whether `None` can be written. The data of a type that a configuration can say: every boolean, float, character, text and integer of up to 64 bits; never a
128-bit integer, an enum or a byte buffer; no `Some` around nothing; nothing itself only where `None` can be written, or as an optional field of a struct, which is left out. -/
inductive Sayable (nulls : Bool) (structs : Nat → List (String × Ty)) : Ty → Data → Prop
  | bool (b) : Sayable nulls structs .bool (.bool b)
  | int {t} (n) : Upto64 t → Sayable nulls structs (.int t) (.int t n)
  | f32 (x) : Sayable nulls structs .f32 (.f32 x)
  | f64 (x) : Sayable nulls structs .f64 (.f64 x)
  | char (c) : Sayable nulls structs .char (.char c)
  | string (s) : Sayable nulls structs .string (.str s)
  | unit : nulls = true → Sayable nulls structs .unit .unit
  | unitStruct : nulls = true → Sayable nulls structs .unitStruct .unitStruct
  | value {v} : UniqueKeys v → (nulls = false → NoNone v) → Sayable nulls structs .value v.toData
  | none (t) : nulls = true → Sayable nulls structs (.option t) .none
  | some {t d} : Sayable nulls structs t d → ¬ Nothing d → Sayable nulls structs (.option t) (.some d)
  | newtype {t d} : Sayable nulls structs t d → Sayable nulls structs (.newtype t) (.newtypeStruct d)
  | seq {t ds} : (∀ d ∈ ds, Sayable nulls structs t d) → Sayable nulls structs (.seq t) (.seq ds)
  | tuple {ts ds} : ds.length = ts.length → (∀ (i : Nat) t d, ts[i]? = Option.some t → ds[i]? = Option.some d → Sayable nulls structs t d) →
      Sayable nulls structs (.tuple ts) (.tuple ds)
  | tupleStruct {ts ds} : ds.length = ts.length → (∀ (i : Nat) t d, ts[i]? = Option.some t → ds[i]? = Option.some d → Sayable nulls structs t d) →
      Sayable nulls structs (.tupleStruct ts) (.tupleStruct ds)
  | map {kt t} {es : List (Key × Data)} : (∀ e ∈ es, KeyHasType kt e.1 ∧ GoodKey kt) → (es.map Prod.fst).Nodup → (∀ e ∈ es, Sayable nulls structs t e.2) →
      Sayable nulls structs (.map kt t) (.map (es.map fun e => (e.1.toData, e.2)))
  | struct {fs ds} : ds.map Prod.fst = fs.map Prod.fst →
      (∀ (i : Nat) f d, fs[i]? = Option.some f → ds[i]? = Option.some d → ¬ (d.2 = .none ∧ ∃ t, f.2 = .option t) → Sayable nulls structs f.2 d.2) →
      Sayable nulls structs (.struct fs) (.struct ds)
  | ref {n d} : Sayable nulls structs (.struct (structs n)) d → Sayable nulls structs (.ref n) d

/-- Nothing is contained in the data. -/
def Flat : Data → Bool
  | .some _ | .newtypeStruct _ | .newtypeVariant _ _ | .seq _ | .tuple _ | .tupleStruct _ | .tupleVariant _ _ | .map _ | .struct _ | .structVariant _ _ => false
  | _ => true

/-- Structs, maps, lists and tuples are nested less than `n` deep, counting what is in the innermost. -/
inductive NestedBelow : Data → Nat → Prop
  | flat {d n} : Flat d = true → NestedBelow d (n + 1)
  | some {d n} : NestedBelow d n → NestedBelow (.some d) n
  | newtype {d n} : NestedBelow d n → NestedBelow (.newtypeStruct d) n
  | seq {ds n} : (∀ d ∈ ds, NestedBelow d n) → NestedBelow (.seq ds) (n + 1)
  | tuple {ds n} : (∀ d ∈ ds, NestedBelow d n) → NestedBelow (.tuple ds) (n + 1)
  | tupleStruct {ds n} : (∀ d ∈ ds, NestedBelow d n) → NestedBelow (.tupleStruct ds) (n + 1)
  | map {es n} : (∀ e ∈ es, NestedBelow (Prod.snd e) n) → NestedBelow (.map es) (n + 1)
  | struct {ds n} : (∀ d ∈ ds, NestedBelow (Prod.snd d) n) → NestedBelow (.struct ds) (n + 1)

/-- The document has a null (or unit) nowhere. -/
def NullFree (doc : Doc) : Prop := ∀ p x, At doc p x → x ≠ .none ∧ x ≠ .unit

/-- The format has no nulls, as TOML: no text is parsed to a document with one. -/
def NullFreeFormat (cd : Codec) : Prop := ∀ text doc, cd.parse text = .ok doc → NullFree doc

end Verif.Spec
