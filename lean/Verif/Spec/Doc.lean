import Verif.Model.Doc
import Verif.Spec.Numbers
import Verif.Spec.View
import Mathlib.Data.List.Perm.Basic
/-!
# Documents of a foreign format, independently of the visitor

When a parsed document is a configuration value, what it shows at a path, and when a document is a faithful
presentation of a value (integers may come back with another width, maps in another order).
-/
namespace Verif.Spec

/-- The key is this text: text itself, one character, or its UTF-8 bytes. -/
inductive KeyText : Doc → String → Prop
  | str (s : String) : KeyText (.str s) s
  | char (c : Char) : KeyText (.char c) (String.singleton c)
  | bytes (s : String) : KeyText (.bytes s.toByteArray.data.toList) s

/-- Documents made of scalars, lists and maps with text keys: no byte strings, newtypes or enums as values. -/
inductive Accepted : Doc → Prop
  | bool (b) : Accepted (.bool b)
  | int (t n) : Accepted (.int t n)
  | f32 (x) : Accepted (.f32 x)
  | f64 (x) : Accepted (.f64 x)
  | char (c) : Accepted (.char c)
  | str (s) : Accepted (.str s)
  | none : Accepted .none
  | unit : Accepted .unit
  | some {d} : Accepted d → Accepted (.some d)
  | seq {ds} : (∀ d ∈ ds, Accepted d) → Accepted (.seq ds)
  | map {es} : (∀ e ∈ es, ∃ s, KeyText (Prod.fst e) s) → (∀ e ∈ es, Accepted (Prod.snd e)) → Accepted (.map es)

/-- `At d p x`: at path `p` the document `d` has `x`. An optional value is its content; if a map has several entries for
one key, the last one counts. -/
inductive At : Doc → Path → Doc → Prop
  | here (d) : At d [] d
  | some {d p x} : At d p x → At (.some d) p x
  | idx {ds i d p x} : ds[i]? = some d → At d p x → At (.seq ds) (.idx i :: p) x
  | key {before k' d after k p x} : KeyText k' k → (∀ e ∈ after, ¬ KeyText (Prod.fst e) k) → At d p x →
      At (.map (before ++ (k', d) :: after)) (.key k :: p) x

/-- The same float in two formats: same NaN-ness, same infinity, or same sign and same number. -/
def SameFloat (x y : FpRaw) : Prop :=
  (x = .nan ∧ y = .nan) ∨ (∃ s, x = .inf s ∧ y = .inf s) ∨
  ∃ s m e m' e', x = .fin s m e ∧ y = .fin s m' e' ∧ ratOf x = ratOf y

/-- What a value must show for this document: integers keep their number and signedness, 128-bit ones are the long
kinds, both float widths are floats of the same number, a character is a one-character string. -/
inductive Shows : Doc → Head → Prop
  | none : Shows .none .none
  | unit : Shows .unit .none
  | bool (b) : Shows (.bool b) (.boolean b)
  | signed {t n m} : isSigned t = true → width t ≤ 64 → m.1 = n.1 → Shows (.int t n) (.integer m)
  | unsigned {t n m} : isSigned t = false → width t ≤ 64 → m.1 = n.1 → Shows (.int t n) (.uInteger m)
  | i128 (n) : Shows (.int .i128 n) (.longInteger n)
  | u128 (n) : Shows (.int .u128 n) (.uLongInteger n)
  | f32 {x y} : SameFloat x.1 y.1 → Shows (.f32 x) (.float y)
  | f64 (x) : Shows (.f64 x) (.float x)
  | char (c) : Shows (.char c) (.string (String.singleton c))
  | str (s) : Shows (.str s) (.string s)
  | seq (ds) : Shows (.seq ds) (.array ds.length)
  | map (es) : Shows (.map es) .map

/-- The number shown, if an integer of any kind is shown. -/
def numberOf : Head → Option Int
  | .integer n => some n.1
  | .longInteger n => some n.1
  | .uInteger n => some n.1
  | .uLongInteger n => some n.1
  | _ => none

/-- Equal, or integers with the same number. -/
def HeadAlike (h h' : Head) : Prop := h = h' ∨ ∃ n, numberOf h = some n ∧ numberOf h' = some n

/-- The values have the same paths and show the same there, up to the kind of integers. -/
def Alike (a b : Value) : Prop := ∀ p,
  (view a p = none ∧ view b p = none) ∨ ∃ h h', view a p = some h ∧ view b p = some h' ∧ HeadAlike h h'

/-- The document is a faithful presentation of the value: what a text format may make of the text it printed for it.
Integers may come back in any width that has the number, maps in any order, `None` as null or unit; optional values are
transparent. -/
inductive Presents : Value → Doc → Prop
  | none : Presents .none .none
  | unit : Presents .none .unit
  | bool (b) : Presents (.boolean b) (.bool b)
  | int {v n src t m} : integerOf v = some (n, src) → m.1 = n → Presents v (.int t m)
  | f32 {x y} : SameFloat y.1 x.1 → Presents (.float x) (.f32 y)
  | f64 (x) : Presents (.float x) (.f64 x)
  | char (c) : Presents (.string (String.singleton c)) (.char c)
  | str (s) : Presents (.string s) (.str s)
  | some {v d} : Presents v d → Presents v (.some d)
  | array {xs ds} : ds.length = xs.length → (∀ (i : Nat) x d, xs[i]? = some x → ds[i]? = some d → Presents x d) →
      Presents (.array xs) (.seq ds)
  | map {m es} (m' : Entries) : m'.Perm m → es.length = m'.length →
      (∀ (i : Nat) k x k' d, m'[i]? = some (k, x) → es[i]? = some (k', d) → KeyText k' k) →
      (∀ (i : Nat) k x k' d, m'[i]? = some (k, x) → es[i]? = some (k', d) → Presents x d) →
      Presents (.map m) (.map es)

/-- Types with no `Value` inside: every scalar has a concrete Rust type. -/
inductive Concrete : Ty → Prop
  | leaf {t} : t ∈ [Ty.bool, .f32, .f64, .char, .string, .unit, .unitStruct, .bytes, .enum] → Concrete t
  | int (t) : Concrete (.int t)
  | option {t} : Concrete t → Concrete (.option t)
  | newtype {t} : Concrete t → Concrete (.newtype t)
  | seq {t} : Concrete t → Concrete (.seq t)
  | tuple {ts} : (∀ t ∈ ts, Concrete t) → Concrete (.tuple ts)
  | tupleStruct {ts} : (∀ t ∈ ts, Concrete t) → Concrete (.tupleStruct ts)
  | map {kt t} : Concrete t → Concrete (.map kt t)
  | struct {fs} : (∀ f ∈ fs, Concrete (Prod.snd f)) → Concrete (.struct fs)
  | ref (n) : Concrete (.ref n)

end Verif.Spec
