import Verif.Spec.Doc
import Verif.Spec.Serde
import Verif.Spec.Config
/-!
# What TOML can hold

The crate's only format that compiles is TOML, which has no null. What the format does to a value (from the documentation of the `toml` crate
and of TOML itself) is stated here as a property of a codec; nothing about its syntax is.
-/
namespace Verif.Spec

/-- Values that TOML can hold inside a document: booleans, floats, text, integers that fit 64 bits signed (never of the 128-bit kinds),
lists of such values, and tables whose entries are such values or `None`. There is no `None` in a list. -/
inductive TomlHolds : Value → Prop
  | boolean (b) : TomlHolds (.boolean b)
  | float (x) : TomlHolds (.float x)
  | string (s) : TomlHolds (.string s)
  | integer (n) : TomlHolds (.integer n)
  | uInteger {n} : n.1 ≤ 2 ^ 63 - 1 → TomlHolds (.uInteger n)
  | array {xs} : (∀ x ∈ xs, TomlHolds x) → TomlHolds (.array xs)
  | map {m} : (∀ e ∈ m, Prod.snd e ≠ .none → TomlHolds (Prod.snd e)) → TomlHolds (.map m)

/-- The path ends in a map entry that is `None`. -/
def NullEntry (v : Value) (p : Path) : Prop := (∃ q k, p = q ++ [.key k]) ∧ view v p = some .none

/-- `s` is `v` without the map entries that are `None`: they lead nowhere, and everything else is as in `v`. -/
def Omitting (v s : Value) : Prop := ∀ p, (NullEntry v p → view s p = none) ∧ (¬ NullEntry v p → view s p = view v p)

/-- A codec that behaves like TOML: it prints exactly the maps that TOML can hold, and what it printed for a value nested less deep than its
parser's limit (80 in the crate's TOML parser) it parses to a document that faithfully presents the map without its `None` entries. -/
structure TomlLike (limit : Nat) (c : Codec) : Prop where
  prints : ∀ v : Value, (∃ text, c.print v.toData = .ok text) ↔ v.isMap = true ∧ TomlHolds v
  parses : ∀ (v : Value) text, UniqueKeys v → DepthBelow v limit → c.print v.toData = .ok text →
    ∃ doc s, c.parse text = .ok doc ∧ Presents s doc ∧ Omitting v s ∧ UniqueKeys s

/-- The value `r` has what `v` has, up to the kind of integers, except the map entries that are `None`, which it lacks. -/
def AlikeOmitting (v r : Value) : Prop := ∀ p,
  (NullEntry v p → view r p = none) ∧
  (¬ NullEntry v p → (view v p = none ∧ view r p = none) ∨ ∃ h h', view v p = some h ∧ view r p = some h' ∧ HeadAlike h h')

/-- The value `r` has what `v` has, up to the kind of integers. Only map entries that are `None` may be missing from it, and only below a list. -/
def AlikeBelowLists (v r : Value) : Prop := ∀ p,
  (NullEntry v p → view r p = some .none ∨ (view r p = none ∧ ∃ i, Step.idx i ∈ p)) ∧
  (¬ NullEntry v p → (view v p = none ∧ view r p = none) ∨ ∃ h h', view v p = some h ∧ view r p = some h' ∧ HeadAlike h h')

/-- Following the path through maps one comes to a key that is missing or `None`. -/
def Unset (v : Value) (p : Path) : Prop := ∃ q k r, p = q ++ .key k :: r ∧
  (∀ q', q' <+: q → view v q' = some .map) ∧ (view v (q ++ [.key k]) = none ∨ view v (q ++ [.key k]) = some .none)

/-- Types of which no value is changed by leaving out `None` entries: what may be `None` is a field of type `Option` (or an element of a list),
never the value of a map. -/
inductive OmitsNone : Ty → Prop
  | leaf {t} : t ∈ [Ty.bool, .f32, .f64, .char, .string, .unit, .unitStruct] → OmitsNone t
  | int (t) : OmitsNone (.int t)
  | option {t} : OmitsNone t → OmitsNone (.option t)
  | newtype {t} : OmitsNone t → OmitsNone (.newtype t)
  | seq {t} : OmitsNone t → OmitsNone (.seq t)
  | tuple {ts} : (∀ t ∈ ts, OmitsNone t) → OmitsNone (.tuple ts)
  | tupleStruct {ts} : (∀ t ∈ ts, OmitsNone t) → OmitsNone (.tupleStruct ts)
  | map {kt t} : Nullable t = false → OmitsNone t → OmitsNone (.map kt t)
  | struct {fs} : (∀ f ∈ fs, Nullable (Prod.snd f) = false ∨ ∃ t, Prod.snd f = .option t) → (∀ f ∈ fs, OmitsNone (Prod.snd f)) → OmitsNone (.struct fs)
  | ref (n) : OmitsNone (.ref n)

/-- What the two formats do to the defaults: TOML behaves like TOML (and the defaults are not nested too deep for its parser), JSON reads back
faithfully what it prints. -/
structure FormatsFor (limit : Nat) (b : Build) (fm : Formats) (dv : Value) : Prop where
  toml : b.toml = true → TomlLike limit fm.toml ∧ DepthBelow dv limit
  json : b.json = true → ∀ text, fm.json.print dv.toData = .ok text → ∃ doc, fm.json.parse text = .ok doc ∧ Presents dv doc

end Verif.Spec
