import Verif.Model.Serde
import Verif.Spec.View
import Verif.Spec.Numbers
/-!
# Typed data, independently of how it is encoded

When a piece of data is a value of a type, when two pieces of data are the same Rust value, which data can be
serialized at all, and which types survive a round trip. Nothing here mentions `ser` or `de`.
-/
namespace Verif.Spec

/-! ## Looking inside data -/

/-- One step into data. -/
inductive DStep where
  | inner                -- the payload of `Some`, of a newtype struct or of a newtype variant
  | idx (i : Nat)        -- an element of a sequence, tuple, tuple struct or tuple variant
  | field (name : String)
  | key (k : Key)        -- the value under a key of a map

/-- What is visible of data without going inside. -/
inductive DHead where
  | bool (b : Bool)
  | int (t : IntTy) (n : IntOf t)
  | f32 (x : F32)
  | f64 (x : F64)
  | char (c : Char)
  | str (s : String)
  | bytes (bs : List (IntOf .u8))
  | none
  | some
  | unit
  | unitStruct
  | unitVariant (variant : String)
  | newtypeStruct
  | newtypeVariant (variant : String)
  | seq (len : Nat)
  | tuple (len : Nat)
  | tupleStruct (len : Nat)
  | tupleVariant (variant : String) (len : Nat)
  | map
  | struct (names : List String)
  | structVariant (variant : String) (names : List String)

/-- Kind and scalar content of data. -/
def dhead : Data → DHead
  | .bool b => .bool b
  | .int t n => .int t n
  | .f32 x => .f32 x
  | .f64 x => .f64 x
  | .char c => .char c
  | .str s => .str s
  | .bytes bs => .bytes bs
  | .none => .none
  | .some _ => .some
  | .unit => .unit
  | .unitStruct => .unitStruct
  | .unitVariant v => .unitVariant v
  | .newtypeStruct _ => .newtypeStruct
  | .newtypeVariant v _ => .newtypeVariant v
  | .seq ds => .seq ds.length
  | .tuple ds => .tuple ds.length
  | .tupleStruct ds => .tupleStruct ds.length
  | .tupleVariant v ds => .tupleVariant v ds.length
  | .map _ => .map
  | .struct fs => .struct (fs.map Prod.fst)
  | .structVariant v fs => .structVariant v (fs.map Prod.fst)

/-- The key that a piece of data is, if it is one. -/
def keyOf : Data → Option Key
  | .bool b => some (.bool b)
  | .int t n => some (.int t n)
  | .char c => some (.char c)
  | .str s => some (.str s)
  | _ => none

/-- One step into data. -/
def dchild (d : Data) : DStep → Option Data
  | .inner => match d with
    | .some x => some x
    | .newtypeStruct x => some x
    | .newtypeVariant _ x => some x
    | _ => none
  | .idx i => match d with
    | .seq ds => ds[i]?
    | .tuple ds => ds[i]?
    | .tupleStruct ds => ds[i]?
    | .tupleVariant _ ds => ds[i]?
    | _ => none
  | .field name => match d with
    | .struct fs => (fs.find? (fun f => f.1 == name)).map Prod.snd
    | .structVariant _ fs => (fs.find? (fun f => f.1 == name)).map Prod.snd
    | _ => none
  | .key k => match d with
    | .map es => (es.find? (fun e => keyOf e.1 == some k)).map Prod.snd
    | _ => none

/-- What is visible at a path into data. -/
def dview (d : Data) : List DStep → Option DHead
  | [] => some (dhead d)
  | s :: p => (dchild d s).bind (fun x => dview x p)

/-- The same Rust value (maps may be stored in different orders). -/
def DSame (a b : Data) : Prop := ∀ p, dview a p = dview b p

/-- A 128-bit integer sits somewhere inside. -/
def Has128 (d : Data) : Prop :=
  ∃ p, (∃ n, dview d p = some (.int .i128 n)) ∨ (∃ n, dview d p = some (.int .u128 n))

/-- A 128-bit integer sits somewhere inside a value. -/
def Holds128 (v : Value) : Prop :=
  ∃ p, (∃ n, view v p = some (.longInteger n)) ∨ (∃ n, view v p = some (.uLongInteger n))

/-! ## Data of a type -/

/-- `k` is a key of the key type. -/
def KeyHasType : KeyTy → Key → Prop
  | .bool, k => ∃ b, k = .bool b
  | .int t, k => ∃ n, k = .int t n
  | .char, k => ∃ c, k = .char c
  | .string, k => ∃ s, k = .str s

/-- The text of a key: `true`/`false`, decimal digits with a minus sign if negative, the character, the text. -/
def keyText : Key → String
  | .bool b => if b then "true" else "false"
  | .int _ n => toString n.1
  | .char c => String.singleton c
  | .str s => s

/-- `d` is (the serde data of) a value of the Rust type. `structs` gives the fields of the structs named by
`ref`. -/
inductive HasType (structs : Nat → List (String × Ty)) : Ty → Data → Prop
  | bool (b) : HasType structs .bool (.bool b)
  | int (t n) : HasType structs (.int t) (.int t n)
  | f32 (x) : HasType structs .f32 (.f32 x)
  | f64 (x) : HasType structs .f64 (.f64 x)
  | char (c) : HasType structs .char (.char c)
  | string (s) : HasType structs .string (.str s)
  | unit : HasType structs .unit .unit
  | unitStruct : HasType structs .unitStruct .unitStruct
  | bytes (bs) : HasType structs .bytes (.bytes bs)
  | value (v) : UniqueKeys v → HasType structs .value v.toData
  | none (t) : HasType structs (.option t) .none
  | some {t d} : HasType structs t d → HasType structs (.option t) (.some d)
  | newtype {t d} : HasType structs t d → HasType structs (.newtype t) (.newtypeStruct d)
  | seq {t ds} : (∀ d ∈ ds, HasType structs t d) → HasType structs (.seq t) (.seq ds)
  | tuple {ts ds} : ds.length = ts.length →
      (∀ (i : Nat) t d, ts[i]? = Option.some t → ds[i]? = Option.some d → HasType structs t d) →
      HasType structs (.tuple ts) (.tuple ds)
  | tupleStruct {ts ds} : ds.length = ts.length →
      (∀ (i : Nat) t d, ts[i]? = Option.some t → ds[i]? = Option.some d → HasType structs t d) →
      HasType structs (.tupleStruct ts) (.tupleStruct ds)
  | map {kt t} {es : List (Key × Data)} : (∀ e ∈ es, KeyHasType kt e.1) → (es.map Prod.fst).Nodup →
      (∀ e ∈ es, HasType structs t e.2) →
      HasType structs (.map kt t) (.map (es.map fun e => (e.1.toData, e.2)))
  | struct {fs ds} : ds.map Prod.fst = fs.map Prod.fst →
      (∀ (i : Nat) f d, fs[i]? = Option.some f → ds[i]? = Option.some d → HasType structs f.2 d.2) →
      HasType structs (.struct fs) (.struct ds)
  | ref {n d} : HasType structs (.struct (structs n)) d → HasType structs (.ref n) d

/-! ## Types that survive a round trip -/

/-- Values of the type may turn into `Value::None`. -/
def Nullable : Ty → Bool
  | .unit | .unitStruct | .value | .option _ => true
  | .newtype t => Nullable t
  | _ => false

/-- Not one of the two types serde support lacks. -/
def Upto64 (t : IntTy) : Prop := t ≠ .i128 ∧ t ≠ .u128

/-- A key type whose keys survive. -/
def GoodKey : KeyTy → Prop
  | .int t => Upto64 t
  | _ => True

/-- The type survives a round trip: no enum, byte buffer or 128-bit integer inside, no `Option` around a type
that itself may become `None`, field names pairwise distinct (which Rust enforces). -/
inductive Survives : Ty → Prop
  | bool : Survives .bool
  | int {t} : Upto64 t → Survives (.int t)
  | f32 : Survives .f32
  | f64 : Survives .f64
  | char : Survives .char
  | string : Survives .string
  | unit : Survives .unit
  | unitStruct : Survives .unitStruct
  | value : Survives .value
  | option {t} : Survives t → Nullable t = false → Survives (.option t)
  | newtype {t} : Survives t → Survives (.newtype t)
  | seq {t} : Survives t → Survives (.seq t)
  | tuple {ts} : (∀ t ∈ ts, Survives t) → Survives (.tuple ts)
  | tupleStruct {ts} : (∀ t ∈ ts, Survives t) → Survives (.tupleStruct ts)
  | map {kt t} : GoodKey kt → Survives t → Survives (.map kt t)
  | struct {fs} : (fs.map Prod.fst).Nodup → (∀ f ∈ fs, Survives f.2) → Survives (.struct fs)
  | ref (n) : Survives (.ref n)

/-- The type mentions no enum and no byte buffer (struct names aside). -/
inductive NoEnumNoBytes : Ty → Prop
  | bool : NoEnumNoBytes .bool
  | int (t) : NoEnumNoBytes (.int t)
  | f32 : NoEnumNoBytes .f32
  | f64 : NoEnumNoBytes .f64
  | char : NoEnumNoBytes .char
  | string : NoEnumNoBytes .string
  | unit : NoEnumNoBytes .unit
  | unitStruct : NoEnumNoBytes .unitStruct
  | value : NoEnumNoBytes .value
  | option {t} : NoEnumNoBytes t → NoEnumNoBytes (.option t)
  | newtype {t} : NoEnumNoBytes t → NoEnumNoBytes (.newtype t)
  | seq {t} : NoEnumNoBytes t → NoEnumNoBytes (.seq t)
  | tuple {ts} : (∀ t ∈ ts, NoEnumNoBytes t) → NoEnumNoBytes (.tuple ts)
  | tupleStruct {ts} : (∀ t ∈ ts, NoEnumNoBytes t) → NoEnumNoBytes (.tupleStruct ts)
  | map {kt t} : NoEnumNoBytes t → NoEnumNoBytes (.map kt t)
  | struct {fs} : (∀ f ∈ fs, NoEnumNoBytes f.2) → NoEnumNoBytes (.struct fs)
  | ref (n) : NoEnumNoBytes (.ref n)

/-- The structs inside the type have pairwise distinct field names (which Rust enforces). -/
inductive WellFormed : Ty → Prop
  | bool : WellFormed .bool
  | int (t) : WellFormed (.int t)
  | f32 : WellFormed .f32
  | f64 : WellFormed .f64
  | char : WellFormed .char
  | string : WellFormed .string
  | unit : WellFormed .unit
  | unitStruct : WellFormed .unitStruct
  | value : WellFormed .value
  | bytes : WellFormed .bytes
  | enum : WellFormed .enum
  | option {t} : WellFormed t → WellFormed (.option t)
  | newtype {t} : WellFormed t → WellFormed (.newtype t)
  | seq {t} : WellFormed t → WellFormed (.seq t)
  | tuple {ts} : (∀ t ∈ ts, WellFormed t) → WellFormed (.tuple ts)
  | tupleStruct {ts} : (∀ t ∈ ts, WellFormed t) → WellFormed (.tupleStruct ts)
  | map {kt t} : WellFormed t → WellFormed (.map kt t)
  | struct {fs} : (fs.map Prod.fst).Nodup → (∀ f ∈ fs, WellFormed f.2) → WellFormed (.struct fs)
  | ref (n) : WellFormed (.ref n)

/-- Every chain of accesses into the value has fewer than `k` steps: the nesting depth is below `k`. -/
def DepthBelow (v : Value) (k : Nat) : Prop := ∀ p, view v p ≠ none → p.length < k

/-! ## Serializable data -/

/-- Data that can be a map key: a scalar (possibly wrapped in `Some` or a newtype). -/
inductive KeyLike : Data → Prop
  | bool (b) : KeyLike (.bool b)
  | int (t n) : KeyLike (.int t n)
  | f32 (x) : KeyLike (.f32 x)
  | f64 (x) : KeyLike (.f64 x)
  | char (c) : KeyLike (.char c)
  | str (s) : KeyLike (.str s)
  | unitVariant (v) : KeyLike (.unitVariant v)
  | some {d} : KeyLike d → KeyLike (.some d)
  | newtypeStruct {d} : KeyLike d → KeyLike (.newtypeStruct d)

/-- Data without 128-bit integers and with scalars as map keys. -/
inductive Serializable : Data → Prop
  | bool (b) : Serializable (.bool b)
  | int {t} (n) : Upto64 t → Serializable (.int t n)
  | f32 (x) : Serializable (.f32 x)
  | f64 (x) : Serializable (.f64 x)
  | char (c) : Serializable (.char c)
  | str (s) : Serializable (.str s)
  | bytes (bs) : Serializable (.bytes bs)
  | none : Serializable .none
  | some {d} : Serializable d → Serializable (.some d)
  | unit : Serializable .unit
  | unitStruct : Serializable .unitStruct
  | unitVariant (v) : Serializable (.unitVariant v)
  | newtypeStruct {d} : Serializable d → Serializable (.newtypeStruct d)
  | newtypeVariant (v) {d} : Serializable d → Serializable (.newtypeVariant v d)
  | seq {ds} : (∀ d ∈ ds, Serializable d) → Serializable (.seq ds)
  | tuple {ds} : (∀ d ∈ ds, Serializable d) → Serializable (.tuple ds)
  | tupleStruct {ds} : (∀ d ∈ ds, Serializable d) → Serializable (.tupleStruct ds)
  | tupleVariant (v) {ds} : (∀ d ∈ ds, Serializable d) → Serializable (.tupleVariant v ds)
  | map {es} : (∀ e ∈ es, KeyLike (Prod.fst e)) → (∀ e ∈ es, Serializable e.1) → (∀ e ∈ es, Serializable e.2) →
      Serializable (.map es)
  | struct {fs} : (∀ f ∈ fs, Serializable (Prod.snd f)) → Serializable (.struct fs)
  | structVariant (v) {fs} : (∀ f ∈ fs, Serializable (Prod.snd f)) → Serializable (.structVariant v fs)

/-! ## Clashing keys -/

/-- Every map type inside has string keys. -/
inductive StringKeyed : Ty → Prop
  | leaf {t} : (∀ k u, t ≠ .map k u) → (∀ u, t ≠ .option u) → (∀ u, t ≠ .newtype u) → (∀ u, t ≠ .seq u) →
      (∀ us, t ≠ .tuple us) → (∀ us, t ≠ .tupleStruct us) → (∀ fs, t ≠ .struct fs) → StringKeyed t
  | option {t} : StringKeyed t → StringKeyed (.option t)
  | newtype {t} : StringKeyed t → StringKeyed (.newtype t)
  | seq {t} : StringKeyed t → StringKeyed (.seq t)
  | tuple {ts} : (∀ t ∈ ts, StringKeyed t) → StringKeyed (.tuple ts)
  | tupleStruct {ts} : (∀ t ∈ ts, StringKeyed t) → StringKeyed (.tupleStruct ts)
  | map {t} : StringKeyed t → StringKeyed (.map .string t)
  | struct {fs} : (∀ f ∈ fs, StringKeyed (Prod.snd f)) → StringKeyed (.struct fs)

/-- Two texts that denote the same key of a key type. -/
def SameKey : KeyTy → String → String → Prop
  | .bool, a, b => (EqIgnoreAsciiCase a "true" ∧ EqIgnoreAsciiCase b "true") ∨
      (EqIgnoreAsciiCase a "false" ∧ EqIgnoreAsciiCase b "false")
  | .int t, a, b => ∃ n, Spells t a n ∧ Spells t b n
  | .char, a, b => ∃ c, a.toList.head? = some c ∧ b.toList.head? = some c
  | .string, a, b => a = b

/-- Read as the type, the value has, somewhere inside, a map with two different texts for one key. -/
inductive KeyClash (structs : Nat → List (String × Ty)) : Ty → Value → Prop
  | here {kt t v a b} : a ≠ b → SameKey kt a b → child v (.key a) ≠ none → child v (.key b) ≠ none →
      KeyClash structs (.map kt t) v
  | entry {kt t v k x} : child v (.key k) = some x → KeyClash structs t x → KeyClash structs (.map kt t) v
  | option {t v} : KeyClash structs t v → KeyClash structs (.option t) v
  | newtype {t v} : KeyClash structs t v → KeyClash structs (.newtype t) v
  | seq {t v i x} : child v (.idx i) = some x → KeyClash structs t x → KeyClash structs (.seq t) v
  | tuple {ts v i t x} : ts[i]? = some t → child v (.idx i) = some x → KeyClash structs t x →
      KeyClash structs (.tuple ts) v
  | tupleStruct {ts v i t x} : ts[i]? = some t → child v (.idx i) = some x → KeyClash structs t x →
      KeyClash structs (.tupleStruct ts) v
  | struct {fs v name t x} : (name, t) ∈ fs → child v (.key name) = some x → KeyClash structs t x →
      KeyClash structs (.struct fs) v
  | ref {n v} : KeyClash structs (.struct (structs n)) v → KeyClash structs (.ref n) v

end Verif.Spec
