import Verif.Model.Visitor
import Verif.Spec.Config
/-!
# Which call a visitor gets
-/
namespace Verif.Spec

/-- One call of a visitor method, with its argument. -/
inductive Call where
  | bool (b : Bool)
  | int (t : IntTy) (n : IntOf t)
  | f32 (x : F32)
  | f64 (x : F64)
  | char (c : Char)
  | str (s : String)
  | string (s : String)
  | unit
  | none
  | some (v : Value)
  | newtype (v : Value)
  | seq (xs : List Value)
  | map (m : List (String × Value))

/-- What the visitor returns for it. -/
def reply {α : Type} (vis : Visitor α) : Call → Outcome ModelError α
  | .bool b => vis.bool b
  | .int t n => vis.int t n
  | .f32 x => vis.f32 x
  | .f64 x => vis.f64 x
  | .char c => vis.char c
  | .str s => vis.str s
  | .string s => vis.string s
  | .unit => vis.unit
  | .none => vis.none
  | .some v => vis.some v
  | .newtype v => vis.newtype v
  | .seq xs => vis.seq xs
  | .map m => vis.map m

/-- The method calls the visitor just like this, and returns what the visitor does, whatever the visitor. -/
def Calls (m : Method) (v : Value) (c : Call) : Prop := ∀ (α : Type) (vis : Visitor α), m.on vis v = reply vis c

/-- The method fails like this without asking the visitor. -/
def Rejects (m : Method) (v : Value) (e : ModelError) : Prop := ∀ (α : Type) (vis : Visitor α), m.on vis v = .err e

/-- The method panics without asking the visitor. -/
def Panics (m : Method) (v : Value) : Prop := ∀ (α : Type) (vis : Visitor α), m.on vis v = .panic

/-- The visitor is shown the value as it is. -/
inductive Shown : Value → Call → Prop
  | none : Shown .none .unit
  | bool (b) : Shown (.boolean b) (.bool b)
  | i64 (n) : Shown (.integer n) (.int .i64 n)
  | i128 (n) : Shown (.longInteger n) (.int .i128 n)
  | u64 (n) : Shown (.uInteger n) (.int .u64 n)
  | u128 (n) : Shown (.uLongInteger n) (.int .u128 n)
  | f64 (x) : Shown (.float x) (.f64 x)
  | str (s) : Shown (.string s) (.str s)
  | seq (xs) : Shown (.array xs) (.seq xs)
  | map (m) : Shown (.map m) (.map m)

/-- Methods that convert the value, as `try_into` does, before showing it. -/
inductive Converts : Method → (s : Scalar) → (s.T → Call) → Prop
  | bool : Converts .bool .bool .bool
  | int (t) (h : t ≠ .i128 ∧ t ≠ .u128) : Converts (.int t) (.int t) (.int t)
  | f32 : Converts .f32 .f64 (fun x => .f32 (F32.ofF64 x))
  | f64 : Converts .f64 .f64 .f64
  | char : Converts .char .char .char
  | str : Converts .str .string .str
  | string : Converts .string .string .string
  | identifier : Converts .identifier .string .str

/-- Methods that are not implemented. -/
inductive Unimplemented : Method → Prop
  | bytes : Unimplemented .bytes
  | byteBuf : Unimplemented .byteBuf
  | enum (name vs) : Unimplemented (.enum name vs)

/-- Methods that want a list. -/
inductive WantsList : Method → Prop
  | seq : WantsList .seq
  | tuple (n) : WantsList (.tuple n)
  | tupleStruct (name n) : WantsList (.tupleStruct name n)

/-- Methods that want a map. -/
inductive WantsMap : Method → Prop
  | map : WantsMap .map
  | struct (name fs) : WantsMap (.struct name fs)

/-- Methods that want nothing. -/
inductive WantsNone : Method → Prop
  | unit : WantsNone .unit
  | unitStruct (name) : WantsNone (.unitStruct name)

end Verif.Spec
