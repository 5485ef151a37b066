import Verif.Model.Value
/-!
# What a caller can see of a value

`view v p` is what is visible in `v` at path `p` (a chain of `.get(key)` / `.at(index)` accesses): a scalar, or
"an array of n elements", or "a map"; `none` if the path leads nowhere. It does not depend on the order in
which maps are stored.
-/
namespace Verif.Spec

/-- One access step. -/
inductive Step where
  | key (k : String)
  | idx (i : Nat)
  deriving DecidableEq, Repr

/-- A chain of accesses. -/
abbrev Path := List Step

/-- What is visible at the end of a path. -/
inductive Head where
  | none
  | boolean (b : Bool)
  | integer (n : IntOf .i64)
  | longInteger (n : IntOf .i128)
  | uInteger (n : IntOf .u64)
  | uLongInteger (n : IntOf .u128)
  | float (x : F64)
  | string (s : String)
  | array (len : Nat)
  | map
  deriving DecidableEq

/-- Top-level kind and scalar content. -/
def head : Value → Head
  | .none => .none
  | .boolean b => .boolean b
  | .integer n => .integer n
  | .longInteger n => .longInteger n
  | .uInteger n => .uInteger n
  | .uLongInteger n => .uLongInteger n
  | .float x => .float x
  | .string s => .string s
  | .array xs => .array xs.length
  | .map _ => .map

/-- One access step: the element or entry, if there is one. -/
def child (v : Value) : Step → Option Value
  | .key k => match v with
    | .map m => (m.find? (fun e => e.1 == k)).map Prod.snd
    | _ => none
  | .idx i => match v with
    | .array xs => xs[i]?
    | _ => none

/-- What is visible at a path. -/
def view (v : Value) : Path → Option Head
  | [] => some (head v)
  | s :: p => (child v s).bind (fun w => view w p)

/-- Two values that no chain of accesses can tell apart (maps may be stored in different orders). -/
def Same (a b : Value) : Prop := ∀ p, view a p = view b p

mutual
/-- No map inside the value holds two entries for one key (what Rust's `HashMap` guarantees). -/
def UniqueKeys : Value → Prop
  | .array xs => UniqueKeysList xs
  | .map m => (m.map Prod.fst).Nodup ∧ UniqueKeysMap m
  | _ => True
/-- `UniqueKeys` for every element. -/
def UniqueKeysList : List Value → Prop
  | [] => True
  | v :: r => UniqueKeys v ∧ UniqueKeysList r
/-- `UniqueKeys` for every entry's value. -/
def UniqueKeysMap : List (String × Value) → Prop
  | [] => True
  | e :: r => UniqueKeysEntry e ∧ UniqueKeysMap r
/-- `UniqueKeys` for an entry's value. -/
def UniqueKeysEntry : String × Value → Prop
  | (_, v) => UniqueKeys v
end

end Verif.Spec
