import Verif.Model.Prelude
import Verif.Model.FloatOps
/-!
# `Value` and its basic API

Models /repo/src/model/value.rs, new.rs, iter.rs.

A `HashMap<String, Value>` is an association list without repeated keys; the list order stands for the
(arbitrary) iteration order of the HashMap. Theorems quantify over all lists, i.e. over all iteration orders.
-/
namespace Verif

/-- /repo/src/model/value.rs:6-18 `enum Value`. -/
inductive Value where
  | none
  | boolean (b : Bool)
  | integer (n : IntOf .i64)
  | longInteger (n : IntOf .i128)
  | uInteger (n : IntOf .u64)
  | uLongInteger (n : IntOf .u128)
  | float (x : F64)
  | string (s : String)
  | array (xs : List Value)
  | map (m : List (String × Value))
  deriving Repr

/-- Contents of a `HashMap<String, Value>` in iteration order. Needed for /repo/src/model/value.rs:17. -/
abbrev Entries := List (String × Value)

/-- `HashMap::get` (std), used at /repo/src/model/value.rs:58, /repo/src/model/merge.rs:8. -/
def hmGet {α : Type} : List (String × α) → String → Option α
  | [], _ => none
  | (k', v) :: r, k => if k' = k then some v else hmGet r k

/-- `HashMap::insert` (std), used at /repo/src/model/value.rs:69, /repo/src/model/merge.rs:13,17: replaces the
value of an existing key, adds a new entry otherwise. (Where a new entry lands in the iteration order is
arbitrary in Rust; here it is last. Every theorem is insensitive to it.) -/
def hmInsert {α : Type} : List (String × α) → String → α → List (String × α)
  | [], k, v => [(k, v)]
  | (k', v') :: r, k, v => if k' = k then (k', v) :: r else (k', v') :: hmInsert r k v

/-- `HashMap` built by inserting pairs one after the other (`collect`, insertion loops). Needed for /repo/src/model/from.rs:113-162. -/
def hmOfList {α : Type} (l : List (String × α)) : List (String × α) :=
  l.foldl (fun m e => hmInsert m e.1 e.2) []

namespace Value

/-- /repo/src/model/from.rs:5-9 `Default for Value`; /repo/src/model/new.rs:6-8 `Value::new`. -/
def new : Value := .none

/-- /repo/src/model/new.rs:10-12 `Value::new_map`. -/
def newMap : Value := .map []

/-- /repo/src/model/new.rs:14-16 `Value::new_array`. -/
def newArray : Value := .array []

/-- /repo/src/model/new.rs:18-20 `Value::with_array_capacity` (capacity is not observable). -/
def withArrayCapacity (_size : Nat) : Value := .array []

/-- /repo/src/model/value.rs:56-64 `Value::get`. -/
def get (v : Value) (key : String) : Value :=
  match v with
  | .map m => match hmGet m key with
    | some value => value
    | Option.none => .none
  | _ => .none

/-- /repo/src/model/value.rs:66-74 `Value::set`: the error, if any, and the value after the call. -/
def set (v : Value) (key : String) (value : Value) : Except ModelError Unit × Value :=
  match v with
  | .map m => (.ok (), .map (hmInsert m key value))
  | other => (.error .operationOnlyForMapValue, other)

/-- /repo/src/model/value.rs:76-84 `Value::at`. -/
def at' (v : Value) (index : Nat) : Value :=
  match v with
  | .array xs => match xs[index]? with
    | some value => value
    | Option.none => .none
  | _ => .none

/-- /repo/src/model/value.rs:86-94 `Value::push`: the error, if any, and the value after the call. -/
def push (v : Value) (value : Value) : Except ModelError Unit × Value :=
  match v with
  | .array xs => (.ok (), .array (xs ++ [value]))
  | other => (.error .operationOnlyForArrayValue, other)

/-- /repo/src/model/value.rs:96-103 `Value::len` (a string's length is in UTF-8 bytes). -/
def len : Value → Nat
  | .array xs => xs.length
  | .map m => m.length
  | .string s => s.utf8ByteSize
  | _ => 0

/-- /repo/src/model/value.rs:105-107 `Value::is_map`. -/
def isMap : Value → Bool
  | .map _ => true
  | _ => false

/-- /repo/src/model/value.rs:109-111 `Value::is_array`. -/
def isArray : Value → Bool
  | .array _ => true
  | _ => false

/-- /repo/src/model/value.rs:113-115 `Value::is_none`. -/
def isNone : Value → Bool
  | .none => true
  | _ => false

end Value

/-- /repo/src/model/iter.rs:3-6 `struct ValueIter`. `index` is a `usize` in Rust; it would need 2^64 calls of
`next` to overflow, which is not modelled. -/
structure ValueIter where
  value : Value
  index : Nat

/-- /repo/src/model/value.rs:117-119 `Value::iter`, /repo/src/model/iter.rs:9-11 `ValueIter::new`. -/
def Value.iter (v : Value) : ValueIter := ⟨v, 0⟩

/-- /repo/src/model/iter.rs:17-26 `ValueIter::next`: the item, and the iterator afterwards. -/
def ValueIter.next (it : ValueIter) : Option Value × ValueIter :=
  match it.value with
  | .array xs => (xs[it.index]?, { it with index := it.index + 1 })
  | _ => (none, it)

/-- Calling `next` `n` times, collecting the answers. Needed for /repo/src/model/iter.rs:14-27. -/
def ValueIter.take : Nat → ValueIter → List (Option Value)
  | 0, _ => []
  | n + 1, it => it.next.1 :: take n it.next.2

/-- `Result::unwrap` after `set`/`push` in the macros: `none` is a panic. Needed for /repo/src/model/new.rs:29,42. -/
def unwrapUnit : Except ModelError Unit × Value → Option Value
  | (.ok (), v) => some v
  | (.error _, _) => none

/-- /repo/src/model/new.rs:24-34 `value_map!`: the arguments are the keys (as `stringify!`-ed identifiers) with
the already converted values; `none` is a panic of one of the `unwrap`s. -/
def valueMapMacro (args : List (String × Value)) : Option Value :=
  args.foldl (fun acc kv => acc.bind fun m => unwrapUnit (m.set kv.1 kv.2)) (some Value.newMap)

/-- /repo/src/model/new.rs:37-47 `value_vec!`; `none` is a panic of one of the `unwrap`s. -/
def valueVecMacro (args : List Value) : Option Value :=
  args.foldl (fun acc x => acc.bind fun a => unwrapUnit (a.push x)) (some Value.newArray)

/-! ## Equality -/

mutual
/-- /repo/src/model/value.rs:6 `derive(PartialEq)`, with the comparison of floats as a parameter (Rust uses IEEE
`==`, i.e. `FpRaw.ieeeEq`). Maps: std `HashMap: PartialEq` (same length, and every entry of the left map is
found, equal, in the right map). -/
def Value.eqBy (feq : F64 → F64 → Bool) (a b : Value) : Bool :=
  match a with
  | .none => match b with | .none => true | _ => false
  | .boolean x => match b with | .boolean y => x == y | _ => false
  | .integer x => match b with | .integer y => decide (x = y) | _ => false
  | .longInteger x => match b with | .longInteger y => decide (x = y) | _ => false
  | .uInteger x => match b with | .uInteger y => decide (x = y) | _ => false
  | .uLongInteger x => match b with | .uLongInteger y => decide (x = y) | _ => false
  | .float x => match b with | .float y => feq x y | _ => false
  | .string x => match b with | .string y => decide (x = y) | _ => false
  | .array xs => match b with | .array ys => eqListBy feq xs ys | _ => false
  | .map m => match b with | .map n => m.length == n.length && eqMapBy feq m n | _ => false
  termination_by structural a
/-- std `Vec: PartialEq`. Needed for /repo/src/model/value.rs:6 (derived `PartialEq`). -/
def eqListBy (feq : F64 → F64 → Bool) (xs ys : List Value) : Bool :=
  match xs with
  | [] => match ys with | [] => true | _ => false
  | x :: xs => match ys with | [] => false | y :: ys => Value.eqBy feq x y && eqListBy feq xs ys
  termination_by structural xs
/-- std `HashMap: PartialEq`, the loop over the left map's entries. Needed for /repo/src/model/value.rs:6 (derived `PartialEq`). -/
def eqMapBy (feq : F64 → F64 → Bool) (m : List (String × Value)) (n : List (String × Value)) : Bool :=
  match m with
  | [] => true
  | e :: r => eqEntryBy feq e n && eqMapBy feq r n
  termination_by structural m
/-- One entry of the left map is found, equal, in the right map. Needed for /repo/src/model/value.rs:6 (derived `PartialEq`). -/
def eqEntryBy (feq : F64 → F64 → Bool) (e : String × Value) (n : List (String × Value)) : Bool :=
  match e with
  | (k, v) => match hmGet n k with
    | some w => Value.eqBy feq v w
    | none => false
  termination_by structural e
end

/-- Rust's `==` on `Value`: /repo/src/model/value.rs:6. -/
def Value.rustEq (a b : Value) : Bool := Value.eqBy (fun x y => x.1.ieeeEq y.1) a b

end Verif
