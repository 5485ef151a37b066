import Verif.Model.FlatOption
/-!
# A struct that keeps the keys it does not know

`#[serde(flatten)] other: HashMap<String, Value>` or `#[serde(flatten)] other: Value`: the keys that no field is named after are read into `Value`s by /repo/src/model/visitor.rs, and
written again by /repo/src/model/ser.rs:5-35.
-/
namespace Verif

/-- `Value` as a type to read: /repo/src/model/visitor.rs:155-161. serde's buffer answers `deserialize_any` by showing the visitor (/repo/src/model/visitor.rs:9-153) what it was
filled with. -/
def Reader.value : Reader where
  direct := fun v => deValue v >>= fun w => .ok w.toData
  buffered := fun _ v => deValue v >>= fun w => .ok w.toData

/-- The two types that catch everything. Needed for /repo/src/model/visitor.rs:142-161. -/
inductive CatchAll where
  | map
  | value

/-- How they are read: `HashMap<String, Value>` asks for a map of `Value`s, `Value` looks at all that is left. Needed for /repo/src/model/visitor.rs:142-161. -/
def CatchAll.part : CatchAll → FlatPart
  | .map => .rest Reader.value
  | .value => .view Reader.value

/-- The calls that serde's derived `Serialize` makes for a struct with a flattened field: a map with the own fields (`own`, as far as they are not skipped) and the entries of the flattened
field, in the order of the declaration; the entries in the order of the hash map. Any order is allowed here. Received by /repo/src/model/ser.rs:207-209,324-354. -/
def FlatCalls (own : List (String × Data)) (others : List (Data × Data)) (calls : List (Data × Data)) : Prop :=
  calls.Perm (own.map (fun c => (.str c.1, c.2)) ++ others)

end Verif
