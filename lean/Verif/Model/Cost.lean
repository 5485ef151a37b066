import Verif.Model.Config
/-!
# What merging does step by step: /repo/src/model/merge.rs with its map operations and its use of the stack
-/
namespace Verif

/-- One operation on a map: `lhs.get_mut(key)` (/repo/src/model/merge.rs:8), or `lhs.insert(key.clone(), value.clone())`
(/repo/src/model/merge.rs:13, 17) with what was cloned. `path` is the chain of keys to the entry. -/
inductive MergeEvent where
  | lookup (path : List String)
  | insert (path : List String) (cloned : Value)

mutual
/-- /repo/src/model/merge.rs:4-24 `Value::merge`, called for the entry at `path`: the receiver after the call, and what was done. -/
def Value.mergeT (path : List String) (self other : Value) : Value × List MergeEvent :=
  match other with
  | .map rhs => match self with
    | .map lhs => (.map (mergeEntriesT path lhs rhs).1, (mergeEntriesT path lhs rhs).2)
    | _ => (self, [])
  | _ => (self, [])
  termination_by structural other
/-- The loop, /repo/src/model/merge.rs:7-20. -/
def mergeEntriesT (path : List String) (lhs : Entries) (rhs : List (String × Value)) : Entries × List MergeEvent :=
  match rhs with
  | [] => (lhs, [])
  | e :: rest =>
    ((mergeEntriesT path (mergeEntryT path lhs e).1 rest).1, (mergeEntryT path lhs e).2 ++ (mergeEntriesT path (mergeEntryT path lhs e).1 rest).2)
  termination_by structural rhs
/-- The loop body, /repo/src/model/merge.rs:8-19. -/
def mergeEntryT (path : List String) (lhs : Entries) (e : String × Value) : Entries × List MergeEvent :=
  match e with
  | (key, value) => match hmGet lhs key with
    | some lhsValue =>
      if lhsValue.isMap && value.isMap then
        (hmInsert lhs key (Value.mergeT (path ++ [key]) lhsValue value).1, .lookup (path ++ [key]) :: (Value.mergeT (path ++ [key]) lhsValue value).2)
      else
        (hmInsert lhs key value, [.lookup (path ++ [key]), .insert (path ++ [key]) value])
    | none => (hmInsert lhs key value, [.lookup (path ++ [key]), .insert (path ++ [key]) value])
  termination_by structural e
end

/-! ### The stack. `n` is how many more nested calls fit; `none` is a stack overflow. -/

mutual
/-- /repo/src/model/value.rs:6 `derive(Clone)`: a call for each nested value. -/
def Value.cloneF (n : Nat) (v : Value) : Option Unit :=
  match n with
  | 0 => none
  | n + 1 => match v with
    | .array xs => cloneListF n xs
    | .map m => cloneMapF n m
    | _ => some ()
  termination_by structural v
/-- `Vec::clone`: /repo/src/model/value.rs:16. -/
def cloneListF (n : Nat) (xs : List Value) : Option Unit :=
  match xs with
  | [] => some ()
  | x :: r => (Value.cloneF n x).bind fun _ => cloneListF n r
  termination_by structural xs
/-- `HashMap::clone`: /repo/src/model/value.rs:17. -/
def cloneMapF (n : Nat) (m : List (String × Value)) : Option Unit :=
  match m with
  | [] => some ()
  | e :: r => (cloneEntryF n e).bind fun _ => cloneMapF n r
  termination_by structural m
/-- One entry: /repo/src/model/value.rs:17. -/
def cloneEntryF (n : Nat) (e : String × Value) : Option Unit :=
  match e with
  | (_, v) => Value.cloneF n v
  termination_by structural e
end

mutual
/-- Dropping a value (the compiler's drop glue of /repo/src/model/value.rs:7-18): a call for each nested value. -/
def Value.dropF (n : Nat) (v : Value) : Option Unit :=
  match n with
  | 0 => none
  | n + 1 => match v with
    | .array xs => dropListF n xs
    | .map m => dropMapF n m
    | _ => some ()
  termination_by structural v
/-- The elements of the `Vec`, /repo/src/model/value.rs:16. -/
def dropListF (n : Nat) (xs : List Value) : Option Unit :=
  match xs with
  | [] => some ()
  | x :: r => (Value.dropF n x).bind fun _ => dropListF n r
  termination_by structural xs
/-- The entries of the `HashMap`, /repo/src/model/value.rs:17. -/
def dropMapF (n : Nat) (m : List (String × Value)) : Option Unit :=
  match m with
  | [] => some ()
  | e :: r => (dropEntryF n e).bind fun _ => dropMapF n r
  termination_by structural m
/-- One entry, /repo/src/model/value.rs:17. -/
def dropEntryF (n : Nat) (e : String × Value) : Option Unit :=
  match e with
  | (_, v) => Value.dropF n v
  termination_by structural e
end

mutual
/-- /repo/src/model/merge.rs:4-24 `Value::merge` on a stack that takes `n` more nested calls (of `merge`, `clone` or the drop glue). -/
def Value.mergeF (n : Nat) (self other : Value) : Option Value :=
  match n with
  | 0 => none
  | n + 1 => match other with
    | .map rhs => match self with
      | .map lhs => (mergeEntriesF n lhs rhs).map .map
      | _ => some self
    | _ => some self
  termination_by structural other
/-- The loop, /repo/src/model/merge.rs:7-20. -/
def mergeEntriesF (n : Nat) (lhs : Entries) (rhs : List (String × Value)) : Option Entries :=
  match rhs with
  | [] => some lhs
  | e :: rest => (mergeEntryF n lhs e).bind fun lhs => mergeEntriesF n lhs rest
  termination_by structural rhs
/-- The loop body, /repo/src/model/merge.rs:8-19. `insert` hands back the value that was replaced, which is dropped (13). -/
def mergeEntryF (n : Nat) (lhs : Entries) (e : String × Value) : Option Entries :=
  match e with
  | (key, value) => match hmGet lhs key with
    | some lhsValue =>
      if lhsValue.isMap && value.isMap then
        (Value.mergeF n lhsValue value).map fun x => hmInsert lhs key x
      else
        (Value.cloneF n value).bind fun _ => (Value.dropF n lhsValue).map fun _ => hmInsert lhs key value
    | none => (Value.cloneF n value).map fun _ => hmInsert lhs key value
  termination_by structural e
end

namespace Config

/-- The loop of /repo/src/config.rs:130-145 on a stack that takes `n` more nested calls. (The reading of the layers is not counted.) What a layer
read is dropped after it has been merged (144), the value built so far if an error is returned (139). -/
def buildLoopF (n : Nat) (w : World) (c : Config) (skip : Bool) (value : Value) : List String → Option (Except BakuninError Value)
  | [] => some (.ok value)
  | name :: names =>
    match hmGet c.layers name with
    | some layer =>
      match layer.readValue w with
      | .error e => if skip then buildLoopF n w c skip value names else (value.dropF n).map fun _ => .error e
      | .ok v => (value.mergeF n v).bind fun value => (v.dropF n).bind fun _ => buildLoopF n w c skip value names
    | none => buildLoopF n w c skip value names

/-- /repo/src/config.rs:127-148 `build_value` on a stack that takes `n` more nested calls. -/
def buildValueF (n : Nat) (w : World) (c : Config) (skip : Bool) : Option (Except BakuninError Value) :=
  buildLoopF n w c skip Value.newMap c.names

/-- What the loop of /repo/src/config.rs:130-145 does to the maps, layer by layer. -/
def buildLoopT (w : World) (c : Config) (skip : Bool) (value : Value) : List String → List (List MergeEvent)
  | [] => []
  | name :: names =>
    match hmGet c.layers name with
    | some layer =>
      match layer.readValue w with
      | .error _ => if skip then buildLoopT w c skip value names else []
      | .ok v => (value.mergeT [] v).2 :: buildLoopT w c skip (value.mergeT [] v).1 names
    | none => buildLoopT w c skip value names

end Config
end Verif
