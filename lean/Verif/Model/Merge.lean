import Verif.Model.Value
/-! # Merging: models /repo/src/model/merge.rs -/
namespace Verif

mutual
/-- /repo/src/model/merge.rs:4-24 `Value::merge`: the receiver after the call. -/
def Value.merge (self other : Value) : Value :=
  match other with
  | .map rhs => match self with
    | .map lhs => .map (mergeEntries lhs rhs)
    | _ => self
  | _ => self
  termination_by structural other
/-- The loop of /repo/src/model/merge.rs:7-20 over the entries of the overlay, in iteration order. -/
def mergeEntries (lhs : Entries) (rhs : List (String × Value)) : Entries :=
  match rhs with
  | [] => lhs
  | e :: rest => mergeEntries (mergeEntry lhs e) rest
  termination_by structural rhs
/-- The loop body, /repo/src/model/merge.rs:8-19. -/
def mergeEntry (lhs : Entries) (e : String × Value) : Entries :=
  match e with
  | (key, value) => match hmGet lhs key with
    | some lhsValue =>
      if lhsValue.isMap && value.isMap then
        hmInsert lhs key (Value.merge lhsValue value)   -- `get_mut` + in-place merge
      else
        hmInsert lhs key value
    | none => hmInsert lhs key value
  termination_by structural e
end

/-- /repo/src/model/merge.rs:26-30 `Value::clone_merge`. -/
def Value.cloneMerge (self other : Value) : Value := self.merge other

end Verif
