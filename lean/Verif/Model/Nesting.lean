import Verif.Model.Cost
import Verif.Model.Doc
import Verif.Model.Convert
/-!
# What the other operations on a `Value` do to the stack

As in `Model/Cost.lean`: `n` is how many more nested calls fit, every call of the operation for a value inside another counts one, `none` is a stack
overflow. What the formats' own printers and parsers need beside is not counted.
-/
namespace Verif

mutual
/-- /repo/src/model/value.rs:20-53 `Display for Value`. -/
def Value.displayF (n : Nat) (v : Value) : Option String :=
  match n with
  | 0 => none
  | n + 1 => match v with
    | .array xs => (displayElemsF n true xs).map fun s => "[" ++ s ++ "]"
    | .map m => (displayEntriesF n true m).map fun s => "{" ++ s ++ "}"
    | v => some v.display
  termination_by structural v
/-- The loop of /repo/src/model/value.rs:33-38. -/
def displayElemsF (n : Nat) (first : Bool) (xs : List Value) : Option String :=
  match xs with
  | [] => some ""
  | x :: r => (Value.displayF n x).bind fun s => (displayElemsF n false r).map fun t => (if first then "" else ", ") ++ s ++ t
  termination_by structural xs
/-- The loop of /repo/src/model/value.rs:43-48. -/
def displayEntriesF (n : Nat) (first : Bool) (m : List (String × Value)) : Option String :=
  match m with
  | [] => some ""
  | e :: r => (displayEntryF n e).bind fun s => (displayEntriesF n false r).map fun t => (if first then "" else ", ") ++ s ++ t
  termination_by structural m
/-- /repo/src/model/value.rs:47 `"{}: {}"`. -/
def displayEntryF (n : Nat) (e : String × Value) : Option String :=
  match e with
  | (k, v) => (Value.displayF n v).map fun s => k ++ ": " ++ s
  termination_by structural e
end

mutual
/-- /repo/src/model/ser.rs:5-35 `Serialize for Value`: the calls made on the serializer. -/
def Value.toDataF (n : Nat) (v : Value) : Option Data :=
  match n with
  | 0 => none
  | n + 1 => match v with
    | .array xs => (toDataListF n xs).map .seq
    | .map m => (toDataEntriesF n m).map .map
    | v => some v.toData
  termination_by structural v
/-- /repo/src/model/ser.rs:19-25. -/
def toDataListF (n : Nat) (xs : List Value) : Option (List Data) :=
  match xs with
  | [] => some []
  | x :: r => (Value.toDataF n x).bind fun d => (toDataListF n r).map fun ds => d :: ds
  termination_by structural xs
/-- /repo/src/model/ser.rs:26-32. -/
def toDataEntriesF (n : Nat) (m : List (String × Value)) : Option (List (Data × Data)) :=
  match m with
  | [] => some []
  | e :: r => (toDataEntryF n e).bind fun d => (toDataEntriesF n r).map fun ds => d :: ds
  termination_by structural m
/-- `map.serialize_entry(k, v)`: /repo/src/model/ser.rs:29. -/
def toDataEntryF (n : Nat) (e : String × Value) : Option (Data × Data) :=
  match e with
  | (k, v) => (Value.toDataF n v).map fun d => (.str k, d)
  termination_by structural e
end

mutual
/-- Rust's `==` on `Value`: /repo/src/model/value.rs:6 (derived `PartialEq`). -/
def Value.eqF (n : Nat) (a b : Value) : Option Bool :=
  match n with
  | 0 => none
  | n + 1 => match a with
    | .array xs => match b with | .array ys => if xs.length == ys.length then eqListF n xs ys else some false | _ => some false
    | .map m => match b with | .map k => if m.length == k.length then eqMapF n m k else some false | _ => some false
    | a => some (a.rustEq b)
  termination_by structural a
/-- std `Vec: PartialEq` after the comparison of the lengths; it stops at the first difference. Needed for /repo/src/model/value.rs:6. -/
def eqListF (n : Nat) (xs ys : List Value) : Option Bool :=
  match xs with
  | [] => match ys with | [] => some true | _ => some false
  | x :: xs => match ys with
    | [] => some false
    | y :: ys => (Value.eqF n x y).bind fun e => if e then eqListF n xs ys else some false
  termination_by structural xs
/-- std `HashMap: PartialEq` after the comparison of the sizes: the entries of the left map, in its order, up to the first that differs. Needed for
/repo/src/model/value.rs:6. -/
def eqMapF (n : Nat) (m : List (String × Value)) (k : List (String × Value)) : Option Bool :=
  match m with
  | [] => some true
  | e :: r => (eqEntryF n e k).bind fun t => if t then eqMapF n r k else some false
  termination_by structural m
/-- One entry of the left map looked up in the right one. Needed for /repo/src/model/value.rs:6. -/
def eqEntryF (n : Nat) (e : String × Value) (k : List (String × Value)) : Option Bool :=
  match e with
  | (key, v) => match hmGet k key with
    | some w => Value.eqF n v w
    | none => some false
  termination_by structural e
end

mutual
/-- /repo/src/model/visitor.rs:9-161: reading a `Value` from a foreign format. -/
def visitF (n : Nat) (d : Doc) : Option (Except String Value) :=
  match n with
  | 0 => none
  | n + 1 => match d with
    | .some d => visitF n d
    | .seq ds => visitSeqF n [] ds
    | .map es => visitMapF n [] es
    | d => some (visit d)
  termination_by structural d
/-- The loop of /repo/src/model/visitor.rs:135-139; it stops at the first error. -/
def visitSeqF (n : Nat) (acc : List Value) (ds : List Doc) : Option (Except String Value) :=
  match ds with
  | [] => some (.ok (.array acc))
  | d :: r => (visitF n d).bind fun
    | .ok x => visitSeqF n (acc ++ [x]) r
    | .error m => some (.error m)
  termination_by structural ds
/-- The loop of /repo/src/model/visitor.rs:147-151. -/
def visitMapF (n : Nat) (acc : Entries) (es : List (Doc × Doc)) : Option (Except String Value) :=
  match es with
  | [] => some (.ok (.map acc))
  | e :: r => (visitEntryF n e).bind fun
    | .ok kv => visitMapF n (hmInsert acc kv.1 kv.2) r
    | .error m => some (.error m)
  termination_by structural es
/-- `map.next_entry()?`: /repo/src/model/visitor.rs:147. -/
def visitEntryF (n : Nat) (e : Doc × Doc) : Option (Except String (String × Value)) :=
  match e with
  | (k, v) => match visitKey k with
    | .error m => some (.error m)
    | .ok key => (visitF n v).map fun
      | .ok x => .ok (key, x)
      | .error m => .error m
  termination_by structural e
end

end Verif
