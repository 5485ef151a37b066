import Verif.Model.Serde
/-!
# The compound serializers and accessors, one call at a time

Models the mutable protocol objects that hand-written `Serialize` and `Deserialize` implementations drive in
whatever order they like: `ValueSerSeq`, `ValueSerMap`, the variant serializers (/repo/src/model/ser.rs:229-413)
and `ValueSeq`, `ValueMap` (/repo/src/model/de.rs:264-331).

The argument of a call is what serializing it with `ValueSerializer` gives (`Outcome ModelError Value`), so that
nested hand-written implementations, with whatever result, are covered too. Each step gives the outcome of the
call and the object afterwards (an implementation may ignore an `Err` and go on; after a panic there is no
object).
-/
namespace Verif

/-! ## Serializing -/

/-- A call of the `SerializeMap` / `SerializeStruct` traits on a `ValueSerMap`, or of `SerializeStructVariant`
(/repo/src/model/ser.rs:324-354, 371-391, 396-413), with the serialized argument. -/
inductive MapCall where
  | key (k : Outcome ModelError Value)
  | value (v : Outcome ModelError Value)
  | field (name : String) (v : Outcome ModelError Value)

/-- /repo/src/model/ser.rs:329-336 `serialize_key`, 338-349 `serialize_value`, 400-411 `serialize_field`: the
outcome of the call and the serializer afterwards. -/
def SerMap.call (st : SerMap) : MapCall → Outcome ModelError Unit × SerMap
  | .key (.ok v) => match v.tryIntoMethod .string with
    | .ok k => (.ok (), { st with key := some k })
    | .error e => (.err e, st)
  | .key (.err e) => (.err e, st)
  | .key .panic => (.panic, st)
  | .value a => match st.key with
    | none => (.panic, st)
    | some k => match a with
      | .ok x => match st.map.set k x with
        | (.ok (), m) => (.ok (), ⟨m, none⟩)
        | (.error e, m) => (.err e, ⟨m, none⟩)
      | .err e => (.err e, ⟨st.map, none⟩)
      | .panic => (.panic, ⟨st.map, none⟩)
  | .field name (.ok x) => match st.map.set name x with
    | (.ok (), m) => (.ok (), { st with map := m })
    | (.error e, m) => (.err e, { st with map := m })
  | .field _ (.err e) => (.err e, st)
  | .field _ .panic => (.panic, st)

/-- A history of calls by an implementation that ignores errors; `none` if one of them panicked.
/repo/src/model/ser.rs:324-413. -/
def SerMap.calls (st : SerMap) : List MapCall → Option SerMap
  | [] => some st
  | c :: r => match st.call c with
    | (.panic, _) => none
    | (_, st) => st.calls r

/-- A history of calls by an implementation that puts `?` after each call (as derived ones do).
/repo/src/model/ser.rs:324-413. -/
def SerMap.callsQ (st : SerMap) : List MapCall → Outcome ModelError SerMap
  | [] => .ok st
  | c :: r => match st.call c with
    | (.panic, _) => .panic
    | (.err e, _) => .err e
    | (.ok (), st) => st.callsQ r

/-- /repo/src/model/ser.rs:351-353, 388-390 `end`. -/
def SerMap.finish (st : SerMap) : Value := st.map

/-- /repo/src/model/ser.rs:388-394 `SerializeStructVariant::end`. -/
def SerMap.finishVariant (st : SerMap) (name : String) : Outcome ModelError Value := setQ Value.newMap name st.map

/-- /repo/src/model/ser.rs:229-239 `ValueSerSeq::new`, 272-279 `ValueSerTupleVariant::new`. -/
def serSeqNew (size : Nat) : Value := Value.withArrayCapacity size

/-- /repo/src/model/ser.rs:247-255, 289-298 `serialize_element` / `serialize_field` of `ValueSerSeq` and
`ValueSerTupleVariant`: the outcome and the sequence afterwards. -/
def serSeqCall (seq : Value) : Outcome ModelError Value → Outcome ModelError Unit × Value
  | .ok x => match seq.push x with
    | (.ok (), s) => (.ok (), s)
    | (.error e, s) => (.err e, s)
  | .err e => (.err e, seq)
  | .panic => (.panic, seq)

/-- A history of element calls by an implementation that ignores errors; `none` if one panicked.
/repo/src/model/ser.rs:242-307. -/
def serSeqCalls (seq : Value) : List (Outcome ModelError Value) → Option Value
  | [] => some seq
  | c :: r => match serSeqCall seq c with
    | (.panic, _) => none
    | (_, s) => serSeqCalls s r

/-! ## Deserializing -/

/-- A call on a `ValueMap` accessor: `next_key_seed` or `next_value_seed` with some seed (a decoder).
/repo/src/model/de.rs:309-331. -/
inductive AccessCall (α : Type) where
  | nextKey (seed : Value → Outcome ModelError α)
  | nextValue (seed : Value → Outcome ModelError α)

/-- /repo/src/model/de.rs:312-330 `next_key_seed` (which looks at the front entry without removing it) and
`next_value_seed` (which removes it): the answer (`none` for `Ok(None)`) and the entries left. -/
def accessCall {α : Type} (m : List (String × Value)) : AccessCall α → Outcome ModelError (Option α) × List (String × Value)
  | .nextKey seed => match m with
    | (k, _) :: _ => (seed (.string k) >>= fun a => .ok (some a), m)
    | [] => (.ok none, m)
  | .nextValue seed => match m with
    | (_, v) :: r => (seed v >>= fun a => .ok (some a), r)
    | [] => (.panic, [])

/-- A history of calls on the accessor: the answers. /repo/src/model/de.rs:309-331. -/
def accessCalls {α : Type} (m : List (String × Value)) : List (AccessCall α) → List (Outcome ModelError (Option α))
  | [] => []
  | c :: r => (accessCall m c).1 :: accessCalls (accessCall m c).2 r

/-- /repo/src/model/de.rs:279-287 `next_element_seed`: the answer and the elements left. -/
def elementCall {α : Type} (xs : List Value) (seed : Value → Outcome ModelError α) :
    Outcome ModelError (Option α) × List Value :=
  match xs with
  | [] => (.ok none, [])
  | x :: r => (seed x >>= fun a => .ok (some a), r)

/-- A history of `next_element_seed` calls: the answers and the elements left. /repo/src/model/de.rs:276-287. -/
def elementCalls {α : Type} (xs : List Value) :
    List (Value → Outcome ModelError α) → List (Outcome ModelError (Option α)) × List Value
  | [] => ([], xs)
  | s :: r => ((elementCall xs s).1 :: (elementCalls (elementCall xs s).2 r).1, (elementCalls (elementCall xs s).2 r).2)

/-- /repo/src/model/de.rs:289-294 `size_hint` (the size hint of `vec::IntoIter` is exact). -/
def elementHint (xs : List Value) : Option Nat := some xs.length

end Verif
