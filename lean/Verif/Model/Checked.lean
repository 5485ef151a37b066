import Verif.Model.Attrs
/-!
# Types with checks

`#[serde(try_from = "T")]` and `#[serde(from = "T")]` (which never refuses): the derived `Deserialize` reads a `T` and converts it. Such types may be used
anywhere inside others. (`#[serde(transparent)]` is reading the inner type; a `deserialize_with` function is a decoder of its own, `CTy.plain`.)
-/
namespace Verif

/-- The derived `deserialize` of a type with `try_from`: read the other type, convert, and hand a refusal to `Error::custom`,
/repo/src/model/errors.rs:21-25. -/
def deTryFrom (conv : Data → Except String Data) (dec : Decoder) : Decoder := fun v =>
  dec v >>= fun raw => match conv raw with
    | .ok d => .ok d
    | .error msg => .err (.deserializationError msg)

/-- The attributes of a field; `default` is what `#[serde(default)]` gives, if it is there. Needed for /repo/src/model/de.rs:225-235. -/
structure CField where
  name : String
  aliases : List String
  skip : Bool
  default : Option Data

/-- Types with checks inside. `plain` is any type without one that is not an `Option`. Needed for /repo/src/model/de.rs:333-340. -/
inductive CTy where
  | plain (dec : Decoder)
  | option (t : CTy)
  | newtype (t : CTy)
  | seq (t : CTy)
  | tuple (ts : List CTy)
  | map (k : KeyTy) (t : CTy)
  | struct (deny : Bool) (fs : List (CField × CTy))
  | tryFrom (conv : Data → Except String Data) (t : CTy)

/-- serde's `missing_field`: the type is read from a deserializer that knows only `deserialize_option`; so `None` for an `Option`, the converted `None` for a
type made from an `Option`, an error for every other type. Needed for /repo/src/model/de.rs:225-235. -/
def missingC (name : String) : CTy → Outcome ModelError Data
  | .option _ => .ok .none
  | .tryFrom conv t => missingC name t >>= fun raw => match conv raw with
    | .ok d => .ok d
    | .error msg => .err (.deserializationError msg)
  | _ => .err (.deserializationError ("missing field `" ++ name ++ "`"))

mutual
/-- `T::deserialize(value)`, as `de` in Model/Serde.lean: the `deserialize_*` methods of /repo/src/model/de.rs:144-235. -/
def deC (ty : CTy) (v : Value) : Outcome ModelError Data :=
  match ty with
  | .plain dec => dec v
  | .option t => match v with                                                                 -- 144-152
    | .none => .ok .none
    | v => deC t v >>= fun d => .ok (.some d)
  | .newtype t => deC t v >>= fun d => .ok (.newtypeStruct d)                                 -- 175-184
  | .seq t => match v with                                                                    -- 186-194
    | .array xs => deVecLoop (fun x => deC t x) [] xs >>= fun ds => .ok (.seq ds)
    | v => .err (cannot v "Array")
  | .tuple ts => match v with                                                                 -- 196-201
    | .array xs => deTupleLoop 0 [] (decodersC ts) xs >>= fun ds => .ok (.tuple ds)
    | v => .err (cannot v "Array")
  | .map kt t => match v with                                                                 -- 215-223
    | .map m => deMapLoop kt (fun x => deC t x) [] m >>= fun es => .ok (.map (es.map fun e => (e.1.toData, e.2)))
    | v => .err (cannot v "Map")
  | .struct deny fs => deAttrs deny (fieldsC fs) v                                            -- 225-235
  | .tryFrom conv t => deTryFrom conv (fun x => deC t x) v
  termination_by structural ty
/-- The decoders of a tuple's fields. Needed for /repo/src/model/de.rs:196-213. -/
def decodersC (ts : List CTy) : List Decoder :=
  match ts with
  | [] => []
  | t :: r => (fun v => deC t v) :: decodersC r
  termination_by structural ts
/-- The fields of a struct. Needed for /repo/src/model/de.rs:225-235. -/
def fieldsC (fs : List (CField × CTy)) : List AttrField :=
  match fs with
  | [] => []
  | f :: r => fieldC f :: fieldsC r
  termination_by structural fs
/-- One field of a struct. Needed for /repo/src/model/de.rs:225-235. -/
def fieldC (f : CField × CTy) : AttrField :=
  match f with
  | (a, t) => ⟨a.name, a.aliases, a.skip, fun v => deC t v, match a.default with | some d => .ok d | none => missingC a.name t⟩
  termination_by structural f
end

end Verif
