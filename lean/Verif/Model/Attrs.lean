import Verif.Model.Serde
/-!
# Structs with serde attributes

What `#[derive(Deserialize, Serialize)]` makes of `#[serde(default)]` (on a field or the struct, with or without a path), `rename`, `rename_all`,
`alias`, `skip`, `skip_deserializing`, `skip_serializing_if` and `deny_unknown_fields`, and how that code drives /repo/src/model/de.rs and ser.rs.
Those that buffer (`flatten`, `untagged`, `tag`) are in Model/Buffer.lean.
-/
namespace Verif

/-- A field of a derived struct with its attributes: the name it is read and written under (after `rename`), its `alias`es, whether it is skipped
when reading, the decoder of its type, and what it gets when absent (`missing_field`, or the default). Needed for /repo/src/model/de.rs:225-235. -/
structure AttrField where
  name : String
  aliases : List String
  skip : Bool
  dec : Decoder
  missing : Outcome ModelError Data

/-- The keys the derived `__Field` visitor takes for the field. Needed for /repo/src/model/de.rs:249-254. -/
def AttrField.keys (f : AttrField) : List String := if f.skip then [] else f.name :: f.aliases

/-- The loop of the derived visitor's `visit_map` over `ValueMap` (/repo/src/model/de.rs:225-235, 312-330), with attributes: the key goes through
`deserialize_identifier` (249-254); an unknown key is an error if unknown fields are denied, otherwise its value is consumed as `IgnoredAny`. (The list
of expected names in the message is left out.) -/
def deAttrLoop (deny : Bool) (fs : List AttrField) (acc : List (String × Data)) :
    List (String × Value) → Outcome ModelError (List (String × Data))
  | [] => .ok acc
  | (k, v) :: r =>
    Outcome.ofExcept ((Value.string k).tryInto .string) >>= fun k =>
      match fs.find? (fun f => f.keys.contains k) with
      | some f =>
        if (hmGet acc f.name).isSome then .err (.deserializationError ("duplicate field `" ++ f.name ++ "`"))
        else f.dec v >>= fun d => deAttrLoop deny fs (hmInsert acc f.name d) r
      | none =>
        if deny then .err (.deserializationError ("unknown field `" ++ k ++ "`"))
        else deIgnored v >>= fun _ => deAttrLoop deny fs acc r

/-- The end of the derived visitor's `visit_map`: every field, or what it gets when absent. Needed for /repo/src/model/de.rs:225-235. -/
def deAttrFinish (acc : List (String × Data)) : List AttrField → Outcome ModelError (List (String × Data))
  | [] => .ok []
  | f :: r =>
    (match hmGet acc f.name with | some d => Outcome.ok d | none => f.missing) >>= fun d =>
      deAttrFinish acc r >>= fun ds => .ok ((f.name, d) :: ds)

/-- `deserialize_struct` → `deserialize_map`: /repo/src/model/de.rs:225-235, 215-223, with such a visitor. -/
def deAttrs (deny : Bool) (fs : List AttrField) (v : Value) : Outcome ModelError Data :=
  match v with
  | .map m => deAttrLoop deny fs [] m >>= fun acc => deAttrFinish acc fs >>= fun ds => .ok (.struct ds)
  | v => .err (cannot v "Map")

/-- The derived `serialize` with `skip_serializing`, `skip_serializing_if`: the fields that `keep` says are handed to
/repo/src/model/ser.rs:211-217 `serialize_struct`, 395-415 `serialize_field`, the others not (`skip_field` does nothing there). -/
def serAttrs (keep : String × Data → Bool) (fs : List (String × Data)) : Outcome ModelError Value :=
  ser (.struct (fs.filter keep))

end Verif
