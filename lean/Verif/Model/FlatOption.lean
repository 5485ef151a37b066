import Verif.Model.Buffer
/-!
# `#[serde(flatten)] section: Option<Section>`, and flattened enums

Which serde code drives /repo/src/model/de.rs here: the derived visitor of the outer struct collects the keys it does not know in a buffer (Model/Buffer.lean), then asks each
flattened field to read itself from the buffer (`FlatMapDeserializer`). For an `Option` that is `deserialize_option`, which calls `T::deserialize(..).ok()`: an error is dropped. The
struct takes its entries out of the buffer one by one as it reads them (`flat_map_take_entry`), so when it fails those before the failure are gone and those after it are not.
-/
namespace Verif

/-- The derived visitor of the section over `FlatStructAccess`: its own entries are taken and read, until one cannot be read; `kept` are the entries left in the buffer so far.
Gives the fields read, or nothing after a failure, and what is left in the buffer. Needed for /repo/src/model/de.rs:309-331. -/
def takeLoop (fds : List FieldDec) (acc : List (String × Data)) (kept : List (String × Value)) :
    List (String × Value) → Outcome ModelError (Option (List (String × Data)) × List (String × Value))
  | [] => .ok (some acc, kept)
  | (k, v) :: r =>
    match fds.find? (fun fd => fd.name == k) with
    | none => takeLoop fds acc (kept ++ [(k, v)]) r
    | some fd =>
      if (hmGet acc k).isSome then .ok (none, kept ++ r)
      else match fd.dec v with
        | .ok d => takeLoop fds (hmInsert acc k d) kept r
        | .err _ => .ok (none, kept ++ r)
        | .panic => .panic

/-- `Option<Section>` read from the buffer by `FlatMapDeserializer::deserialize_option`: errors are dropped. Also what is left in the buffer. Needed for /repo/src/model/de.rs:309-331. -/
def flatOption (fds : List FieldDec) (rest : List (String × Value)) : Outcome ModelError (Data × List (String × Value)) :=
  takeLoop fds [] [] rest >>= fun p => match p.1 with
    | none => .ok (.none, p.2)
    | some acc => match deStructFinish acc fds with
      | .ok ds => .ok (.some (.struct ds), p.2)
      | .err _ => .ok (.none, p.2)
      | .panic => .panic

/-- `FlatMapDeserializer::deserialize_enum`: the first entry whose key is the name of a variant is taken out of the buffer; also what is left. Needed for /repo/src/model/de.rs:309-331. -/
def takeVariant (vs : List Variant) (kept : List (String × Value)) : List (String × Value) → Option ((String × Value) × List (String × Value))
  | [] => none
  | e :: r => if vs.any (fun va => va.name == e.1) then some (e, kept ++ r) else takeVariant vs (kept ++ [e]) r

/-- `Option<Choice>` for an enum: errors are dropped, but the entry is gone. Needed for /repo/src/model/de.rs:309-331. -/
def flatOptChoice (vs : List Variant) (rest : List (String × Value)) : Outcome ModelError (Data × List (String × Value)) :=
  match takeVariant vs [] rest with
  | none => .ok (.none, rest)
  | some (e, rest') => match (Reader.enum vs).buffered true (.map [e]) with
    | .ok d => .ok (.some d, rest')
    | .err _ => .ok (.none, rest')
    | .panic => .panic

/-- A flattened field: a struct, perhaps optional; a map for the rest; a (default, externally tagged) enum, perhaps optional, whose content `EnumDeserializer` reads as from a map with one entry;
or a type that looks at all entries through `deserialize_any` and takes none (an internally tagged or untagged enum). Needed for /repo/src/model/de.rs:309-331. -/
inductive FlatPart where
  | struct (fs : List RField)
  | optional (fs : List RField)
  | rest (r : Reader)
  | choice (vs : List Variant)
  | optChoice (vs : List Variant)
  | view (r : Reader)

/-- `FlatMapDeserializer` for the flattened fields, in order. Needed for /repo/src/model/de.rs:309-331. -/
def flatParts (rest : List (String × Value)) : List (String × FlatPart) → Outcome ModelError (List (String × Data))
  | [] => .ok []
  | (name, .struct fs) :: r =>
    let own := rest.filter fun e => fs.any fun f => f.name == e.1
    (deStructLoop (fs.map (RField.bufferedDec true)) [] own >>= fun acc => deStructFinish acc (fs.map (RField.bufferedDec true))) >>= fun ds =>
      flatParts (rest.filter fun e => !(fs.any fun f => f.name == e.1)) r >>= fun ps => .ok ((name, .struct ds) :: ps)
  | (name, .optional fs) :: r =>
    flatOption (fs.map (RField.bufferedDec true)) rest >>= fun p => flatParts p.2 r >>= fun ps => .ok ((name, p.1) :: ps)
  | (name, .rest rd) :: r =>
    (Reader.map rd).buffered false (.map rest) >>= fun d => flatParts rest r >>= fun ps => .ok ((name, d) :: ps)
  | (name, .choice vs) :: r =>
    match takeVariant vs [] rest with
    | none => .err (.deserializationError "no variant of enum found in flattened data")
    | some (e, rest') => (Reader.enum vs).buffered true (.map [e]) >>= fun d => flatParts rest' r >>= fun ps => .ok ((name, d) :: ps)
  | (name, .optChoice vs) :: r =>
    flatOptChoice vs rest >>= fun p => flatParts p.2 r >>= fun ps => .ok ((name, p.1) :: ps)
  | (name, .view rd) :: r =>
    rd.buffered false (.map rest) >>= fun d => flatParts rest r >>= fun ps => .ok ((name, d) :: ps)

/-- A struct with own fields `fs` and flattened fields, perhaps optional, read from a `Value`: /repo/src/model/de.rs:215-223 `deserialize_map`. The result lists the own fields first. -/
def readFlat (fs : List RField) (parts : List (String × FlatPart)) (v : Value) : Outcome ModelError Data :=
  match v with
  | .map m => flattenLoop (fs.map RField.directDec) buffer [] [] m >>= fun p =>
      deStructFinish p.1 (fs.map RField.directDec) >>= fun ds => flatParts p.2 parts >>= fun ps => .ok (.struct (ds ++ ps))
  | v => .err (cannot v "Map")

end Verif
