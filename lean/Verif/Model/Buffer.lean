import Verif.Model.Attrs
/-!
# Types that buffer: untagged and internally tagged enums, `flatten`

serde reads such types by first storing what `deserialize_any` (/repo/src/model/de.rs:12-28) shows in a buffer (its private `Content`), and then reading the
parts from the buffer with its own deserializers (`ContentDeserializer`, which owns the buffer, and `ContentRefDeserializer`, which borrows it), which
do not convert as de.rs does. A buffer filled from a `Value` consists of booleans, `i64`, `u64`, `f64`, strings, units, sequences and maps with string
keys, and is represented here by the `Value` it was filled from. Error texts are abbreviated. (Written from serde 1.0.190 – 1.0.219.)
-/
namespace Verif

mutual
/-- `Content::deserialize(value)`: `deserialize_any` (/repo/src/model/de.rs:12-28) with serde's `ContentVisitor`, which has no `visit_i128`/`visit_u128`. -/
def buffer (v : Value) : Outcome ModelError Value :=
  match v with
  | .longInteger _ => .err (.deserializationError "invalid type: i128")
  | .uLongInteger _ => .err (.deserializationError "invalid type: u128")
  | .array xs => bufferSeq xs >>= fun ys => .ok (.array ys)
  | .map m => bufferMap m >>= fun es => .ok (.map es)
  | .none => .ok .none
  | .boolean b => .ok (.boolean b)
  | .integer n => .ok (.integer n)
  | .uInteger n => .ok (.uInteger n)
  | .float x => .ok (.float x)
  | .string s => .ok (.string s)
  termination_by structural v
/-- `ContentVisitor::visit_seq` over `ValueSeq`: /repo/src/model/de.rs:276-287. -/
def bufferSeq (xs : List Value) : Outcome ModelError (List Value) :=
  match xs with
  | [] => .ok []
  | x :: r => buffer x >>= fun y => bufferSeq r >>= fun ys => .ok (y :: ys)
  termination_by structural xs
/-- `ContentVisitor::visit_map` over `ValueMap`: /repo/src/model/de.rs:309-331. -/
def bufferMap (m : List (String × Value)) : Outcome ModelError (List (String × Value)) :=
  match m with
  | [] => .ok []
  | e :: r => bufferEntry e >>= fun e' => bufferMap r >>= fun es => .ok (e' :: es)
  termination_by structural m
/-- One entry of it. Needed for /repo/src/model/de.rs:309-331. -/
def bufferEntry (e : String × Value) : Outcome ModelError (String × Value) :=
  match e with
  | (k, v) => buffer v >>= fun v => .ok (k, v)
  termination_by structural e
end

/-- A type as serde reads it: from a `Value` (/repo/src/model/de.rs), and from a buffer, owned (`true`) or borrowed (`false`). -/
structure Reader where
  direct : Decoder
  buffered : Bool → Decoder

/-- A buffer of the wrong kind, or with a value out of range. Needed for /repo/src/model/de.rs:12-28. -/
def badContent (expected : String) : Outcome ModelError Data := .err (.deserializationError ("invalid content, expected " ++ expected))

namespace Reader

/-- `bool`: /repo/src/model/de.rs:30-35. -/
def bool : Reader where
  direct := fun v => de (fun _ _ => .panic) .bool v
  buffered := fun _ v => match v with
    | .boolean b => .ok (.bool b)
    | _ => badContent "a boolean"

/-- The integer types: /repo/src/model/de.rs:37-91. The buffer knows `i64` and `u64`. -/
def int (t : IntTy) : Reader where
  direct := fun v => de (fun _ _ => .panic) (.int t) v
  buffered := fun _ v =>
    match t with
    | .i128 => badContent "i128 is not supported"
    | .u128 => badContent "u128 is not supported"
    | t =>
      let read := fun (n : Int) => match t.tryFrom n with
        | some n => .ok (.int t n)
        | none => badContent t.name
      match v with
      | .integer n => read n.1
      | .uInteger n => read n.1
      | _ => badContent t.name

/-- `f64`: /repo/src/model/de.rs:101-106. -/
def f64 : Reader where
  direct := fun v => de (fun _ _ => .panic) .f64 v
  buffered := fun _ v => match v with
    | .float x => .ok (.f64 x)
    | .integer n => .ok (.f64 (F64.ofInt n.1))
    | .uInteger n => .ok (.f64 (F64.ofInt n.1))
    | _ => badContent "f64"

/-- `n as f32`, which serde's visitor of `f32` does. Needed for /repo/src/model/de.rs:93-99. -/
def f32OfInt (n : Int) : F32 := ⟨fmt32.ofInt n, round_canon fmt32 fmt32_ok _ _ 1 (by decide)⟩

/-- `f32`: /repo/src/model/de.rs:93-99. -/
def f32 : Reader where
  direct := fun v => de (fun _ _ => .panic) .f32 v
  buffered := fun _ v => match v with
    | .float x => .ok (.f32 (F32.ofF64 x))
    | .integer n => .ok (.f32 (f32OfInt n.1))
    | .uInteger n => .ok (.f32 (f32OfInt n.1))
    | _ => badContent "f32"

/-- `char`: /repo/src/model/de.rs:108-113. From a buffer: a string of one character. -/
def char : Reader where
  direct := fun v => de (fun _ _ => .panic) .char v
  buffered := fun _ v => match v with
    | .string s => match s.toList with
      | [c] => .ok (.char c)
      | _ => badContent "a character"
    | _ => badContent "a character"

/-- `String`: /repo/src/model/de.rs:123-128. -/
def string : Reader where
  direct := fun v => de (fun _ _ => .panic) .string v
  buffered := fun _ v => match v with
    | .string s => .ok (.str s)
    | _ => badContent "a string"

/-- `()`: /repo/src/model/de.rs:154-162. An owned buffer also takes an empty map. -/
def unit : Reader where
  direct := fun v => de (fun _ _ => .panic) .unit v
  buffered := fun owned v => match v with
    | .none => .ok .unit
    | .map [] => if owned then .ok .unit else badContent "unit"
    | _ => badContent "unit"

/-- `Option<T>`: /repo/src/model/de.rs:144-152. -/
def option (r : Reader) : Reader where
  direct := fun v => match v with
    | .none => .ok .none
    | v => r.direct v >>= fun d => .ok (.some d)
  buffered := fun owned v => match v with
    | .none => .ok .none
    | v => r.buffered owned v >>= fun d => .ok (.some d)

/-- A newtype struct: /repo/src/model/de.rs:175-184. -/
def newtype (r : Reader) : Reader where
  direct := fun v => r.direct v >>= fun d => .ok (.newtypeStruct d)
  buffered := fun owned v => r.buffered owned v >>= fun d => .ok (.newtypeStruct d)

/-- `Vec<T>`: /repo/src/model/de.rs:186-194. -/
def vec (r : Reader) : Reader where
  direct := fun v => match v with
    | .array xs => deVecLoop r.direct [] xs >>= fun ds => .ok (.seq ds)
    | v => .err (cannot v "Array")
  buffered := fun owned v => match v with
    | .array xs => deVecLoop (r.buffered owned) [] xs >>= fun ds => .ok (.seq ds)
    | _ => badContent "a sequence"

/-- `HashMap<String, T>`: /repo/src/model/de.rs:215-223. -/
def map (r : Reader) : Reader where
  direct := fun v => match v with
    | .map m => deMapLoop .string r.direct [] m >>= fun es => .ok (.map (es.map fun e => (e.1.toData, e.2)))
    | v => .err (cannot v "Map")
  buffered := fun owned v => match v with
    | .map m => deMapLoop .string (r.buffered owned) [] m >>= fun es => .ok (.map (es.map fun e => (e.1.toData, e.2)))
    | _ => badContent "a map"

end Reader

/-- Elements of a sequence in a buffer read by a visitor that takes a fixed number of them; left-over elements are an error (`SeqDeserializer::end`).
Needed for /repo/src/model/de.rs:12-28. -/
def bufTuple (decs : List Decoder) (xs : List Value) : Outcome ModelError (List Data) :=
  deTupleLoop 0 [] decs xs >>= fun ds =>
    if xs.length ≤ decs.length then .ok ds else .err (.deserializationError "invalid length")

/-- A field of a struct: its name, its type, and what it gets when absent. Needed for /repo/src/model/de.rs:225-235. -/
structure RField where
  name : String
  reader : Reader
  missing : Outcome ModelError Data

/-- The struct's fields, reading from a `Value`. Needed for /repo/src/model/de.rs:225-235. -/
def RField.directDec (f : RField) : FieldDec := ⟨f.name, f.reader.direct, f.missing⟩
/-- The struct's fields, reading from a buffer. Needed for /repo/src/model/de.rs:225-235. -/
def RField.bufferedDec (owned : Bool) (f : RField) : FieldDec := ⟨f.name, f.reader.buffered owned, f.missing⟩

/-- The fields of a struct (or struct variant) read from a buffer: from a map as usual, from a sequence in order. Needed for /repo/src/model/de.rs:225-235. -/
def bufFields (owned : Bool) (fs : List RField) (v : Value) : Outcome ModelError (List (String × Data)) :=
  match v with
  | .map m => deStructLoop (fs.map (RField.bufferedDec owned)) [] m >>= fun acc => deStructFinish acc (fs.map (RField.bufferedDec owned))
  | .array xs => bufTuple (fs.map fun f => f.reader.buffered owned) xs >>= fun ds => .ok ((fs.map RField.name).zip ds)
  | _ => .err (.deserializationError "invalid content, expected a struct")

/-- A derived struct without attributes: /repo/src/model/de.rs:225-235. -/
def Reader.struct (fs : List RField) : Reader where
  direct := deStruct (fs.map RField.directDec)
  buffered := fun owned v => bufFields owned fs v >>= fun ds => .ok (.struct ds)

/-- The shapes of an enum's variants. Needed for /repo/src/model/de.rs:237-247. -/
inductive Shape where
  | unit
  | newtype (r : Reader)
  | tuple (rs : List Reader)
  | struct (fs : List RField)

/-- A variant. Needed for /repo/src/model/de.rs:237-247. -/
structure Variant where
  name : String
  shape : Shape

/-- The derived `__Field` visitor's `visit_str` for variants. Needed for /repo/src/model/de.rs:237-254. -/
def findVariant (vs : List Variant) (name : String) : Outcome ModelError Variant :=
  match vs.find? (fun v => v.name == name) with
  | some v => .ok v
  | none => .err (.deserializationError ("unknown variant `" ++ name ++ "`"))

/-- The identifier of a variant in a buffer (`deserialize_identifier`): a string, or a `u64` index. Needed for /repo/src/model/de.rs:12-28. -/
def contentVariant (vs : List Variant) (v : Value) : Outcome ModelError Variant :=
  match v with
  | .string s => findVariant vs s
  | .uInteger n => match vs[n.1.toNat]? with
    | some v => .ok v
    | none => .err (.deserializationError "invalid variant index")
  | _ => .err (.deserializationError "invalid content, expected variant identifier")

/-- A (default, externally tagged) enum. From a `Value`: `unimplemented!()`, /repo/src/model/de.rs:237-247. From a buffer: the name of a unit variant, or a
map with one entry. -/
def Reader.enum (vs : List Variant) : Reader where
  direct := fun _ => .panic
  buffered := fun owned v => match v with
    | .string s => findVariant vs s >>= fun va => match va.shape with
      | .unit => .ok (.unitVariant va.name)
      | _ => badContent "unit variant"
    | .map [(k, x)] => findVariant vs k >>= fun va => match va.shape with
      | .unit => Reader.unit.buffered owned x >>= fun _ => .ok (.unitVariant va.name)
      | .newtype r => r.buffered owned x >>= fun d => .ok (.newtypeVariant va.name d)
      | .tuple rs => match x with
        | .array xs => bufTuple (rs.map fun r => r.buffered owned) xs >>= fun ds => .ok (.tupleVariant va.name ds)
        | _ => badContent "tuple variant"
      | .struct fs => bufFields owned fs x >>= fun ds => .ok (.structVariant va.name ds)
    | _ => badContent "string or map with a single key"

/-- One variant of an untagged enum, tried on the borrowed buffer. Needed for /repo/src/model/de.rs:12-28. -/
def tryVariant (va : Variant) (v : Value) : Outcome ModelError Data :=
  match va.shape with
  | .unit => match v with
    | .none => .ok (.unitVariant va.name)
    | _ => badContent "unit"
  | .newtype r => r.buffered false v >>= fun d => .ok (.newtypeVariant va.name d)
  | .tuple rs => match v with
    | .array xs => bufTuple (rs.map fun r => r.buffered false) xs >>= fun ds => .ok (.tupleVariant va.name ds)
    | _ => badContent "tuple variant"
  | .struct fs => bufFields false fs v >>= fun ds => .ok (.structVariant va.name ds)

/-- The variants of an untagged enum, one after the other, until one reads. Needed for /repo/src/model/de.rs:12-28. -/
def tryVariants : List Variant → Value → Outcome ModelError Data
  | [], _ => .err (.deserializationError "data did not match any variant of untagged enum")
  | va :: r, v => match tryVariant va v with
    | .ok d => .ok d
    | .err _ => tryVariants r v
    | .panic => .panic

/-- `#[serde(untagged)] enum`: everything is buffered (/repo/src/model/de.rs:12-28), then the variants are tried in order. -/
def Reader.untagged (vs : List Variant) : Reader where
  direct := fun v => buffer v >>= tryVariants vs
  buffered := fun _ v => tryVariants vs v

/-- The content of an internally tagged enum's variant, from the owned rest of the buffer. (Tuple variants do not compile.) Needed for /repo/src/model/de.rs:12-28. -/
def taggedVariant (va : Variant) (rest : Value) : Outcome ModelError Data :=
  match va.shape with
  | .unit => .ok (.unitVariant va.name)
  | .newtype r => r.buffered true rest >>= fun d => .ok (.newtypeVariant va.name d)
  | .tuple _ => .err (.deserializationError "not compiled")
  | .struct fs => bufFields true fs rest >>= fun ds => .ok (.structVariant va.name ds)

/-- `TaggedContentVisitor::visit_map`: the tag's value is read as a variant's name, every other value is buffered.
Drives /repo/src/model/de.rs:309-331. -/
def taggedLoop (tag : String) (ident : Value → Outcome ModelError Variant) (store : Value → Outcome ModelError Value)
    (found : Option Variant) (rest : List (String × Value)) : List (String × Value) → Outcome ModelError (Option Variant × List (String × Value))
  | [] => .ok (found, rest)
  | (k, x) :: r =>
    if k = tag then
      if found.isSome then .err (.deserializationError ("duplicate field `" ++ tag ++ "`"))
      else ident x >>= fun va => taggedLoop tag ident store (some va) rest r
    else store x >>= fun x => taggedLoop tag ident store found (rest ++ [(k, x)]) r

/-- `deserialize_any` with `TaggedContentVisitor`, then the variant. Drives /repo/src/model/de.rs:12-28. -/
def readTagged (tag : String) (ident : Value → Outcome ModelError Variant) (store : Value → Outcome ModelError Value) (v : Value) :
    Outcome ModelError Data :=
  match v with
  | .map m => taggedLoop tag ident store none [] m >>= fun p => match p.1 with
    | some va => taggedVariant va (.map p.2)
    | none => .err (.deserializationError ("missing field `" ++ tag ++ "`"))
  | .array (x :: xs) => ident x >>= fun va => store (.array xs) >>= fun rest => taggedVariant va rest
  | .array [] => .err (.deserializationError ("missing field `" ++ tag ++ "`"))
  | _ => .err (.deserializationError "invalid type, expected internally tagged enum")

/-- `#[serde(tag = "…")] enum`: /repo/src/model/de.rs:12-28; the tag's value goes through `deserialize_identifier` (249-254), which makes a text of it. -/
def Reader.tagged (tag : String) (vs : List Variant) : Reader where
  direct := readTagged tag (fun x => Outcome.ofExcept (x.tryInto .string) >>= findVariant vs) buffer
  buffered := fun _ => readTagged tag (contentVariant vs) .ok

/-- The loop of the derived visitor of a struct with `#[serde(flatten)]` fields: own fields are read as they come, everything else is buffered.
Drives /repo/src/model/de.rs:309-331. -/
def flattenLoop (fds : List FieldDec) (store : Value → Outcome ModelError Value) (acc : List (String × Data)) (rest : List (String × Value)) :
    List (String × Value) → Outcome ModelError (List (String × Data) × List (String × Value))
  | [] => .ok (acc, rest)
  | (k, v) :: r =>
    match fds.find? (fun fd => fd.name == k) with
    | some fd =>
      if (hmGet acc k).isSome then .err (.deserializationError ("duplicate field `" ++ k ++ "`"))
      else fd.dec v >>= fun d => flattenLoop fds store (hmInsert acc k d) rest r
    | none => store v >>= fun v => flattenLoop fds store acc (rest ++ [(k, v)]) r

/-- A flattened field: a struct, which takes its own keys out of the buffer, or a `HashMap<String, T>`, which sees all that is left.
Needed for /repo/src/model/de.rs:309-331. -/
inductive Part where
  | struct (fs : List RField)
  | rest (r : Reader)

/-- `FlatMapDeserializer` for the flattened fields, in order: a struct owns the entries it takes, a map borrows those it sees. Needed for /repo/src/model/de.rs:309-331. -/
def flattenParts (rest : List (String × Value)) : List (String × Part) → Outcome ModelError (List (String × Data))
  | [] => .ok []
  | (name, .struct fs) :: r =>
    let own := rest.filter fun e => fs.any fun f => f.name == e.1
    (deStructLoop (fs.map (RField.bufferedDec true)) [] own >>= fun acc => deStructFinish acc (fs.map (RField.bufferedDec true))) >>= fun ds =>
      flattenParts (rest.filter fun e => !(fs.any fun f => f.name == e.1)) r >>= fun ps => .ok ((name, .struct ds) :: ps)
  | (name, .rest rd) :: r =>
    (Reader.map rd).buffered false (.map rest) >>= fun d => flattenParts rest r >>= fun ps => .ok ((name, d) :: ps)

/-- A struct with `#[serde(flatten)]` fields; /repo/src/model/de.rs:215-223 `deserialize_map`. The result lists the own fields first. -/
def readFlatten (fds : List FieldDec) (store : Value → Outcome ModelError Value) (parts : List (String × Part)) (m : List (String × Value)) :
    Outcome ModelError Data :=
  flattenLoop fds store [] [] m >>= fun p =>
    deStructFinish p.1 fds >>= fun ds => flattenParts p.2 parts >>= fun ps => .ok (.struct (ds ++ ps))

/-- The same as a type. Needed for /repo/src/model/de.rs:215-223. -/
def Reader.flatten (fs : List RField) (parts : List (String × Part)) : Reader where
  direct := fun v => match v with
    | .map m => readFlatten (fs.map RField.directDec) buffer parts m
    | v => .err (cannot v "Map")
  buffered := fun owned v => match v with
    | .map m => readFlatten (fs.map (RField.bufferedDec owned)) .ok parts m
    | _ => badContent "a map"

end Verif
