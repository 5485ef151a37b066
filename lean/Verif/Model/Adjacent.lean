import Verif.Model.Buffer
/-!
# Adjacently tagged enums

`#[serde(tag = "t", content = "c")] enum`: serde's derived visitor asks for a struct (/repo/src/model/de.rs:225-235), reads the tag's value with
`deserialize_enum` (`AdjacentlyTaggedEnumVariantSeed`, since serde 1.0.181), which de.rs:237-247 leaves `unimplemented!()`, and buffers the content if it
comes before the tag. (Written from serde 1.0.190 – 1.0.219; error texts are abbreviated.)
-/
namespace Verif

/-- A variant, and what its content is when absent (`missing_field`; used by newtype variants only). Needed for /repo/src/model/de.rs:225-247. -/
structure AVariant where
  variant : Variant
  absent : Outcome ModelError Data

/-- The content of the variant, read from a buffer. Needed for /repo/src/model/de.rs:12-28. -/
def adjContent (owned : Bool) (va : Variant) (v : Value) : Outcome ModelError Data :=
  match va.shape with
  | .unit => match v with
    | .none => .ok (.unitVariant va.name)
    | _ => badContent "unit"
  | .newtype r => r.buffered owned v >>= fun d => .ok (.newtypeVariant va.name d)
  | .tuple rs => match v with
    | .array xs => bufTuple (rs.map fun r => r.buffered owned) xs >>= fun ds => .ok (.tupleVariant va.name ds)
    | _ => badContent "tuple variant"
  | .struct fs => bufFields owned fs v >>= fun ds => .ok (.structVariant va.name ds)

/-- No content. Needed for /repo/src/model/de.rs:225-235. -/
def adjAbsent (content : String) (va : AVariant) : Outcome ModelError Data :=
  match va.variant.shape with
  | .unit => .ok (.unitVariant va.variant.name)
  | .newtype _ => va.absent >>= fun d => .ok (.newtypeVariant va.variant.name d)
  | _ => .err (.deserializationError ("missing field `" ++ content ++ "`"))

/-- What the visitor has seen so far. Needed for /repo/src/model/de.rs:309-331. -/
inductive AdjState where
  | start
  | tagged (va : AVariant)
  | held (content : Value)
  | done (d : Data)

/-- The derived visitor's `visit_map`: keys other than the two are skipped (or denied). `ident` reads the tag's value, `store` buffers a content that comes
first, `seed` reads a content that comes second, `skip` ignores a value. Drives /repo/src/model/de.rs:309-331. -/
def adjLoop (tag content : String) (deny : Bool) (ident : Value → Outcome ModelError AVariant) (store : Value → Outcome ModelError Value)
    (seed : AVariant → Decoder) (skip : Value → Outcome ModelError Unit) (st : AdjState) : List (String × Value) → Outcome ModelError Data
  | [] => match st with
    | .start => .err (.deserializationError ("missing field `" ++ tag ++ "`"))
    | .tagged va => adjAbsent content va
    | .held _ => .err (.deserializationError ("missing field `" ++ tag ++ "`"))
    | .done d => .ok d
  | (k, x) :: r =>
    if k = tag then
      match st with
      | .start => ident x >>= fun va => adjLoop tag content deny ident store seed skip (.tagged va) r
      | .held c => ident x >>= fun va => adjContent true va.variant c >>= fun d => adjLoop tag content deny ident store seed skip (.done d) r
      | .tagged _ => .err (.deserializationError ("duplicate field `" ++ tag ++ "`"))
      | .done _ => .err (.deserializationError ("duplicate field `" ++ tag ++ "`"))
    else if k = content then
      match st with
      | .start => store x >>= fun c => adjLoop tag content deny ident store seed skip (.held c) r
      | .tagged va => seed va x >>= fun d => adjLoop tag content deny ident store seed skip (.done d) r
      | .held _ => .err (.deserializationError ("duplicate field `" ++ content ++ "`"))
      | .done _ => .err (.deserializationError ("duplicate field `" ++ content ++ "`"))
    else if deny then .err (.deserializationError "invalid value: expected tag or content")
    else skip x >>= fun _ => adjLoop tag content deny ident store seed skip st r

/-- A variant by its name. Needed for /repo/src/model/de.rs:237-254. -/
def findAVariant (vs : List AVariant) (name : String) : Outcome ModelError AVariant :=
  match vs.find? (fun v => v.variant.name == name) with
  | some v => .ok v
  | none => .err (.deserializationError ("unknown variant `" ++ name ++ "`"))

/-- The tag's value in a buffer, read as a unit variant of an enum (`deserialize_enum`): its name, or a map with one entry, which is nothing.
Needed for /repo/src/model/de.rs:237-247. -/
def adjTag (owned : Bool) (vs : List AVariant) (x : Value) : Outcome ModelError AVariant :=
  match x with
  | .string s => findAVariant vs s
  | .map [(k, y)] => findAVariant vs k >>= fun va => Reader.unit.buffered owned y >>= fun _ => .ok va
  | _ => .err (.deserializationError "invalid content, expected string or map")

/-- The first element of a sequence in a buffer is read with `deserialize_identifier`: a name or an index. Needed for /repo/src/model/de.rs:12-28. -/
def adjIndex (vs : List AVariant) (x : Value) : Outcome ModelError AVariant :=
  match x with
  | .string s => findAVariant vs s
  | .uInteger n => match vs[n.1.toNat]? with
    | some v => .ok v
    | none => .err (.deserializationError "invalid variant index")
  | _ => .err (.deserializationError "invalid content, expected variant identifier")

/-- The enum as a type. From a `Value`: `deserialize_struct` (/repo/src/model/de.rs:225-235), and the tag's value goes to `deserialize_enum` (237-247), which panics (so
no content is ever read after the tag). From a buffer: a map, or a sequence of tag and content. -/
def Reader.adjacent (tag content : String) (deny : Bool) (vs : List AVariant) : Reader where
  direct := fun v => match v with
    | .map m => adjLoop tag content deny (fun _ => .panic) buffer (fun _ _ => .panic) deIgnored .start m
    | v => .err (cannot v "Map")
  buffered := fun owned v => match v with
    | .map m => adjLoop tag content deny (adjTag owned vs) .ok (fun va => adjContent owned va.variant) (fun _ => .ok ()) .start m
    | .array [] => .err (.deserializationError "invalid length 0")
    | .array [x] => adjIndex vs x >>= fun _ => .err (.deserializationError "invalid length 1")
    | .array (x :: y :: r) => adjIndex vs x >>= fun va => adjContent owned va.variant y >>= fun d =>
        if r.isEmpty then .ok d else .err (.deserializationError "invalid length")
    | _ => badContent "adjacently tagged enum"

end Verif
