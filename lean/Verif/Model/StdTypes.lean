import Verif.Model.Visitor
/-!
# Types of the standard library

How serde's `Deserialize` implementations for types of the standard library that configurations often hold drive /repo/src/model/de.rs.
(`Box`, `Rc`, `Arc`, `Cow`, `Cell`, `RefCell`, `Mutex`, `Wrapping` read their content; arrays are tuples; `BTreeMap` is `HashMap`.)
-/
namespace Verif

/-- `HashSet<T>`, `BTreeSet<T>`: the visitor inserts each element (`same` is the element type's `Eq`; an element that is there already is kept).
Drives /repo/src/model/de.rs:186-194, 279-287. -/
def setLoop (same : Data → Data → Bool) (dec : Decoder) (acc : List Data) : List Value → Outcome ModelError (List Data)
  | [] => .ok acc
  | x :: r => dec x >>= fun d => setLoop same dec (if acc.any (same d) then acc else acc ++ [d]) r

/-- The visitor of sets. Needed for /repo/src/model/de.rs:186-194. -/
def setVisitor (same : Data → Data → Bool) (dec : Decoder) : Visitor Data :=
  { Visitor.refusing "a sequence" fun _ => invalidType "a sequence" with seq := fun xs => setLoop same dec [] xs >>= fun ds => .ok (.seq ds) }

/-- `HashSet<T>::deserialize`: `deserialize_seq`, /repo/src/model/de.rs:186-194. -/
def deSet (same : Data → Data → Bool) (dec : Decoder) : Decoder := fun v => Method.seq.on (setVisitor same dec) v

/-- `NonZeroU8` …: the integer, refused if it is zero. Drives /repo/src/model/de.rs:37-91. -/
def deNonZero (t : IntTy) : Decoder := fun v =>
  (Method.int t).on (intVisitor t) v >>= fun d => match d with
    | .int s n => if n.1 = 0 then .err (.deserializationError "invalid value: integer `0`, expected a nonzero integer") else .ok (.int s n)
    | d => .ok d

/-- `PathBuf`: `deserialize_string`, /repo/src/model/de.rs:123-128. -/
def dePath : Decoder := fun v => Method.string.on stringVisitor v

/-- `IpAddr`, `SocketAddr`, …: such types take `deserialize_str` (the deserializer is human readable, serde's default) and parse the text with `FromStr`.
Drives /repo/src/model/de.rs:115-121. -/
def deParsed (parse : String → Option Data) : Decoder := fun v =>
  Method.str.on (Visitor.refusing "a parsable text" fun s => match parse s with
    | some d => .ok d
    | none => .err (.deserializationError "invalid syntax")) v

/-- The fields of `Duration`. Needed for /repo/src/model/de.rs:225-235. -/
def durationFields : List AttrField :=
  [⟨"secs", [], false, fun v => (Method.int .u64).on (intVisitor .u64) v, .err (.deserializationError "missing field `secs`")⟩,
   ⟨"nanos", [], false, fun v => (Method.int .u32).on (intVisitor .u32) v, .err (.deserializationError "missing field `nanos`")⟩]

/-- `Duration::new` after the overflow check: whole seconds in the nanoseconds are carried over. Needed for /repo/src/model/de.rs:225-235. -/
def durationNew (secs : IntOf .u64) (nanos : IntOf .u32) : Outcome ModelError Data :=
  match IntTy.u64.tryFrom (secs.1 + nanos.1 / 1000000000), IntTy.u32.tryFrom (nanos.1 % 1000000000) with
  | some s, some n => .ok (.struct [("secs", .int .u64 s), ("nanos", .int .u32 n)])
  | _, _ => .err (.deserializationError "overflow deserializing Duration")

/-- `Duration`: `deserialize_struct` with two fields and unknown ones denied. Drives /repo/src/model/de.rs:225-235. -/
def deDuration : Decoder := fun v =>
  deAttrs true durationFields v >>= fun d => match d with
    | .struct [(_, .int .u64 s), (_, .int .u32 n)] => durationNew s n
    | _ => .panic

/-- `Range<T>` and `RangeInclusive<T>`. Drives /repo/src/model/de.rs:225-235. -/
def deRange (dec : Decoder) : Decoder := fun v =>
  deAttrs true [⟨"start", [], false, dec, .err (.deserializationError "missing field `start`")⟩,
    ⟨"end", [], false, dec, .err (.deserializationError "missing field `end`")⟩] v

/-- `Result<T, E>`, `Bound<T>`, `OsString`: `deserialize_enum`, /repo/src/model/de.rs:237-247. -/
def deStdEnum (name : String) (variants : List String) (vis : Visitor Data) : Decoder := fun v => (Method.enum name variants).on vis v

/-- `CString`: `deserialize_byte_buf`, /repo/src/model/de.rs:137-142. -/
def deCString (vis : Visitor Data) : Decoder := fun v => Method.byteBuf.on vis v

/-- `&'de str`: `deserialize_str` with a visitor that takes only texts borrowed from the input (`visit_borrowed_str`), which
/repo/src/model/de.rs:115-121 does not offer. -/
def deBorrowedStr : Decoder := fun v => Method.str.on (Visitor.refusing "a borrowed string" fun _ => invalidType "a borrowed string") v

end Verif
