import Verif.Model.Buffer
/-!
# The deserializer, method by method, for any visitor

/repo/src/model/de.rs:9-262 `impl Deserializer for Value`: every `deserialize_*` method with an arbitrary visitor, and the visitors that the types of
`Ty` bring. The deserializers of serde's buffer (Model/Buffer.lean) for the same visitors.
-/
namespace Verif

/-- A visitor: what each of its methods returns. The accessors given to `visit_seq` and `visit_map` are represented by what they hold
(/repo/src/model/de.rs:264-331; their protocol is in Model/Protocol.lean), the deserializer given to `visit_some` and `visit_newtype_struct` by the `Value` it is.
(`visit_bytes`, `visit_byte_buf` and `visit_enum` are never called by /repo/src/model/de.rs.) -/
structure Visitor (α : Type) where
  expecting : String
  bool : Bool → Outcome ModelError α
  int : (t : IntTy) → IntOf t → Outcome ModelError α
  f32 : F32 → Outcome ModelError α
  f64 : F64 → Outcome ModelError α
  char : Char → Outcome ModelError α
  str : String → Outcome ModelError α
  string : String → Outcome ModelError α
  unit : Outcome ModelError α
  none : Outcome ModelError α
  some : Value → Outcome ModelError α
  newtype : Value → Outcome ModelError α
  seq : List Value → Outcome ModelError α
  map : List (String × Value) → Outcome ModelError α

/-- serde's `invalid_type` (abbreviated). Needed for /repo/src/model/errors.rs:60-74. -/
def invalidType {α : Type} (expecting : String) : Outcome ModelError α := .err (.deserializationError ("invalid content, expected " ++ expecting))

/-- A visitor with serde's default methods: `visit_i8` … forward to `visit_i64` and `visit_u64`, `visit_f32` to `visit_f64`, `visit_char` and
`visit_string` to `visit_str`, the others refuse. (The forwarding of the integers is written out in the visitors that use it.)
Needed for /repo/src/model/de.rs:12-261. -/
def Visitor.refusing {α : Type} (expecting : String) (str : String → Outcome ModelError α) : Visitor α where
  expecting := expecting
  bool := fun _ => invalidType expecting
  int := fun _ _ => invalidType expecting
  f32 := fun _ => invalidType expecting
  f64 := fun _ => invalidType expecting
  char := fun c => str (String.ofList [c])
  str := str
  string := str
  unit := invalidType expecting
  none := invalidType expecting
  some := fun _ => invalidType expecting
  newtype := fun _ => invalidType expecting
  seq := fun _ => invalidType expecting
  map := fun _ => invalidType expecting

/-! ## /repo/src/model/de.rs -/

section
variable {α : Type} (vis : Visitor α) (v : Value)

/-- /repo/src/model/de.rs:12-28 `deserialize_any`. -/
def deserializeAny : Outcome ModelError α :=
  match v with
  | .none => vis.unit
  | .boolean b => vis.bool b
  | .integer n => vis.int .i64 n
  | .longInteger n => vis.int .i128 n
  | .uInteger n => vis.int .u64 n
  | .uLongInteger n => vis.int .u128 n
  | .float x => vis.f64 x
  | .string s => vis.str s
  | .array xs => vis.seq xs
  | .map m => vis.map m
/-- /repo/src/model/de.rs:30-35 `deserialize_bool`. -/
def deserializeBool : Outcome ModelError α := Outcome.ofExcept (v.tryInto .bool) >>= vis.bool
/-- /repo/src/model/de.rs:37-91 `deserialize_i8` … `deserialize_u64`; `deserialize_i128` and `deserialize_u128` are serde's defaults, which fail. -/
def deserializeInt (t : IntTy) : Outcome ModelError α :=
  match t with
  | .i128 => .err (.deserializationError "i128 is not supported")
  | .u128 => .err (.deserializationError "u128 is not supported")
  | t => Outcome.ofExcept (v.tryInto (.int t)) >>= vis.int t
/-- /repo/src/model/de.rs:93-99 `deserialize_f32`. -/
def deserializeF32 : Outcome ModelError α := Outcome.ofExcept (v.tryInto .f64) >>= fun x => vis.f32 (F32.ofF64 x)
/-- /repo/src/model/de.rs:101-106 `deserialize_f64`. -/
def deserializeF64 : Outcome ModelError α := Outcome.ofExcept (v.tryInto .f64) >>= vis.f64
/-- /repo/src/model/de.rs:108-113 `deserialize_char`. -/
def deserializeChar : Outcome ModelError α := Outcome.ofExcept (v.tryInto .char) >>= vis.char
/-- /repo/src/model/de.rs:115-121 `deserialize_str`. -/
def deserializeStr : Outcome ModelError α := Outcome.ofExcept (v.tryInto .string) >>= vis.str
/-- /repo/src/model/de.rs:123-128 `deserialize_string`. -/
def deserializeString : Outcome ModelError α := Outcome.ofExcept (v.tryInto .string) >>= vis.string
/-- /repo/src/model/de.rs:130-135 `deserialize_bytes`. -/
def deserializeBytes (_vis : Visitor α) (_v : Value) : Outcome ModelError α := .panic
/-- /repo/src/model/de.rs:137-142 `deserialize_byte_buf`. -/
def deserializeByteBuf (_vis : Visitor α) (_v : Value) : Outcome ModelError α := .panic
/-- /repo/src/model/de.rs:144-152 `deserialize_option`. -/
def deserializeOption : Outcome ModelError α :=
  match v with
  | .none => vis.none
  | v => vis.some v
/-- /repo/src/model/de.rs:154-162 `deserialize_unit`. -/
def deserializeUnit : Outcome ModelError α :=
  match v with
  | .none => vis.unit
  | v => .err (cannot v "None")
/-- /repo/src/model/de.rs:164-173 `deserialize_unit_struct`. -/
def deserializeUnitStruct (_name : String) : Outcome ModelError α := deserializeUnit vis v
/-- /repo/src/model/de.rs:175-184 `deserialize_newtype_struct`. -/
def deserializeNewtypeStruct (_name : String) : Outcome ModelError α := vis.newtype v
/-- /repo/src/model/de.rs:186-194 `deserialize_seq`. -/
def deserializeSeq : Outcome ModelError α :=
  match v with
  | .array xs => vis.seq xs
  | v => .err (cannot v "Array")
/-- /repo/src/model/de.rs:196-201 `deserialize_tuple`. -/
def deserializeTuple (_len : Nat) : Outcome ModelError α := deserializeSeq vis v
/-- /repo/src/model/de.rs:203-213 `deserialize_tuple_struct`. -/
def deserializeTupleStruct (_name : String) (_len : Nat) : Outcome ModelError α := deserializeSeq vis v
/-- /repo/src/model/de.rs:215-223 `deserialize_map`. -/
def deserializeMap : Outcome ModelError α :=
  match v with
  | .map m => vis.map m
  | v => .err (cannot v "Map")
/-- /repo/src/model/de.rs:225-235 `deserialize_struct`. -/
def deserializeStruct (_name : String) (_fields : List String) : Outcome ModelError α := deserializeMap vis v
/-- /repo/src/model/de.rs:237-247 `deserialize_enum`. -/
def deserializeEnum (_name : String) (_variants : List String) (_vis : Visitor α) (_v : Value) : Outcome ModelError α := .panic
/-- /repo/src/model/de.rs:249-254 `deserialize_identifier`. -/
def deserializeIdentifier : Outcome ModelError α := deserializeStr vis v
/-- /repo/src/model/de.rs:256-261 `deserialize_ignored_any`. -/
def deserializeIgnoredAny : Outcome ModelError α := deserializeAny vis v
end

/-- The methods of the `Deserializer` trait, with their arguments. Needed for /repo/src/model/de.rs:9-262. -/
inductive Method where
  | any | bool | int (t : IntTy) | f32 | f64 | char | str | string | bytes | byteBuf | option | unit | unitStruct (name : String)
  | newtypeStruct (name : String) | seq | tuple (len : Nat) | tupleStruct (name : String) (len : Nat) | map
  | struct (name : String) (fields : List String) | enum (name : String) (variants : List String) | identifier | ignoredAny

/-- A call of the method. /repo/src/model/de.rs:9-262. -/
def Method.on {α : Type} : Method → Visitor α → Value → Outcome ModelError α
  | .any => deserializeAny
  | .bool => deserializeBool
  | .int t => fun vis v => deserializeInt vis v t
  | .f32 => deserializeF32
  | .f64 => deserializeF64
  | .char => deserializeChar
  | .str => deserializeStr
  | .string => deserializeString
  | .bytes => deserializeBytes
  | .byteBuf => deserializeByteBuf
  | .option => deserializeOption
  | .unit => deserializeUnit
  | .unitStruct name => fun vis v => deserializeUnitStruct vis v name
  | .newtypeStruct name => fun vis v => deserializeNewtypeStruct vis v name
  | .seq => deserializeSeq
  | .tuple len => fun vis v => deserializeTuple vis v len
  | .tupleStruct name len => fun vis v => deserializeTupleStruct vis v name len
  | .map => deserializeMap
  | .struct name fields => fun vis v => deserializeStruct vis v name fields
  | .enum name variants => deserializeEnum name variants
  | .identifier => deserializeIdentifier
  | .ignoredAny => deserializeIgnoredAny

/-! ## The visitors of the types in `Ty` -/

/-- serde's visitor of `bool`. Needed for /repo/src/model/de.rs:30-35. -/
def boolVisitor : Visitor Data := { Visitor.refusing "a boolean" fun _ => invalidType "a boolean" with bool := fun b => .ok (.bool b) }
/-- serde's visitor of an integer type: any other integer in range, but 128-bit integers only if it has 128 bits itself. Needed for /repo/src/model/de.rs:37-91. -/
def intVisitor (t : IntTy) : Visitor Data :=
  { Visitor.refusing t.name fun _ => invalidType t.name with
    int := fun s n =>
      if (s = .i128 ∨ s = .u128) ∧ ¬ (t = .i128 ∨ t = .u128) then invalidType t.name
      else match t.tryFrom n.1 with
        | some n => .ok (.int t n)
        | none => invalidType t.name }
/-- serde's visitor of `f32`. Needed for /repo/src/model/de.rs:93-99. -/
def f32Visitor : Visitor Data :=
  { Visitor.refusing "f32" fun _ => invalidType "f32" with
    int := fun s n => if s = .i128 ∨ s = .u128 then invalidType "f32" else .ok (.f32 (Reader.f32OfInt n.1))
    f32 := fun x => .ok (.f32 x)
    f64 := fun x => .ok (.f32 (F32.ofF64 x)) }
/-- serde's visitor of `f64`. Needed for /repo/src/model/de.rs:101-106. -/
def f64Visitor : Visitor Data :=
  { Visitor.refusing "f64" fun _ => invalidType "f64" with
    int := fun s n => if s = .i128 ∨ s = .u128 then invalidType "f64" else .ok (.f64 (F64.ofInt n.1))
    f32 := fun x => .ok (.f64 (F64.ofF32 x))
    f64 := fun x => .ok (.f64 x) }
/-- serde's visitor of `char`. Needed for /repo/src/model/de.rs:108-113. -/
def charVisitor : Visitor Data :=
  { Visitor.refusing "a character" fun s => match s.toList with
      | [c] => .ok (.char c)
      | _ => invalidType "a character" with
    char := fun c => .ok (.char c) }
/-- serde's visitor of `String`. Needed for /repo/src/model/de.rs:123-128. -/
def stringVisitor : Visitor Data := Visitor.refusing "a string" fun s => .ok (.str s)
/-- serde's visitor of `()`, and the derived one of a unit struct (with the given result). Needed for /repo/src/model/de.rs:154-173. -/
def unitVisitor (d : Data) : Visitor Data := { Visitor.refusing "unit" fun _ => invalidType "unit" with unit := .ok d }
/-- serde's visitor of `Option<T>`. Needed for /repo/src/model/de.rs:144-152. -/
def optionVisitor (dec : Decoder) : Visitor Data :=
  { Visitor.refusing "option" fun _ => invalidType "option" with
    unit := .ok .none
    none := .ok .none
    some := fun v => dec v >>= fun d => .ok (.some d) }
/-- The derived visitor of a newtype struct. (Its `visit_seq` takes one element.) Needed for /repo/src/model/de.rs:175-184. -/
def newtypeVisitor (dec : Decoder) : Visitor Data :=
  { Visitor.refusing "tuple struct" fun _ => invalidType "tuple struct" with
    newtype := fun v => dec v >>= fun d => .ok (.newtypeStruct d)
    seq := fun xs => deTupleLoop 0 [] [dec] xs >>= fun ds => match ds with
      | [d] => .ok (.newtypeStruct d)
      | _ => .panic }
/-- serde's visitor of `Vec<T>`. Needed for /repo/src/model/de.rs:186-194. -/
def vecVisitor (dec : Decoder) : Visitor Data :=
  { Visitor.refusing "a sequence" fun _ => invalidType "a sequence" with seq := fun xs => deVecLoop dec [] xs >>= fun ds => .ok (.seq ds) }
/-- serde's visitor of tuples, and the derived one of tuple structs (`mk` makes the result). Needed for /repo/src/model/de.rs:196-213. -/
def tupleVisitor (mk : List Data → Data) (decs : List Decoder) : Visitor Data :=
  { Visitor.refusing "a tuple" fun _ => invalidType "a tuple" with seq := fun xs => deTupleLoop 0 [] decs xs >>= fun ds => .ok (mk ds) }
/-- serde's visitor of `HashMap<K, T>`. Needed for /repo/src/model/de.rs:215-223. -/
def mapVisitor (kt : KeyTy) (dec : Decoder) : Visitor Data :=
  { Visitor.refusing "a map" fun _ => invalidType "a map" with
    map := fun m => deMapLoop kt dec [] m >>= fun es => .ok (.map (es.map fun e => (e.1.toData, e.2))) }
/-- The derived visitor of a struct: by name from a map, by position from a sequence. Needed for /repo/src/model/de.rs:225-235. -/
def structVisitor (fds : List FieldDec) : Visitor Data :=
  { Visitor.refusing "struct" fun _ => invalidType "struct" with
    seq := fun xs => deTupleLoop 0 [] (fds.map FieldDec.dec) xs >>= fun ds => .ok (.struct ((fds.map FieldDec.name).zip ds))
    map := fun m => deStructLoop fds [] m >>= fun acc => deStructFinish acc fds >>= fun ds => .ok (.struct ds) }
/-- /repo/src/model/visitor.rs:9-153 `ValueVisitor`, driven by /repo/src/model/de.rs. (`visit_newtype_struct` is serde's default, which refuses.) -/
def valueVisitor : Visitor Value :=
  { Visitor.refusing "a valid configuration value" fun s => .ok (.string s) with
    bool := fun b => .ok (.boolean b)                                            -- 16-20
    int := fun t => match t with                                                 -- 22-80
      | .i8 => fun n => .ok (.integer (widen .i64 (by decide) n))
      | .i16 => fun n => .ok (.integer (widen .i64 (by decide) n))
      | .i32 => fun n => .ok (.integer (widen .i64 (by decide) n))
      | .i64 => fun n => .ok (.integer n)
      | .i128 => fun n => .ok (.longInteger n)
      | .u8 => fun n => .ok (.uInteger (widen .u64 (by decide) n))
      | .u16 => fun n => .ok (.uInteger (widen .u64 (by decide) n))
      | .u32 => fun n => .ok (.uInteger (widen .u64 (by decide) n))
      | .u64 => fun n => .ok (.uInteger n)
      | .u128 => fun n => .ok (.uLongInteger n)
    f64 := fun x => .ok (.float x)                                               -- 82-86
    f32 := fun x => .ok (.float (F64.ofF32 x))                                   -- 112-116
    none := .ok .none                                                            -- 100-104
    unit := .ok .none                                                            -- 118-122
    some := fun v => deValue v                                                   -- 124-128
    seq := fun xs => deValueSeq [] xs                                            -- 130-140
    map := fun m => deValueMap [] m }                                            -- 142-152
/-- serde's `IgnoredAny`. Needed for /repo/src/model/de.rs:256-261. -/
def ignoredVisitor : Visitor Unit :=
  { expecting := "anything at all"
    bool := fun _ => .ok ()
    int := fun _ _ => .ok ()
    f32 := fun _ => .ok ()
    f64 := fun _ => .ok ()
    char := fun _ => .ok ()
    str := fun _ => .ok ()
    string := fun _ => .ok ()
    unit := .ok ()
    none := .ok ()
    some := fun v => deIgnored v
    newtype := fun v => deIgnored v
    seq := fun xs => deIgnoredSeq xs
    map := fun m => deIgnoredMap m }

/-- The visitor followed by a function of its result. Needed for /repo/src/model/visitor.rs:155-161. -/
def Visitor.andThen {α β : Type} (vis : Visitor α) (f : α → Outcome ModelError β) : Visitor β where
  expecting := vis.expecting
  bool := fun b => vis.bool b >>= f
  int := fun t n => vis.int t n >>= f
  f32 := fun x => vis.f32 x >>= f
  f64 := fun x => vis.f64 x >>= f
  char := fun c => vis.char c >>= f
  str := fun s => vis.str s >>= f
  string := fun s => vis.string s >>= f
  unit := vis.unit >>= f
  none := vis.none >>= f
  some := fun v => vis.some v >>= f
  newtype := fun v => vis.newtype v >>= f
  seq := fun xs => vis.seq xs >>= f
  map := fun m => vis.map m >>= f

/-- The method that the `Deserialize` implementation of the type calls. (The names and field lists given are irrelevant, see C92_hints.)
Needed for /repo/src/model/de.rs:333-340. -/
def Ty.method : Ty → Method
  | .bool => .bool
  | .int t => .int t
  | .f32 => .f32
  | .f64 => .f64
  | .char => .char
  | .string => .string
  | .bytes => .bytes
  | .option _ => .option
  | .unit => .unit
  | .unitStruct => .unitStruct ""
  | .newtype _ => .newtypeStruct ""
  | .seq _ => .seq
  | .tuple ts => .tuple ts.length
  | .tupleStruct ts => .tupleStruct "" ts.length
  | .map _ _ => .map
  | .struct fs => .struct "" (fs.map Prod.fst)
  | .enum => .enum "" []
  | .value => .any
  | .ref _ => .struct "" []

/-- The visitor it calls the method with. Needed for /repo/src/model/de.rs:333-340. -/
def Ty.visitor (refs : Nat → Decoder) : Ty → Visitor Data
  | .bool => boolVisitor
  | .int t => intVisitor t
  | .f32 => f32Visitor
  | .f64 => f64Visitor
  | .char => charVisitor
  | .string => stringVisitor
  | .bytes => Visitor.refusing "a byte array" fun _ => invalidType "a byte array"
  | .option t => optionVisitor fun v => de refs t v
  | .unit => unitVisitor .unit
  | .unitStruct => unitVisitor .unitStruct
  | .newtype t => newtypeVisitor fun v => de refs t v
  | .seq t => vecVisitor fun v => de refs t v
  | .tuple ts => tupleVisitor .tuple (decoders refs ts)
  | .tupleStruct ts => tupleVisitor .tupleStruct (decoders refs ts)
  | .map kt t => mapVisitor kt fun v => de refs t v
  | .struct fs => structVisitor (fieldDecoders refs fs)
  | .enum => Visitor.refusing "enum" fun _ => invalidType "enum"
  | .value => valueVisitor.andThen fun w => .ok w.toData
  | .ref _ => Visitor.refusing "a struct" fun _ => invalidType "a struct"

/-! ## serde's buffer with the same visitors

`ContentDeserializer` (owned) and `ContentRefDeserializer` (borrowed), as far as the readers of Model/Buffer.lean use them. -/

section
variable {α : Type} (vis : Visitor α) (v : Value)
/-- `deserialize_bool`. Needed for /repo/src/model/de.rs:12-28. -/
def contentBool : Outcome ModelError α := match v with
  | .boolean b => vis.bool b
  | _ => invalidType vis.expecting
/-- `deserialize_i8` … `deserialize_u64`; the 128-bit ones are serde's defaults. Needed for /repo/src/model/de.rs:12-28. -/
def contentInt (t : IntTy) : Outcome ModelError α :=
  match t with
  | .i128 => invalidType "i128 is not supported"
  | .u128 => invalidType "u128 is not supported"
  | _ => match v with
    | .integer n => vis.int .i64 n
    | .uInteger n => vis.int .u64 n
    | _ => invalidType vis.expecting
/-- `deserialize_f32`, `deserialize_f64`. Needed for /repo/src/model/de.rs:12-28. -/
def contentFloat : Outcome ModelError α := match v with
  | .float x => vis.f64 x
  | .integer n => vis.int .i64 n
  | .uInteger n => vis.int .u64 n
  | _ => invalidType vis.expecting
/-- `deserialize_char`, `deserialize_string`. Needed for /repo/src/model/de.rs:12-28. -/
def contentString (owned : Bool) : Outcome ModelError α := match v with
  | .string s => if owned then vis.string s else vis.str s
  | _ => invalidType vis.expecting
/-- `deserialize_unit`. Needed for /repo/src/model/de.rs:12-28. -/
def contentUnit (owned : Bool) : Outcome ModelError α := match v with
  | .none => vis.unit
  | .map [] => if owned then vis.unit else invalidType vis.expecting
  | _ => invalidType vis.expecting
/-- `deserialize_option`. Needed for /repo/src/model/de.rs:12-28. -/
def contentOption : Outcome ModelError α := match v with
  | .none => vis.unit
  | v => vis.some v
/-- `deserialize_newtype_struct`. Needed for /repo/src/model/de.rs:12-28. -/
def contentNewtype : Outcome ModelError α := vis.newtype v
/-- `deserialize_seq`, for a visitor that takes all elements. Needed for /repo/src/model/de.rs:12-28. -/
def contentSeq : Outcome ModelError α := match v with
  | .array xs => vis.seq xs
  | _ => invalidType vis.expecting
/-- `deserialize_map`, for a visitor that takes all entries. Needed for /repo/src/model/de.rs:12-28. -/
def contentMap : Outcome ModelError α := match v with
  | .map m => vis.map m
  | _ => invalidType vis.expecting
end

end Verif
