import Verif.Model.Convert
/-!
# Serde: `Value::serialize` and `Value::deserialize`

Models /repo/src/model/ser.rs, de.rs, visitor.rs and the parts of serde they are driven by: the calls a
`Serialize` implementation makes on the serializer (`Data`), and the visitors of the standard and derived
`Deserialize` implementations (`Ty`, `de`). Serde itself is not in /repo; its documented behaviour is modelled.
-/
namespace Verif

/-! ## The serde data model -/

/-- One value of the serde data model: the tree of calls that a (standard or `#[derive]`d) `Serialize`
implementation makes on a `Serializer`; one constructor per `serialize_*` method of
/repo/src/model/ser.rs:67-227 (plus `serialize_i128`/`serialize_u128`, which ser.rs leaves at serde's default).
Struct and enum type names and variant indexes are ignored by ser.rs and omitted. -/
inductive Data where
  | bool (b : Bool)
  | int (t : IntTy) (n : IntOf t)
  | f32 (x : F32)
  | f64 (x : F64)
  | char (c : Char)
  | str (s : String)
  | bytes (bs : List (IntOf .u8))
  | none
  | some (d : Data)
  | unit
  | unitStruct
  | unitVariant (variant : String)
  | newtypeStruct (d : Data)
  | newtypeVariant (variant : String) (d : Data)
  | seq (ds : List Data)
  | tuple (ds : List Data)
  | tupleStruct (ds : List Data)
  | tupleVariant (variant : String) (ds : List Data)
  | map (es : List (Data × Data))
  | struct (fs : List (String × Data))
  | structVariant (variant : String) (fs : List (String × Data))

/-! ## Serialization -/

/-- `value.set(..)?`: /repo/src/model/ser.rs:177, 305, 347, 384, 390, 409. -/
def setQ (v : Value) (k : String) (x : Value) : Outcome ModelError Value :=
  match v.set k x with
  | (.ok (), v') => .ok v'
  | (.error e, _) => .err e

/-- `self.seq.push(elem)?`: /repo/src/model/ser.rs:253, 299. -/
def pushQ (v : Value) (x : Value) : Outcome ModelError Value :=
  match v.push x with
  | (.ok (), v') => .ok v'
  | (.error e, _) => .err e

/-- `value.push(..).unwrap()`: /repo/src/model/ser.rs:122. -/
def pushUnwrap (v : Value) (x : Value) : Outcome ModelError Value :=
  match v.push x with
  | (.ok (), v') => .ok v'
  | (.error _, _) => .panic

/-- The loop of /repo/src/model/ser.rs:121-123. -/
def serBytes (acc : Value) : List (IntOf .u8) → Outcome ModelError Value
  | [] => .ok acc
  | b :: r => pushUnwrap acc (.uInteger (widen .u64 (by decide) b)) >>= fun acc => serBytes acc r

/-- /repo/src/model/ser.rs:310-313 `struct ValueSerMap`. -/
structure SerMap where
  map : Value
  key : Option String

/-- /repo/src/model/ser.rs:315-322 `ValueSerMap::new`. -/
def SerMap.new : SerMap := ⟨Value.newMap, none⟩

/-- /repo/src/model/ser.rs:329-336 `serialize_key`, after the key itself was serialized to `key`. -/
def SerMap.putKey (st : SerMap) (key : Value) : Outcome ModelError SerMap :=
  Outcome.ofExcept (key.tryIntoMethod .string) >>= fun k => .ok { st with key := some k }

/-- /repo/src/model/ser.rs:342-345: `self.key.take().expect(..)`. -/
def SerMap.takeKey (st : SerMap) : Outcome ModelError (String × SerMap) :=
  match st.key with
  | some k => .ok (k, { st with key := none })
  | none => .panic

mutual
/-- `T::serialize(ValueSerializer)`: /repo/src/model/ser.rs:37-43 and 67-227, one line per `serialize_*` method. -/
def ser (d : Data) : Outcome ModelError Value :=
  match d with
  | .bool b => .ok (Value.ofBool b)
  | .int .i128 _ => .err (.serializationError "i128 is not supported")   -- serde's default method
  | .int .u128 _ => .err (.serializationError "u128 is not supported")   -- serde's default method
  | .int t n => .ok (Value.ofInt t n)
  | .f32 x => .ok (Value.ofF32 x)
  | .f64 x => .ok (Value.ofF64 x)
  | .char c => .ok (Value.ofString (String.ofList [c]))   -- `v.to_string()`
  | .str s => .ok (Value.ofString s)
  | .bytes bs => serBytes Value.newArray bs
  | .none => .ok .none
  | .some d => ser d
  | .unit => .ok .none
  | .unitStruct => .ok .none
  | .unitVariant variant => .ok (Value.ofString variant)
  | .newtypeStruct d => ser d
  | .newtypeVariant variant d => ser d >>= fun x => setQ Value.newMap variant x
  | .seq ds => serElems (Value.withArrayCapacity ds.length) ds
  | .tuple ds => serElems (Value.withArrayCapacity ds.length) ds
  | .tupleStruct ds => serElems (Value.withArrayCapacity ds.length) ds
  | .tupleVariant variant ds =>
    serElems (Value.withArrayCapacity ds.length) ds >>= fun seq => setQ Value.newMap variant seq
  | .map es => serEntries SerMap.new es >>= fun st => .ok st.map
  | .struct fs => serFields Value.newMap fs
  | .structVariant variant fs => serFields Value.newMap fs >>= fun m => setQ Value.newMap variant m
  termination_by structural d
/-- `serialize_element`/`serialize_field` for each element, then `end`: /repo/src/model/ser.rs:242-261, 294-307. -/
def serElems (acc : Value) (ds : List Data) : Outcome ModelError Value :=
  match ds with
  | [] => .ok acc
  | d :: r => ser d >>= fun elem => pushQ acc elem >>= fun acc => serElems acc r
  termination_by structural ds
/-- `serialize_entry` (serde's default: `serialize_key` then `serialize_value`) for each entry:
/repo/src/model/ser.rs:329-349. -/
def serEntries (st : SerMap) (es : List (Data × Data)) : Outcome ModelError SerMap :=
  match es with
  | [] => .ok st
  | e :: r => serEntry st e >>= fun st => serEntries st r
  termination_by structural es
/-- One entry: /repo/src/model/ser.rs:329-336 then 338-349. -/
def serEntry (st : SerMap) (e : Data × Data) : Outcome ModelError SerMap :=
  match e with
  | (k, v) =>
    ser k >>= fun key => st.putKey key >>= fun st =>
      st.takeKey >>= fun (key, st) => ser v >>= fun x => setQ st.map key x >>= fun m => .ok { st with map := m }
  termination_by structural e
/-- `serialize_field` for each field: /repo/src/model/ser.rs:375-386, 400-411. -/
def serFields (acc : Value) (fs : List (String × Data)) : Outcome ModelError Value :=
  match fs with
  | [] => .ok acc
  | f :: r => serField acc f >>= fun acc => serFields acc r
  termination_by structural fs
/-- One field: /repo/src/model/ser.rs:383-385, 408-410. -/
def serField (acc : Value) (f : String × Data) : Outcome ModelError Value :=
  match f with
  | (k, d) => ser d >>= fun x => setQ acc k x
  termination_by structural f
end

mutual
/-- /repo/src/model/ser.rs:5-35 `Serialize for Value`: the calls made on the serializer. -/
def Value.toData (v : Value) : Data :=
  match v with
  | .none => .none
  | .boolean b => .bool b
  | .integer n => .int .i64 n
  | .longInteger n => .int .i128 n
  | .uInteger n => .int .u64 n
  | .uLongInteger n => .int .u128 n
  | .float x => .f64 x
  | .string s => .str s
  | .array xs => .seq (toDataList xs)
  | .map m => .map (toDataEntries m)
  termination_by structural v
/-- /repo/src/model/ser.rs:19-25. -/
def toDataList (xs : List Value) : List Data :=
  match xs with
  | [] => []
  | x :: r => x.toData :: toDataList r
  termination_by structural xs
/-- /repo/src/model/ser.rs:26-32. -/
def toDataEntries (m : List (String × Value)) : List (Data × Data) :=
  match m with
  | [] => []
  | e :: r => toDataEntry e :: toDataEntries r
  termination_by structural m
/-- `map.serialize_entry(k, v)`: /repo/src/model/ser.rs:29. -/
def toDataEntry (e : String × Value) : Data × Data :=
  match e with
  | (k, v) => (.str k, v.toData)
  termination_by structural e
end

/-- /repo/src/model/ser.rs:37-43 `Value::serialize(value)` for a `Value`. -/
def Value.serializeValue (v : Value) : Outcome ModelError Value := ser v.toData

/-! ## Deserialization -/

/-- The key types of maps. Needed for /repo/src/model/de.rs:312-322. -/
inductive KeyTy where
  | bool | int (t : IntTy) | char | string
  deriving DecidableEq

/-- A map key of a Rust map. Needed for /repo/src/model/ser.rs:329-336. -/
inductive Key where
  | bool (b : Bool)
  | int (t : IntTy) (n : IntOf t)
  | char (c : Char)
  | str (s : String)
  deriving DecidableEq

/-- A key as serde data. Needed for /repo/src/model/ser.rs:329-336. -/
def Key.toData : Key → Data
  | .bool b => .bool b
  | .int t n => .int t n
  | .char c => .char c
  | .str s => .str s

/-- A universe of Rust types with their standard or derived `Deserialize` implementation. `ref n` is the `n`-th
struct of a family of possibly mutually recursive structs. (Not covered: borrowed types such as `&str`,
hand-written implementations; serde attributes are in Model/Attrs.lean; `enum` and `bytes` carry no
detail because de.rs panics on them before looking at it.) -/
inductive Ty where
  | bool
  | int (t : IntTy)
  | f32
  | f64
  | char
  | string
  | unit
  | unitStruct
  | value
  | bytes
  | enum
  | option (t : Ty)
  | newtype (t : Ty)
  | seq (t : Ty)
  | tuple (ts : List Ty)
  | tupleStruct (ts : List Ty)
  | map (k : KeyTy) (t : Ty)
  | struct (fs : List (String × Ty))
  | ref (n : Nat)

/-- `ModelError::deserialization(self.to_string(), to)`: /repo/src/model/errors.rs:38-40. -/
def cannot (v : Value) (target : String) : ModelError :=
  .deserializationError ("Can't deserialize " ++ v.display ++ " to " ++ target)

/-- `deserialize_i8` … `deserialize_u64`: /repo/src/model/de.rs:37-91, `visitor.visit_x(self.try_into()?)`; 128-bit
types are left at serde's default, which fails. -/
def deInt (t : IntTy) (v : Value) : Outcome ModelError (IntOf t) :=
  match t with
  | .i128 => .err (.deserializationError "i128 is not supported")
  | .u128 => .err (.deserializationError "u128 is not supported")
  | t => Outcome.ofExcept (v.tryInto (.int t))

/-- A map key type deserialized from `Value::String(key)`: /repo/src/model/de.rs:312-322 `next_key_seed`. -/
def deKey (kt : KeyTy) (k : String) : Outcome ModelError Key :=
  match kt with
  | .bool => Outcome.ofExcept ((Value.string k).tryInto .bool) >>= fun b => .ok (.bool b)
  | .int t => deInt t (.string k) >>= fun n => .ok (.int t n)
  | .char => Outcome.ofExcept ((Value.string k).tryInto .char) >>= fun c => .ok (.char c)
  | .string => Outcome.ofExcept ((Value.string k).tryInto .string) >>= fun s => .ok (.str s)

mutual
/-- `deserialize_any` (/repo/src/model/de.rs:12-28) with `ValueVisitor` (/repo/src/model/visitor.rs:9-153): the
`Deserialize` implementation of `Value` itself (visitor.rs:155-161). -/
def deValue (v : Value) : Outcome ModelError Value :=
  match v with
  | .none => .ok .none                                  -- visit_unit
  | .boolean b => .ok (.boolean b)
  | .integer n => .ok (.integer n)
  | .longInteger n => .ok (.longInteger n)
  | .uInteger n => .ok (.uInteger n)
  | .uLongInteger n => .ok (.uLongInteger n)
  | .float x => .ok (.float x)
  | .string s => .ok (.string s)
  | .array xs => deValueSeq [] xs
  | .map m => deValueMap [] m
  termination_by structural v
/-- `visit_seq`: /repo/src/model/visitor.rs:130-140, over `ValueSeq` (de.rs:264-287). -/
def deValueSeq (acc : List Value) (xs : List Value) : Outcome ModelError Value :=
  match xs with
  | [] => .ok (.array acc)
  | x :: r => deValue x >>= fun y => deValueSeq (acc ++ [y]) r
  termination_by structural xs
/-- `visit_map`: /repo/src/model/visitor.rs:142-152, over `ValueMap` (de.rs:297-331). -/
def deValueMap (acc : List (String × Value)) (m : List (String × Value)) : Outcome ModelError Value :=
  match m with
  | [] => .ok (.map acc)
  | e :: r => deValueEntry e >>= fun (k, y) => deValueMap (hmInsert acc k y) r
  termination_by structural m
/-- `next_entry::<String, Value>()`: `next_key_seed` (the key as `String` from `Value::String(key)`) then
`next_value_seed`: /repo/src/model/de.rs:312-330. -/
def deValueEntry (e : String × Value) : Outcome ModelError (String × Value) :=
  match e with
  | (k, v) => Outcome.ofExcept ((Value.string k).tryInto .string) >>= fun k => deValue v >>= fun y => .ok (k, y)
  termination_by structural e
end

mutual
/-- `IgnoredAny` through `deserialize_ignored_any` → `deserialize_any`: /repo/src/model/de.rs:256-261. -/
def deIgnored (v : Value) : Outcome ModelError Unit :=
  match v with
  | .array xs => deIgnoredSeq xs
  | .map m => deIgnoredMap m
  | _ => .ok ()
  termination_by structural v
/-- `IgnoredAny::visit_seq`. Needed for /repo/src/model/de.rs:256-261,276-287. -/
def deIgnoredSeq (xs : List Value) : Outcome ModelError Unit :=
  match xs with
  | [] => .ok ()
  | x :: r => deIgnored x >>= fun _ => deIgnoredSeq r
  termination_by structural xs
/-- `IgnoredAny::visit_map` (the key is a `Value::String`, which `IgnoredAny` accepts). Needed for /repo/src/model/de.rs:256-261,309-331. -/
def deIgnoredMap (m : List (String × Value)) : Outcome ModelError Unit :=
  match m with
  | [] => .ok ()
  | e :: r => deIgnoredEntry e >>= fun _ => deIgnoredMap r
  termination_by structural m
/-- One ignored entry. Needed for /repo/src/model/de.rs:309-331. -/
def deIgnoredEntry (e : String × Value) : Outcome ModelError Unit :=
  match e with
  | (_, v) => deIgnored v
  termination_by structural e
end

/-- A type's decoder: `T::deserialize(value)`. Needed for /repo/src/model/de.rs:333-340. -/
abbrev Decoder := Value → Outcome ModelError Data

/-- `Vec<T>`'s visitor over `ValueSeq`: /repo/src/model/de.rs:186-194, 279-287. -/
def deVecLoop (dec : Decoder) (acc : List Data) : List Value → Outcome ModelError (List Data)
  | [] => .ok acc
  | x :: r => dec x >>= fun d => deVecLoop dec (acc ++ [d]) r

/-- The visitor of tuples, arrays and tuple structs over `ValueSeq`: each field takes the next element or fails
with `invalid_length` (/repo/src/model/de.rs:196-213, 279-287). Elements left over are dropped. (The message of
`invalid_length` is abbreviated.) -/
def deTupleLoop (i : Nat) (acc : List Data) : List Decoder → List Value → Outcome ModelError (List Data)
  | [], _ => .ok acc
  | _ :: _, [] => .err (.deserializationError ("invalid length " ++ String.ofList (decNat i)))
  | dec :: ds, x :: r => dec x >>= fun d => deTupleLoop (i + 1) (acc ++ [d]) ds r

/-- `insert` of a Rust map with keys `Key`. Needed for /repo/src/model/de.rs:309-331. -/
def keyInsert : List (Key × Data) → Key → Data → List (Key × Data)
  | [], k, d => [(k, d)]
  | (k', d') :: r, k, d => if k' = k then (k', d) :: r else (k', d') :: keyInsert r k d

/-- `HashMap<K, V>`'s visitor over `ValueMap`: /repo/src/model/de.rs:215-223, 312-330. -/
def deMapLoop (kt : KeyTy) (dec : Decoder) (acc : List (Key × Data)) :
    List (String × Value) → Outcome ModelError (List (Key × Data))
  | [] => .ok acc
  | (k, v) :: r => deKey kt k >>= fun key => dec v >>= fun d => deMapLoop kt dec (keyInsert acc key d) r

/-- A field of a derived struct: its name, its type's decoder and what serde's `missing_field` gives for it
(`None` for an `Option`, an error otherwise). Needed for /repo/src/model/de.rs:225-235. -/
structure FieldDec where
  name : String
  dec : Decoder
  missing : Outcome ModelError Data

/-- The loop of a derived struct visitor's `visit_map` over `ValueMap` (/repo/src/model/de.rs:225-235, 312-330): the
key goes through `deserialize_identifier` → `deserialize_str` (249-254, 115-121); an unknown key's value is
consumed as `IgnoredAny`. `acc` holds the fields read so far. -/
def deStructLoop (fds : List FieldDec) (acc : List (String × Data)) :
    List (String × Value) → Outcome ModelError (List (String × Data))
  | [] => .ok acc
  | (k, v) :: r =>
    Outcome.ofExcept ((Value.string k).tryInto .string) >>= fun k =>
      match fds.find? (fun fd => fd.name == k) with
      | some fd =>
        if (hmGet acc k).isSome then .err (.deserializationError ("duplicate field `" ++ k ++ "`"))
        else fd.dec v >>= fun d => deStructLoop fds (hmInsert acc k d) r
      | none => deIgnored v >>= fun _ => deStructLoop fds acc r

/-- The end of a derived struct visitor's `visit_map`: every field, or what `missing_field` gives for it. Needed for /repo/src/model/de.rs:225-235. -/
def deStructFinish (acc : List (String × Data)) : List FieldDec → Outcome ModelError (List (String × Data))
  | [] => .ok []
  | fd :: r =>
    (match hmGet acc fd.name with | some d => Outcome.ok d | none => fd.missing) >>= fun d =>
      deStructFinish acc r >>= fun ds => .ok ((fd.name, d) :: ds)

/-- `deserialize_struct` → `deserialize_map`: /repo/src/model/de.rs:225-235, 215-223. -/
def deStruct (fds : List FieldDec) (v : Value) : Outcome ModelError Data :=
  match v with
  | .map m => deStructLoop fds [] m >>= fun acc => deStructFinish acc fds >>= fun ds => .ok (.struct ds)
  | v => .err (cannot v "Map")

/-- serde's `missing_field`: `None` for an `Option`, an error for every other type. Needed for /repo/src/model/de.rs:225-235. -/
def missingField (name : String) : Ty → Outcome ModelError Data
  | .option _ => .ok .none
  | _ => .err (.deserializationError ("missing field `" ++ name ++ "`"))

mutual
/-- `T::deserialize(value)` for the type `ty`: each line is the `deserialize_*` method of /repo/src/model/de.rs that
the type's `Deserialize` implementation calls, with its visitor. `refs` decodes the structs named by `ref`. -/
def de (refs : Nat → Decoder) (ty : Ty) (v : Value) : Outcome ModelError Data :=
  match ty with
  | .bool => Outcome.ofExcept (v.tryInto .bool) >>= fun b => .ok (.bool b)                  -- 30-35
  | .int t => deInt t v >>= fun n => .ok (.int t n)                                          -- 37-91
  | .f32 => Outcome.ofExcept (v.tryInto .f64) >>= fun x => .ok (.f32 (F32.ofF64 x))          -- 93-99
  | .f64 => Outcome.ofExcept (v.tryInto .f64) >>= fun x => .ok (.f64 x)                      -- 101-106
  | .char => Outcome.ofExcept (v.tryInto .char) >>= fun c => .ok (.char c)                   -- 108-113
  | .string => Outcome.ofExcept (v.tryInto .string) >>= fun s => .ok (.str s)                -- 123-128
  | .bytes => .panic                                                                          -- 130-142
  | .option t => match v with                                                                 -- 144-152
    | .none => .ok .none
    | v => de refs t v >>= fun d => .ok (.some d)
  | .unit => match v with                                                                     -- 154-162
    | .none => .ok .unit
    | v => .err (cannot v "None")
  | .unitStruct => match v with                                                               -- 164-173
    | .none => .ok .unitStruct
    | v => .err (cannot v "None")
  | .newtype t => de refs t v >>= fun d => .ok (.newtypeStruct d)                             -- 175-184
  | .seq t => match v with                                                                    -- 186-194
    | .array xs => deVecLoop (fun x => de refs t x) [] xs >>= fun ds => .ok (.seq ds)
    | v => .err (cannot v "Array")
  | .tuple ts => match v with                                                                 -- 196-201
    | .array xs => deTupleLoop 0 [] (decoders refs ts) xs >>= fun ds => .ok (.tuple ds)
    | v => .err (cannot v "Array")
  | .tupleStruct ts => match v with                                                           -- 203-213
    | .array xs => deTupleLoop 0 [] (decoders refs ts) xs >>= fun ds => .ok (.tupleStruct ds)
    | v => .err (cannot v "Array")
  | .map kt t => match v with                                                                 -- 215-223
    | .map m => deMapLoop kt (fun x => de refs t x) [] m >>= fun es =>
        .ok (.map (es.map fun e => (e.1.toData, e.2)))
    | v => .err (cannot v "Map")
  | .struct fs => deStruct (fieldDecoders refs fs) v                                          -- 225-235
  | .enum => .panic                                                                           -- 237-247
  | .value => deValue v >>= fun w => .ok w.toData                                             -- visitor.rs:155-161
  | .ref n => refs n v
  termination_by structural ty
/-- The decoders of a tuple's fields. Needed for /repo/src/model/de.rs:196-213. -/
def decoders (refs : Nat → Decoder) (ts : List Ty) : List Decoder :=
  match ts with
  | [] => []
  | t :: r => (fun v => de refs t v) :: decoders refs r
  termination_by structural ts
/-- The decoders of a struct's fields. Needed for /repo/src/model/de.rs:225-235. -/
def fieldDecoders (refs : Nat → Decoder) (fs : List (String × Ty)) : List FieldDec :=
  match fs with
  | [] => []
  | f :: r => fieldDecoder refs f :: fieldDecoders refs r
  termination_by structural fs
/-- The decoder of one struct field. Needed for /repo/src/model/de.rs:225-235. -/
def fieldDecoder (refs : Nat → Decoder) (f : String × Ty) : FieldDec :=
  match f with
  | (name, t) => ⟨name, fun v => de refs t v, missingField name t⟩
  termination_by structural f
end

/-- The decoders of a family of possibly recursive structs given by their fields, when at most `depth` nested
entries into such structs fit the stack (one more is a stack overflow, modelled as a panic). Needed for /repo/src/model/de.rs:333-340. -/
def refsAt (structs : Nat → List (String × Ty)) : Nat → Nat → Decoder
  | 0, _ => fun _ => .panic
  | depth + 1, n => de (refsAt structs depth) (.struct (structs n))

/-- `Value::deserialize::<T>`: /repo/src/model/de.rs:333-340. -/
def deAt (structs : Nat → List (String × Ty)) (depth : Nat) (ty : Ty) (v : Value) : Outcome ModelError Data :=
  de (refsAt structs depth) ty v

end Verif
