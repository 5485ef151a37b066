import Verif.Model.Serde
import Verif.Model.World
/-!
# Reading a `Value` from a foreign format

Models /repo/src/model/visitor.rs driven by any self-describing deserializer (toml, json5, …): the tree of `visit_*`
calls the deserializer makes on the visitor.
-/
namespace Verif

/-- The tree of calls that a deserializer's `deserialize_any` makes on a visitor (one constructor per `visit_*`
method of serde's `Visitor`; the string variants are one). Needed for /repo/src/model/visitor.rs:1-150. -/
inductive Doc where
  | bool (b : Bool)
  | int (t : IntTy) (n : IntOf t)
  | f32 (x : F32)
  | f64 (x : F64)
  | char (c : Char)
  | str (s : String)
  | bytes (bs : List UInt8)
  | none
  | some (d : Doc)
  | unit
  | newtypeStruct (d : Doc)
  | seq (ds : List Doc)
  | map (es : List (Doc × Doc))
  | enum

/-- A key read as `String` (`next_entry::<String, Value>()`, /repo/src/model/visitor.rs:147): serde's visitor of
`String` takes text, characters and UTF-8 bytes. -/
def visitKey : Doc → Except String String
  | .str s => .ok s
  | .char c => .ok (String.ofList [c])
  | .bytes bs => match ofUtf8 bs with
    | some s => .ok s
    | none => .error "invalid value: byte array, expected a string"
  | _ => .error "invalid type, expected a string"

mutual
/-- /repo/src/model/visitor.rs:9-153 `ValueVisitor` and 155-161 `Deserialize for Value`. `visit_char` is left at
serde's default (`visit_str`); `visit_bytes`, `visit_newtype_struct` and `visit_enum` at theirs, which fail (the
messages are abbreviated). -/
def visit (d : Doc) : Except String Value :=
  match d with
  | .bool b => .ok (.boolean b)                                        -- 16-20
  | .int .i8 n => .ok (.integer (widen .i64 (by decide) n))            -- 22-26
  | .int .i16 n => .ok (.integer (widen .i64 (by decide) n))           -- 28-32
  | .int .i32 n => .ok (.integer (widen .i64 (by decide) n))           -- 34-38
  | .int .i64 n => .ok (.integer n)                                    -- 40-44
  | .int .i128 n => .ok (.longInteger n)                               -- 46-50
  | .int .u8 n => .ok (.uInteger (widen .u64 (by decide) n))           -- 52-56
  | .int .u16 n => .ok (.uInteger (widen .u64 (by decide) n))          -- 58-62
  | .int .u32 n => .ok (.uInteger (widen .u64 (by decide) n))          -- 64-68
  | .int .u64 n => .ok (.uInteger n)                                   -- 70-74
  | .int .u128 n => .ok (.uLongInteger n)                              -- 76-80
  | .f64 x => .ok (.float x)                                           -- 82-86
  | .str s => .ok (.string s)                                          -- 88-98, 106-110
  | .char c => .ok (.string (String.ofList [c]))
  | .none => .ok .none                                                 -- 100-104
  | .f32 x => .ok (.float (F64.ofF32 x))                               -- 112-116
  | .unit => .ok .none                                                 -- 118-122
  | .some d => visit d                                                 -- 124-128
  | .seq ds => visitSeq [] ds                                          -- 130-140
  | .map es => visitMap [] es                                          -- 142-152
  | .bytes _ => .error "invalid type: byte array, expected a valid configuration value"
  | .newtypeStruct _ => .error "invalid type: newtype struct, expected a valid configuration value"
  | .enum => .error "invalid type: enum, expected a valid configuration value"
  termination_by structural d
/-- The loop of /repo/src/model/visitor.rs:135-139. -/
def visitSeq (acc : List Value) (ds : List Doc) : Except String Value :=
  match ds with
  | [] => .ok (.array acc)
  | d :: r => visit d >>= fun x => visitSeq (acc ++ [x]) r
  termination_by structural ds
/-- The loop of /repo/src/model/visitor.rs:147-151. -/
def visitMap (acc : Entries) (es : List (Doc × Doc)) : Except String Value :=
  match es with
  | [] => .ok (.map acc)
  | e :: r => visitEntry e >>= fun kv => visitMap (hmInsert acc kv.1 kv.2) r
  termination_by structural es
/-- `map.next_entry()?`: /repo/src/model/visitor.rs:147. -/
def visitEntry (e : Doc × Doc) : Except String (String × Value) :=
  match e with
  | (k, v) => visitKey k >>= fun key => visit v >>= fun x => .ok (key, x)
  termination_by structural e
end

/-- A text format of serde: what it parses a text to, and how it prints serde data. Third-party code (`toml`,
`json5`): both are arbitrary functions here. Needed for /repo/src/config_layer/handlers/toml.rs:10,15-16, /repo/src/config_layer/handlers/json.rs:9,14-15. -/
structure Codec where
  parse : String → Except String Doc
  print : Data → Except String String

end Verif
