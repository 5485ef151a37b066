import Verif.Model.Config
/-!
# The project's own tests, run on the model

Every unit test of /repo/src, the examples of /repo/examples and the code of /repo/README.MD that makes assertions, transcribed and evaluated
on the model by the kernel. These are tests of the model's faithfulness (each on one input), not proofs of
properties; no property in `properties.jsonl` rests on them. Tests that go through `serde_json` (not in /repo) give the
`visit_*` calls which `serde_json` makes for the text, or the `serialize_*` calls whose text the test compares.
-/
namespace Verif.Fidelity

/-- `Value::Integer(n)`, the value of an `i32` literal (/repo/src/model/from.rs:35-39). -/
abbrev int (n : Int) (h : IntTy.i64.lo ≤ n ∧ n ≤ IntTy.i64.hi := by decide) : Value := .integer ⟨n, h⟩
/-- `Value::UInteger(n)` (/repo/src/model/value.rs:12). -/
abbrev uint (n : Int) (h : IntTy.u64.lo ≤ n ∧ n ≤ IntTy.u64.hi := by decide) : Value := .uInteger ⟨n, h⟩
/-- `Value::LongInteger(n)` (/repo/src/model/value.rs:11). -/
abbrev long (n : Int) (h : IntTy.i128.lo ≤ n ∧ n ≤ IntTy.i128.hi := by decide) : Value := .longInteger ⟨n, h⟩
/-- `Value::ULongInteger(n)` (/repo/src/model/value.rs:13). -/
abbrev ulong (n : Int) (h : IntTy.u128.lo ≤ n ∧ n ≤ IntTy.u128.hi := by decide) : Value := .uLongInteger ⟨n, h⟩
/-- A string value (/repo/src/model/from.rs:107-111). -/
abbrev str (s : String) : Value := .string s
/-- The float `m * 2^e`. -/
abbrev flt (m : Nat) (e : Int) (h : fmt64.Canon (.fin false m e) := by decide) : F64 := ⟨.fin false m e, h⟩
/-- `1.0`. -/
abbrev one : F64 := flt 4503599627370496 (-52)
/-- `3.14`, i.e. `0x1.91eb851eb851fp1`. -/
abbrev pi2 : F64 := flt 7070651414971679 (-51)
/-- `value_map!` (unwrapped: the tests below would fail on a panic). -/
abbrev vm (args : List (String × Value)) : Value := (valueMapMacro args).getD (.string "panic")
/-- `value_vec!` (unwrapped). -/
abbrev vv (args : List Value) : Value := (valueVecMacro args).getD (.string "panic")
/-- `try_into_i64().unwrap()` gives this number. -/
abbrev isI64 (v : Value) (n : Int) : Bool := match v.tryIntoMethod (.int .i64) with | .ok x => x.1 == n | .error _ => false
/-- `try_into().unwrap()` into an integer type gives this number. -/
abbrev isInt (t : IntTy) (v : Value) (n : Int) : Bool := match v.tryInto (.int t) with | .ok x => x.1 == n | .error _ => false
/-- `try_into()` into an integer type fails with this error. -/
abbrev intErr (t : IntTy) (v : Value) (e : ModelError) : Bool := match v.tryInto (.int t) with | .ok _ => false | .error x => decide (x = e)
/-- `try_into_string().unwrap()` gives this text. -/
abbrev isStr (v : Value) (s : String) : Bool := match v.tryIntoMethod .string with | .ok x => x == s | .error _ => false
/-- `try_into_f64().unwrap()` gives this number. -/
abbrev isF64 (v : Value) (x : F64) : Bool := match v.tryIntoMethod .f64 with | .ok y => y.1.ieeeEq x.1 | .error _ => false
/-- `try_into_bool().unwrap()` gives this. -/
abbrev isBool (v : Value) (b : Bool) : Bool := match v.tryIntoMethod .bool with | .ok x => x == b | .error _ => false

/-! ## /repo/src/model/value.rs:122-158 `test_model_value_display` -/

example : Value.display .none = "none" ∧ Value.display (.boolean true) = "true" ∧ Value.display (int 1) = "1" ∧
    Value.display (long 1) = "1" ∧ Value.display (uint 1) = "1" ∧ Value.display (ulong 1) = "1" ∧
    Value.display (.float one) = "1" ∧ Value.display (str "test") = "test" ∧
    Value.display (.array [int 1, int 2]) = "[1, 2]" ∧ Value.display (.map [("a", int 1)]) = "{a: 1}" := by decide +kernel

/-! ## /repo/src/model/new.rs:49-105 -/

/-- `test_model_value_new_map` -/
example : let v := ((Value.newMap.set "a" (int 1)).2.set "b" (str "data")).2
    isI64 (v.get "a") 1 ∧ isStr (v.get "b") "data" := by decide +kernel

/-- `test_model_value_new_array` -/
example : let v := vv [int 1, str "data", .float pi2, .boolean true]
    v.len = 4 ∧ isI64 (v.at' 0) 1 ∧ isStr (v.at' 1) "data" ∧ isF64 (v.at' 2) pi2 ∧ isBool (v.at' 3) true := by decide +kernel

/-- `test_model_value_map_macro` -/
example : let v := vm [("a", int 1), ("b", str "data"), ("c", .float pi2), ("d", .boolean true),
      ("e", vm [("a", int 1), ("b", str "data"), ("c", .float pi2), ("d", .boolean true)]),
      ("f", vv [int 1, str "data", .float pi2, .boolean true]), ("g", Value.ofOption (Value.ofInt .i64) none)]
    isI64 (v.get "a") 1 ∧ isStr (v.get "b") "data" ∧ isF64 (v.get "c") pi2 ∧ isBool (v.get "d") true ∧
    isI64 ((v.get "e").get "a") 1 ∧ isStr ((v.get "e").get "b") "data" ∧ isF64 ((v.get "e").get "c") pi2 ∧
    isBool ((v.get "e").get "d") true ∧ isI64 ((v.get "f").at' 0) 1 ∧ isStr ((v.get "f").at' 1) "data" ∧
    isF64 ((v.get "f").at' 2) pi2 ∧ isBool ((v.get "f").at' 3) true ∧ (v.get "g").isNone := by decide +kernel

/-! ## /repo/src/model/from.rs:131-162 `test_model_value_from` -/

example : (Value.ofInt .i32 ⟨1, by decide⟩).rustEq (int 1) ∧ (Value.ofF64 one).rustEq (.float one) ∧
    (Value.ofBool true).rustEq (.boolean true) ∧ (Value.ofString "test").rustEq (str "test") ∧
    (Value.ofVec (Value.ofInt .i32) [⟨1, by decide⟩, ⟨2, by decide⟩, ⟨3, by decide⟩]).rustEq (.array [int 1, int 2, int 3]) ∧
    (Value.ofHashMap (Value.ofInt .i32) [("test", ⟨1, by decide⟩)]).rustEq (.map [("test", int 1)]) := by decide +kernel

/-! ## /repo/src/model/visitor.rs:152-229 (`serde_json` reads integers as `u64`, too large ones as `f64`) -/

/-- What reading the document gives. -/
abbrev reads (d : Doc) (p : Value → Bool) : Bool := match visit d with | .ok v => p v | .error _ => false

example : reads .unit (·.rustEq .none) ∧ reads (.bool true) (·.rustEq (.boolean true)) ∧
    reads (.int .u64 ⟨42, by decide⟩) (isInt .i64 · 42) ∧
    reads (.int .u64 ⟨9223372036854775808, by decide⟩) (isInt .u128 · 9223372036854775808) ∧
    reads (.int .u64 ⟨556, by decide⟩) (isInt .u64 · 556) ∧
    -- 18446744073709551616 does not fit a `u64`
    reads (.f64 (flt 4503599627370496 12)) (isInt .u128 · 18446744073709551616) ∧
    reads (.f64 (flt 5910974510923776 (-47))) (·.rustEq (.float (flt 5910974510923776 (-47)))) ∧
    reads (.str "Hello, World!") (·.rustEq (str "Hello, World!")) ∧
    reads (.seq [.int .u64 ⟨1, by decide⟩, .int .u64 ⟨2, by decide⟩, .int .u64 ⟨3, by decide⟩])
      (·.rustEq (.array [uint 1, uint 2, uint 3])) ∧
    reads (.map [(.str "a", .int .u64 ⟨1, by decide⟩), (.str "b", .int .u64 ⟨2, by decide⟩),
        (.str "c", .int .u64 ⟨3, by decide⟩)])
      (·.rustEq (.map [("c", uint 3), ("a", uint 1), ("b", uint 2)])) := by decide +kernel

/-! ## /repo/src/model/merge.rs:33-119 `test_merge`, `test_clone_merge` -/

example :
    let value := vm [("name", str "David"), ("age", int 33), ("address", vm [("street", str "123 Main St"),
      ("city", str "Anytown"), ("state", str "CA"), ("zip", int 12345)])]
    let loc := vm [("address", vm [("street", str "123 Main St"), ("city", str "Another Town"), ("state", str "CA"),
      ("zip", int 12345), ("number", int 123)]), ("education", vm [("high_school", str "Anytown High School"),
      ("college", str "Anytown College")]), ("height", int 170)]
    let v := value.merge loc
    isStr (v.get "name") "David" ∧ isI64 (v.get "age") 33 ∧ isI64 (v.get "height") 170 ∧
    isStr ((v.get "address").get "street") "123 Main St" ∧ isStr ((v.get "address").get "city") "Another Town" ∧
    isStr ((v.get "address").get "state") "CA" ∧ isI64 ((v.get "address").get "zip") 12345 ∧
    isI64 ((v.get "address").get "number") 123 ∧
    isStr ((v.get "education").get "high_school") "Anytown High School" ∧
    isStr ((v.get "education").get "college") "Anytown College" ∧
    (value.cloneMerge loc).rustEq v := by decide +kernel

/-! ## /repo/src/model/ser.rs:416-598 -/

/-- The `serialize_*` calls that `serde_json` is given for a `Value` (it prints `42` for any integer, `42.0` for the
float, `null` for none): /repo/src/model/ser.rs:446-528. -/
example : Value.toData .none = .none ∧ Value.toData (.boolean true) = .bool true ∧
    Value.toData (int 42) = .int .i64 ⟨42, by decide⟩ ∧ Value.toData (long 42) = .int .i128 ⟨42, by decide⟩ ∧
    Value.toData (uint 42) = .int .u64 ⟨42, by decide⟩ ∧ Value.toData (ulong 42) = .int .u128 ⟨42, by decide⟩ ∧
    Value.toData (.float one) = .f64 one ∧ Value.toData (str "42") = .str "42" ∧
    Value.toData (.array [int 42, int 43]) = .seq [.int .i64 ⟨42, by decide⟩, .int .i64 ⟨43, by decide⟩] ∧
    Value.toData (.map [("a", int 42)]) = .map [(.str "a", .int .i64 ⟨42, by decide⟩)] := by
  refine ⟨rfl, rfl, rfl, rfl, rfl, rfl, rfl, rfl, rfl, rfl⟩

/-- `TestStruct` (/repo/src/model/ser.rs:424-444) as serde data. -/
def person (name : String) (age : Int) (h : IntTy.i64.lo ≤ age ∧ age ≤ IntTy.i64.hi) (childs : List Data)
    (fam : List (Data × Data)) : Data :=
  .struct [("name", .str name), ("age", .int .i64 ⟨age, h⟩), ("childs", .seq childs), ("fam", .map fam),
    ("data", .some (.int .u64 ⟨10, by decide⟩))]

/-- `test_model_value_serializer` -/
example :
    (match ser (person "John" 42 (by decide) [person "Jane" 12 (by decide) [] [], person "Jack" 10 (by decide) [] []]
      [(.str "wife", person "Jane" 45 (by decide) [] []), (.str "cousin", person "Jack" 51 (by decide) [] [])]) with
    | .ok v => (isStr (v.get "name") "John" && isI64 (v.get "age") 42 &&
        isStr (((v.get "childs").at' 0).get "name") "Jane" && isI64 (((v.get "childs").at' 0).get "age") 12 &&
        isStr (((v.get "childs").at' 1).get "name") "Jack" && isI64 (((v.get "childs").at' 1).get "age") 10 &&
        isStr (((v.get "fam").get "wife").get "name") "Jane" && isI64 (((v.get "fam").get "wife").get "age") 45 &&
        isStr (((v.get "fam").get "cousin").get "name") "Jack" &&
        isI64 (((v.get "fam").get "cousin").get "age") 51)
    | _ => false) = true := by decide +kernel

/-! ## /repo/src/model/iter.rs:29-43 `test_value_iter` -/

example : ((vv [int 1, int 2, int 3]).iter.take 3).map (·.map fun v => isI64 v 1 || isI64 v 2 || isI64 v 3) =
      [some true, some true, some true] ∧
    ((vv [int 1, int 2, int 3]).iter.take 3).map (·.map Value.display) = [some "1", some "2", some "3"] := by decide +kernel

/-! ## /repo/src/model/de.rs:333-378 `test_deserialize` -/

example :
    let ty := Ty.struct [("name", .string), ("age", .int .u8), ("address", .struct [("street", .string), ("city", .string)])]
    let v := vm [("name", str "John"), ("age", int 42), ("address", vm [("street", str "10 Downing Street"), ("city", str "London")])]
    deAt (fun _ => []) 0 ty v = .ok (.struct [("name", .str "John"), ("age", .int .u8 ⟨42, by decide⟩),
      ("address", .struct [("street", .str "10 Downing Street"), ("city", .str "London")])]) := by rfl

/-! ## /repo/src/model/into.rs:401-554 -/

/-- `test_model_value_try_into_i64` -/
example : isInt .i64 (long 100) 100 ∧ isInt .i64 (.float one) 1 ∧ isInt .i64 (.boolean true) 1 ∧ isInt .i64 (str "1") 1 ∧
    intErr .i64 (long IntTy.i128.hi) (.conversionError "i128" "i64" "Number value is out of target bounds") := by decide +kernel

/-- `test_model_value_try_into_i128` -/
example : isInt .i128 (long 100) 100 ∧ isInt .i128 (.float one) 1 ∧ isInt .i128 (.boolean true) 1 ∧
    isInt .i128 (str "1") 1 ∧ isInt .i128 (long IntTy.i128.hi) IntTy.i128.hi ∧
    intErr .i128 (ulong IntTy.u128.hi) (.conversionError "u128" "i128" "Number value is out of target bounds") := by decide +kernel

/-- `test_model_value_try_into_u64` -/
example : isInt .u64 (uint 100) 100 ∧ isInt .u64 (.float one) 1 ∧ isInt .u64 (.boolean true) 1 ∧ isInt .u64 (str "1") 1 ∧
    intErr .u64 (ulong IntTy.u128.hi) (.conversionError "u128" "u64" "Number value is out of target bounds") ∧
    intErr .u64 (long (-1)) (.conversionError "i128" "u64" "Number value is out of target bounds") := by decide +kernel

/-- `test_model_value_try_into_u128` -/
example : isInt .u128 (uint 100) 100 ∧ isInt .u128 (.float one) 1 ∧ isInt .u128 (.boolean true) 1 ∧
    isInt .u128 (str "1") 1 ∧ isInt .u128 (ulong IntTy.u128.hi) IntTy.u128.hi ∧
    intErr .u128 (long (-1)) (.conversionError "i128" "u128" "Number value is out of target bounds") := by decide +kernel

/-- `test_model_value_try_into_f64` -/
example : isF64 (.float (flt 7036874417766400 (-46))) (flt 7036874417766400 (-46)) ∧ isF64 (.float one) one ∧
    isF64 (.boolean true) one ∧ isF64 (str "1") one := by decide +kernel

/-- `test_model_value_try_into_string` -/
example : isStr (str "test") "test" ∧ isStr (int 1) "1" ∧ isStr (.float one) "1" ∧ isStr (.boolean true) "true" := by decide +kernel

/-! ## Worlds for the tests of layers, finder and macro -/

/-- The build of the tests: default features (`toml`), debug profile. -/
def build : Build := ⟨true, false, true⟩

/-- An almost empty world: no files, everything may be created; every path names its own place. -/
def world (env : List (String × String)) : World where
  locate p := if p = os "./target/.app-config.toml" then 1 else 0
  disk _ := .absent none
  room _ := none
  env := env.map fun e => (os e.1, os e.2)
  baseDirs := some ⟨os "/home/me", os "/home/me/.config", os "/home/me/.config"⟩
  cwd := some (os "/work")

/-- A toy text format, only good for the text of the test `initiliaze_file`. -/
def toy : Codec where
  parse s := if s = "data = 10" then .ok (.map [(.str "data", .int .i64 ⟨10, by decide⟩)]) else .error "?"
  print _ := .ok "data = 10"

/-! ## /repo/src/config_macro.rs:57-121 -/

/-- `creates_default_value` -/
example : (match createConfig build ⟨toy, toy⟩ (world []) ⟨".app-config", [("path", str "/default/path"), ("delay", int 1000),
      ("log", vm [("level", str "info"), ("file", str "default.log")])], none, []⟩ with
    | .ok (c, w) => (match c.buildValue w false with
      | .ok v => isStr (v.get "path") "/default/path" && isI64 (v.get "delay") 1000 &&
        isStr ((v.get "log").get "level") "info" && isStr ((v.get "log").get "file") "default.log"
      | .error _ => false)
    | _ => false) = true := by decide +kernel

/-- `add_environment` -/
example : (match createConfig build ⟨toy, toy⟩ (world [("MY_APP_data", "11")])
      ⟨".app-config", [("data", int 10)], some "MY_APP_", []⟩ with
    | .ok (c, w) => (match c.buildValue w false with
      | .ok v => isI64 (v.get "data") 11
      | .error _ => false)
    | _ => false) = true := by decide +kernel

/-- `initiliaze_file` -/
example : (match createConfig build ⟨toy, toy⟩ (world [("MY_APP_data", "11")])
      ⟨".app-config", [("data", int 10)], some "MY_APP_", [⟨"global", [.path "./target"], some true⟩]⟩ with
    | .ok (c, w) => (match c.buildValue w false with | .ok _ => true | .error _ => false) &&
      w.pathExists (os "./target/.app-config.toml") && !(world []).pathExists (os "./target/.app-config.toml")
    | _ => false) = true := by decide +kernel

/-! ## /repo/src/file_finder (`with_user_home` and the others: /repo/src/file_finder/os_directory.rs:68-111) -/

/-- `returns_first_if_allow_missing`: /repo/src/file_finder/alg_find_first.rs:42-65 -/
example : (match (((((FileFinder.new "test_file").withOsDirectory (world []) .userConfig).withOsDirectory (world []) .userHome
      ).withToml).withExtension "txt").findFirst build (world []) true with
    | .ok r => decide (r.path = pathJoin (os "/home/me/.config") (os "test_file.toml"))
    | _ => false) = true := by decide +kernel

/-- `returns_last_if_allow_missing`: /repo/src/file_finder/alg_find_last.rs:44-67 -/
example : (match (((((FileFinder.new "test_file").withOsDirectory (world []) .userConfig).withOsDirectory (world []) .userHome
      ).withToml).withExtension "txt").findLast build (world []) true with
    | .ok r => decide (r.path = pathJoin (os "/home/me") (os "test_file.txt"))
    | _ => false) = true := by decide +kernel

/-- `returns_all_if_allow_missing`: /repo/src/file_finder/alg_find_all.rs:36-65 -/
example : (match (((((FileFinder.new "test_file").withOsDirectory (world []) .userHome).withOsDirectory (world []) .userConfig
      ).withToml)).findAll build (world []) true with
    | .ok rs => decide (rs.map (·.path) = [pathJoin (os "/home/me") (os "test_file.toml"),
        pathJoin (os "/home/me/.config") (os "test_file.toml")])
    | _ => false) = true := by decide +kernel

/-- `returns_first_if_no_file_found`: /repo/src/file_finder/alg_find_all_or_first.rs:42-67 -/
example : (match (((((FileFinder.new "test_file").withOsDirectory (world []) .userHome).withOsDirectory (world []) .userConfig
      ).withToml)).findAllOrFirst build (world []) with
    | .ok rs => decide (rs.map (·.path) = [pathJoin (os "/home/me") (os "test_file.toml")])
    | _ => false) = true := by decide +kernel

/-! ## /repo/src/config_layer/layer_env.rs:95-116 `test_load_environment` -/

example : (match (Layer.newEnvironment "TEST_").readValue (world [("TEST_value1", "1"), ("TEST_value2", "2.5"),
      ("TEST_value3", "true"), ("TEST_value4", "data")]) with
    | .ok v => isI64 (v.get "value1") 1 && isF64 (v.get "value2") (flt 5629499534213120 (-51)) &&
      isBool (v.get "value3") true && isStr (v.get "value4") "data"
    | .error _ => false) = true := by decide +kernel

/-! ## /repo/examples -/

/-- /repo/examples/deserialize.rs:1-40 -/
example :
    let structs : Nat → List (String × Ty) := fun _ => [("name", .string), ("age", .int .i32), ("children", .seq (.ref 0))]
    let v := vm [("name", str "John"), ("age", int 30), ("children", vv [
      vm [("name", str "Alice"), ("age", int 5), ("children", vv [])],
      vm [("name", str "Bob"), ("age", int 10), ("children", vv [])]])]
    deAt structs 3 (.ref 0) v = .ok (.struct [("name", .str "John"), ("age", .int .i32 ⟨30, by decide⟩), ("children", .seq [
      .struct [("name", .str "Alice"), ("age", .int .i32 ⟨5, by decide⟩), ("children", .seq [])],
      .struct [("name", .str "Bob"), ("age", .int .i32 ⟨10, by decide⟩), ("children", .seq [])]])]) := by rfl

/-- /repo/examples/use-value.rs:1-38 -/
example :
    let v := vm [("prop1", str "value1"), ("prop2", int 10), ("prop3", vv [int 1, int 2, int 3]), ("prop4", vm [("prop5", str "value2")])]
    isStr (v.get "prop1") "value1" ∧ isF64 (v.get "prop2") (flt 5629499534213120 (-49)) ∧
    ((v.get "prop3").iter.take 4).map (·.map fun x => isInt .i32 x 1 || isInt .i32 x 2 || isInt .i32 x 3) =
      [some true, some true, some true, none] ∧
    isStr ((v.get "prop4").get "prop5") "value2" ∧
    (match (v.get "prop6").tryIntoMethod .string with | .ok _ => false | .error _ => true) = true := by decide +kernel

/-! ## /repo/README.MD -/

/-- /repo/README.MD:84-98 (`get`) and 103-110 (`at`) -/
example :
    let v := vm [("key1", str "value1"), ("key2", vm [("sub_key1", str "sub_value1"), ("sub_key2", int 42)])]
    let a := vv [str "item1", int 42, .boolean true]
    isStr (v.get "key1") "value1" ∧ isStr ((v.get "key2").get "sub_key1") "sub_value1" ∧
    isI64 ((v.get "key2").get "sub_key2") 42 ∧ ((v.get "missing_key").get "other_key").isNone ∧
    isStr (a.at' 0) "item1" ∧ isI64 (a.at' 1) 42 ∧ isBool (a.at' 2) true ∧ (a.at' 3).isNone := by decide +kernel

/-- /repo/README.MD:117-190: where the searches of `.my-config` look, with both features -/
example :
    let w := world []
    let f := ((((FileFinder.new ".my-config").withSupportedExtensions ⟨true, true, true⟩).withOsDirectory w .workingDirectory
      ).withOsDirectory w .userHome).withOsDirectory w (.path "/path/to/custom/folder")
    (match f.findAll ⟨true, true, true⟩ w true with
    | .ok rs => decide (rs.map (·.path) = [os "/work/.my-config.toml", os "/work/.my-config.json", os "/home/me/.my-config.toml",
        os "/home/me/.my-config.json", os "/path/to/custom/folder/.my-config.toml", os "/path/to/custom/folder/.my-config.json"])
    | _ => false) = true := by decide +kernel

/-- /repo/README.MD:319-362 (deserializing a part of a built value) -/
example :
    let ty := Ty.struct [("name", .string), ("age", .int .i32), ("children", .seq (.struct [("name", .string), ("age", .int .i32)]))]
    match createConfig build ⟨toy, toy⟩ (world []) ⟨".my-config", [("key1", str "value1"), ("key2", int 42),
      ("user", vm [("name", str "John Doe"), ("age", int 30), ("children", vv [
        vm [("name", str "Child1"), ("age", int 5)], vm [("name", str "Child2"), ("age", int 3)]])])], some "MY_APP_", []⟩ with
    | .ok (c, w) => match c.buildValue w true with
      | .ok v => deAt (fun _ => []) 0 ty (v.get "user") = .ok (.struct [("name", .str "John Doe"),
          ("age", .int .i32 ⟨30, by decide⟩), ("children", .seq [
            .struct [("name", .str "Child1"), ("age", .int .i32 ⟨5, by decide⟩)],
            .struct [("name", .str "Child2"), ("age", .int .i32 ⟨3, by decide⟩)]])])
      | .error _ => False
    | _ => False := by rfl

end Verif.Fidelity
