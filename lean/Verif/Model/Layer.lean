import Verif.Model.Doc
import Verif.Model.Finder
/-!
# Configuration layers: models /repo/src/config_layer
-/
namespace Verif

/-- std `char::is_whitespace` (Unicode `White_Space`). Needed for /repo/src/config_layer/layer_env.rs:15,57. -/
def isWhite (c : Char) : Bool :=
  let n := c.toNat
  (9 ≤ n && n ≤ 13) || n == 0x20 || n == 0x85 || n == 0xA0 || n == 0x1680 || (0x2000 ≤ n && n ≤ 0x200A) ||
    n == 0x2028 || n == 0x2029 || n == 0x202F || n == 0x205F || n == 0x3000

/-- std `str::trim` on the characters. Needed for /repo/src/config_layer/layer_env.rs:15,57. -/
def trimChars (l : List Char) : List Char :=
  ((l.dropWhile isWhite).reverse.dropWhile isWhite).reverse

/-- std `str::trim`: /repo/src/config_layer/layer_env.rs:15, 57. -/
def trimStr (s : String) : String := String.ofList (trimChars s.toList)

/-- std `str::trim_start_matches(prefix)` for a non-empty prefix, on the characters: strips the prefix as often as
it is there. `fuel` bounds the number of rounds (the length of the text is enough). Needed for /repo/src/config_layer/layer_env.rs:68. -/
def stripAll (fuel : Nat) (pre l : List Char) : List Char :=
  match fuel with
  | 0 => l
  | fuel + 1 => if pre.isPrefixOf l then stripAll fuel pre (l.drop pre.length) else l

/-- std `str::trim_start_matches`: /repo/src/config_layer/layer_env.rs:68. -/
def trimStartMatches (s pre : String) : String := String.ofList (stripAll s.toList.length pre.toList s.toList)

/-- /repo/src/config_layer/file_handler.rs:8-11 `trait FileHandler`. -/
structure FileHandler where
  read : World → OsStr → Except BakuninError Value
  write : World → OsStr → Value → Except BakuninError Unit × World

/-- /repo/src/config_layer/handlers/toml.rs:6-22 `TomlFileHandler`, and json.rs:5-20 `JsonFileHandler`, which differs
in the format only. (As it stands json.rs does not compile: the crate `json5` is not a dependency and
`config_layer` exports no `Result`; it is modelled as intended, like toml.rs.) -/
def textHandler (c : Codec) : FileHandler where
  read w path :=
    match w.readToString path with
    | .error e => .error (.ioError e)
    | .ok content =>
      match c.parse content with
      | .error msg => .error (.configLayerError (.parseError msg))
      | .ok doc => match visit doc with
        | .error msg => .error (.configLayerError (.parseError msg))
        | .ok v => .ok v
  write w path value :=
    match c.print value.toData with
    | .error msg => (.error (.configLayerError (.serializeError msg)), w)
    | .ok content =>
      match w.fsWrite path content with
      | (.error e, w) => (.error (.ioError e), w)
      | (.ok (), w) => (.ok (), w)

/-- A user's implementation of `ConfigLayer` (/repo/src/config_layer/layer.rs:3-13): arbitrary functions of the
world. (A layer with hidden mutable state is not modelled.) -/
structure UserLayer where
  getName : String
  hasValue : World → Bool
  canWrite : World → Bool
  readValue : World → Except BakuninError Value
  writeValue : World → Value → Except BakuninError Unit × World

/-- `Box<dyn ConfigLayer>`: /repo/src/config_layer/layer_mem.rs:5-7, layer_env.rs:7-9, layer_file.rs:8-14. The prefix of an
environment layer is stored trimmed. -/
inductive Layer where
  | memory (value : Value)
  | environment (pre : String)
  | file (handler : FileHandler) (path : OsStr)
  | user (l : UserLayer)

namespace Layer

/-- /repo/src/config_layer/layer_mem.rs:11-13 `MemoryConfigLayer::new`. -/
def newMemory (v : Value) : Layer := .memory v

/-- /repo/src/config_layer/layer_env.rs:13-17 `EnvironmentConfigLayer::new`. -/
def newEnvironment (pre : String) : Layer := .environment (trimStr pre)

/-- /repo/src/config_layer/layer_file.rs:20-25 `FileConfigLayer::new`. -/
def newFile (h : FileHandler) (path : OsStr) : Layer := .file h path

/-- `get_name`: /repo/src/config_layer/layer_mem.rs:17-19, layer_env.rs:25-27, layer_file.rs:40-42. -/
def getName : Layer → String
  | .memory _ => "Memory"
  | .environment _ => "Environment"
  | .file _ _ => "File"
  | .user l => l.getName

/-- `has_value`: /repo/src/config_layer/layer_mem.rs:21-23, layer_env.rs:29-31, layer_file.rs:44-46. -/
def hasValue (w : World) : Layer → Bool
  | .memory _ => true
  | .environment _ => true
  | .file _ path => w.pathExists path
  | .user l => l.hasValue w

/-- `can_write`: /repo/src/config_layer/layer_mem.rs:25-27, layer_env.rs:33-35, layer_file.rs:48-50. -/
def canWrite (w : World) : Layer → Bool
  | .memory _ => false
  | .environment _ => false
  | .file _ _ => false
  | .user l => l.canWrite w

/-- One round of the loop of /repo/src/config_layer/layer_env.rs:55-83. -/
def envStep (pre : String) (map : Entries) (var : OsStr × OsStr) : Entries :=
  match osToStr var.1 with
  | none => map                                           -- 58-61
  | some k =>
    let strKey := trimStr k                               -- 57
    if pre.toList.isPrefixOf strKey.toList then           -- 64-66
      let key := trimStartMatches strKey pre              -- 68
      match osToStr var.2 with
      | none => map                                       -- 72-79
      | some value => hmInsert map key (.string value)    -- 82
    else map

/-- /repo/src/config_layer/layer_env.rs:41-86 `EnvironmentConfigLayer::read_value`. -/
def readEnv (w : World) (pre : String) : Except BakuninError Value :=
  if pre.isEmpty then
    .error (.configLayerError (.errorReadingValue "Environment prefix cannot be empty"))
  else .ok (.map (w.env.foldl (envStep pre) []))

/-- `read_value`: /repo/src/config_layer/layer_mem.rs:33-35, layer_env.rs:41-86, layer_file.rs:56-62. -/
def readValue (w : World) : Layer → Except BakuninError Value
  | .memory v => .ok v
  | .environment pre => readEnv w pre
  | .file h path => if w.pathExists path then h.read w path else .ok Value.newMap
  | .user l => l.readValue w

/-- `write_value`: /repo/src/config_layer/layer_mem.rs:29-31, layer_env.rs:37-39, layer_file.rs:52-54. The result and the
world afterwards. -/
def writeValue (w : World) (v : Value) : Layer → Except BakuninError Unit × World
  | .memory _ => (.error (.configLayerError .writeNotSupported), w)
  | .environment _ => (.error (.configLayerError .writeNotSupported), w)
  | .file h path => h.write w path v
  | .user l => l.writeValue w v

end Layer
end Verif
