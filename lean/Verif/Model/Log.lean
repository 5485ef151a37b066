import Verif.Model.Config
import Verif.Model.Errors
/-!
# What the crate writes to the log

The functions that call `log::trace!`, `log::debug!` or `log::warn!`, with the records they write. Each function gives its result and its records, in order. Records are kept
with their arguments; how `{}` and `{:?}` spell these is a parameter (`Spelling`). Layers and file handlers written by the user may write records of their own; those are not modelled.
-/
namespace Verif

/-- The levels the crate uses: /repo/src/config.rs:31, 135, /repo/src/config_layer/layer_env.rs:49, 59, 73. -/
inductive LogLevel where
  | warn
  | debug
  | trace
  deriving DecidableEq, Repr

/-- A record: one constructor for each place in the code that writes one, with the arguments of its text. /repo/src/config.rs:31-34, 135, /repo/src/config_macro.rs:37, 43, … -/
inductive LogRecord where
  /-- /repo/src/config.rs:31-34 -/
  | layerExists (name : String)
  /-- /repo/src/config.rs:135 -/
  | readError (name : String) (e : BakuninError)
  /-- /repo/src/config_layer/layer_env.rs:49-52 -/
  | envLoading (pre : String)
  /-- /repo/src/config_layer/layer_env.rs:59 -/
  | envBadName (name : OsStr)
  /-- /repo/src/config_layer/layer_env.rs:73-77 -/
  | envBadValue (key : String) (value : OsStr)
  /-- /repo/src/config_layer/handlers/toml.rs:8, json.rs:7 -/
  | reading (format : FileExtension) (path : OsStr)
  /-- /repo/src/config_layer/handlers/toml.rs:14, json.rs:13 -/
  | writing (format : FileExtension) (path : OsStr)
  /-- /repo/src/file_finder/os_directory.rs:72 -/
  | noDirectory (dir : OSDirectory)
  /-- /repo/src/config_macro.rs:37 -/
  | initError (layer : String) (e : BakuninError)
  /-- /repo/src/config_macro.rs:43 -/
  | searchError (e : BakuninError)
  deriving DecidableEq, Repr

namespace LogRecord

/-- The macro (`trace!`, `debug!`, `warn!`) at the places cited in `LogRecord`: /repo/src/config.rs:31, 135, /repo/src/config_layer/layer_env.rs:49, 59, 73, … -/
def level : LogRecord → LogLevel
  | .layerExists _ => .trace
  | .readError _ _ => .warn
  | .envLoading _ => .trace
  | .envBadName _ => .trace
  | .envBadValue _ _ => .debug
  | .reading _ _ => .trace
  | .writing _ _ => .trace
  | .noDirectory _ => .warn
  | .initError _ _ => .warn
  | .searchError _ => .warn

/-- The target of the record: `log`'s macros take the module they are expanded in, which for those in `create_config!`
(/repo/src/config_macro.rs:37, 43) is the module of the program that uses the macro. -/
def target (caller : String) : LogRecord → String
  | .layerExists _ => "bakunin_config::config"
  | .readError _ _ => "bakunin_config::config"
  | .envLoading _ => "bakunin_config::config_layer::layer_env"
  | .envBadName _ => "bakunin_config::config_layer::layer_env"
  | .envBadValue _ _ => "bakunin_config::config_layer::layer_env"
  | .reading f _ => "bakunin_config::config_layer::handlers::" ++ f.asStr
  | .writing f _ => "bakunin_config::config_layer::handlers::" ++ f.asStr
  | .noDirectory _ => "bakunin_config::file_finder::os_directory"
  | .initError _ _ => caller
  | .searchError _ => caller

end LogRecord

/-- How std and derives spell the arguments: `{:?}` of a string, of an OS string, of an `OSDirectory` and of an error, `Path::display`, and the texts of
I/O errors and user errors. Needed for /repo/src/config_layer/layer_env.rs:50, 59, 74, /repo/src/config_layer/handlers/toml.rs:8, /repo/src/file_finder/os_directory.rs:72, /repo/src/config_macro.rs:37. -/
structure Spelling where
  strDebug : String → String
  osDebug : OsStr → String
  path : OsStr → String
  dirDebug : OSDirectory → String
  errorDebug : BakuninError → String
  io : IoError → String
  user : Nat → String

/-- The name of the format in the texts of /repo/src/config_layer/handlers/toml.rs:8, 14 and json.rs:7, 13. -/
def FileExtension.inLog : FileExtension → String
  | .toml => "TOML"
  | .json => "JSON"
  | .custom e => e

/-- The text of a record: the format strings at the places cited in `LogRecord` (/repo/src/config.rs:32, 135, /repo/src/config_layer/layer_env.rs:50, 59, 74, …). -/
def LogRecord.message (sp : Spelling) : LogRecord → String
  | .layerExists name => "Layer '" ++ name ++ "' already exists in config, skipping addition"
  | .readError name e => "Error reading config layer '" ++ name ++ "': " ++ e.display sp.io sp.user
  | .envLoading pre => "Loading environment variables with prefix " ++ sp.strDebug pre
  | .envBadName name => "Invalid environment variable key: " ++ sp.osDebug name
  | .envBadValue key value => "Invalid environment variable [" ++ sp.strDebug key ++ "] value: " ++ sp.osDebug value
  | .reading f p => "Reading " ++ f.inLog ++ " file: " ++ sp.path p
  | .writing f p => "Writing " ++ f.inLog ++ " file: " ++ sp.path p
  | .noDirectory d => "Failed to resolve OS directory: " ++ sp.dirDebug d
  | .initError layer e => "Error writing default value to " ++ layer ++ " layer: " ++ sp.errorDebug e
  | .searchError e => "Error loading global config: " ++ sp.errorDebug e

/-- `Box<dyn ConfigLayer>`, with the handler of a file layer known: /repo/src/config_layer/layer_file.rs:8-14, layer_mem.rs:5-7, layer_env.rs:7-9. -/
inductive LogLayer where
  | memory (value : Value)
  | environment (pre : String)
  /-- `FileConfigLayer` with the crate's handler for the format -/
  | file (format : FileExtension) (c : Codec) (path : OsStr)
  /-- `FileConfigLayer` with a handler of the user -/
  | foreign (handler : FileHandler) (path : OsStr)
  | user (l : UserLayer)

namespace LogLayer

/-- The layer as in Model/Layer.lean: /repo/src/config_layer/layer_file.rs:8-14, layer_mem.rs:5-7, layer_env.rs:7-9. -/
def toLayer : LogLayer → Layer
  | .memory v => .memory v
  | .environment pre => .environment pre
  | .file _ c path => .file (textHandler c) path
  | .foreign h path => .file h path
  | .user l => .user l

/-- One round of the loop of /repo/src/config_layer/layer_env.rs:55-83: the map and the records so far. -/
def envStep (pre : String) (st : Entries × List LogRecord) (var : OsStr × OsStr) : Entries × List LogRecord :=
  match osToStr var.1 with
  | none => (st.1, st.2 ++ [.envBadName var.1])                       -- 58-61
  | some k =>
    let strKey := trimStr k                                           -- 57
    if pre.toList.isPrefixOf strKey.toList then                       -- 64-66
      let key := trimStartMatches strKey pre                          -- 68
      match osToStr var.2 with
      | none => (st.1, st.2 ++ [.envBadValue key var.2])              -- 72-79
      | some value => (hmInsert st.1 key (.string value), st.2)       -- 82
    else st

/-- /repo/src/config_layer/layer_env.rs:41-86 `EnvironmentConfigLayer::read_value`. -/
def readEnv (w : World) (pre : String) : Except BakuninError Value × List LogRecord :=
  if pre.isEmpty then
    (.error (.configLayerError (.errorReadingValue "Environment prefix cannot be empty")), [])
  else
    let st := w.env.foldl (envStep pre) ([], [.envLoading pre])
    (.ok (.map st.1), st.2)

/-- /repo/src/config_layer/handlers/toml.rs:7-11 `read`, json.rs:6-10: the record is written before anything is done. -/
def readFile (format : FileExtension) (c : Codec) (w : World) (path : OsStr) : Except BakuninError Value × List LogRecord :=
  let log := [.reading format path]
  match w.readToString path with
  | .error e => (.error (.ioError e), log)
  | .ok content =>
    match c.parse content with
    | .error msg => (.error (.configLayerError (.parseError msg)), log)
    | .ok doc => match visit doc with
      | .error msg => (.error (.configLayerError (.parseError msg)), log)
      | .ok v => (.ok v, log)

/-- /repo/src/config_layer/handlers/toml.rs:13-21 `write`, json.rs:12-19. -/
def writeFile (format : FileExtension) (c : Codec) (w : World) (path : OsStr) (value : Value) : (Except BakuninError Unit × World) × List LogRecord :=
  let log := [.writing format path]
  match c.print value.toData with
  | .error msg => ((.error (.configLayerError (.serializeError msg)), w), log)
  | .ok content =>
    match w.fsWrite path content with
    | (.error e, w) => ((.error (.ioError e), w), log)
    | (.ok (), w) => ((.ok (), w), log)

/-- `read_value`: /repo/src/config_layer/layer_mem.rs:33-35, layer_env.rs:41-86, layer_file.rs:56-62. -/
def readValue (w : World) : LogLayer → Except BakuninError Value × List LogRecord
  | .memory v => (.ok v, [])
  | .environment pre => readEnv w pre
  | .file f c path => if w.pathExists path then readFile f c w path else (.ok Value.newMap, [])
  | .foreign h path => (if w.pathExists path then h.read w path else .ok Value.newMap, [])
  | .user l => (l.readValue w, [])

/-- `write_value`: /repo/src/config_layer/layer_mem.rs:29-31, layer_env.rs:37-39, layer_file.rs:52-54. -/
def writeValue (w : World) (v : Value) : LogLayer → (Except BakuninError Unit × World) × List LogRecord
  | .memory _ => ((.error (.configLayerError .writeNotSupported), w), [])
  | .environment _ => ((.error (.configLayerError .writeNotSupported), w), [])
  | .file f c path => writeFile f c w path v
  | .foreign h path => (h.write w path v, [])
  | .user l => (l.writeValue w v, [])

end LogLayer

/-- /repo/src/config.rs:11-14 `struct BakuninConfig`. -/
structure LogConfig where
  names : List String
  layers : List (String × LogLayer)

namespace LogConfig

/-- /repo/src/config.rs:17-22 `new`. -/
def new : LogConfig := ⟨[], []⟩

/-- /repo/src/config.rs:29-40 `push_layer`, 45-48 `with_layer`. -/
def pushLayer (c : LogConfig) (name : String) (layer : LogLayer) : LogConfig × List LogRecord :=
  if (hmGet c.layers name).isSome then (c, [.layerExists name])
  else ({ names := c.names ++ [name], layers := hmInsert c.layers name layer }, [])

/-- /repo/src/config.rs:54-79 `add_file_layer`: the result, the configuration afterwards, and the records. -/
def addFileLayer (b : Build) (fm : Formats) (c : LogConfig) (name : String) (path : OsStr) :
    (Except BakuninError Unit × LogConfig) × List LogRecord :=
  if b.toml && FileExtension.toml.matchPath path then
    let r := c.pushLayer name (.file .toml fm.toml path)
    ((.ok (), r.1), r.2)
  else if b.json && FileExtension.json.matchPath path then
    let r := c.pushLayer name (.file .json fm.json path)
    ((.ok (), r.1), r.2)
  else
    let ext := ((pathExtension path).bind osToStr).getD ""
    ((.error (.configLayerError (.unsupportedExtension ext)), c), [])

/-- /repo/src/config.rs:94-96 `add_environment_layer`, 101-104 `with_environment_layer`, with /repo/src/config_layer/layer_env.rs:13-17 `new`. -/
def addEnvironmentLayer (c : LogConfig) (name pre : String) : LogConfig × List LogRecord := c.pushLayer name (.environment (trimStr pre))

/-- /repo/src/config.rs:109-111 `add_memory_layer`, 116-119 `with_memory_layer`. -/
def addMemoryLayer (c : LogConfig) (name : String) (v : Value) : LogConfig × List LogRecord := c.pushLayer name (.memory v)

/-- /repo/src/config.rs:121-123 `get_layer`. -/
def getLayer (c : LogConfig) (name : String) : Option LogLayer := hmGet c.layers name

/-- The loop of /repo/src/config.rs:130-145 from some point on, with the value built and the records written so far. -/
def buildLoop (w : World) (c : LogConfig) (skip : Bool) (value : Value) (log : List LogRecord) :
    List String → Except BakuninError Value × List LogRecord
  | [] => (.ok value, log)
  | name :: names =>
    match hmGet c.layers name with
    | some layer =>
      match layer.readValue w with
      | (.error e, more) =>
        if skip then buildLoop w c skip value (log ++ more ++ [.readError name e]) names
        else (.error e, log ++ more)
      | (.ok v, more) => buildLoop w c skip (value.merge v) (log ++ more) names
    | none => buildLoop w c skip value log names

/-- /repo/src/config.rs:127-148 `build_value`. -/
def buildValue (w : World) (c : LogConfig) (skip : Bool) : Except BakuninError Value × List LogRecord :=
  buildLoop w c skip Value.newMap [] c.names

end LogConfig

/-! ## `create_config!` -/

/-- /repo/src/file_finder/os_directory.rs:68-75 `with_os_directory`: the finder, and the records so far. -/
def FileFinder.withOsDirectoryLog (w : World) (st : FileFinder × List LogRecord) (d : OSDirectory) : FileFinder × List LogRecord :=
  match d.toPathBuf w with
  | some p => ({ st.1 with folders := st.1.folders ++ [p] }, st.2)
  | none => (st.1, st.2 ++ [.noDirectory d])

/-- The search of one layer: /repo/src/config_macro.rs:18-21. (The searches themselves write no records.) -/
def layerFinderLog (b : Build) (w : World) (fileName : String) (dirs : List OSDirectory) : Outcome BakuninError FindResult × List LogRecord :=
  let st := dirs.foldl (FileFinder.withOsDirectoryLog w) ((FileFinder.new fileName).withSupportedExtensions b, [])
  (FileFinder.findFirst b w st.1 true, st.2)

/-- The `init` part of one layer: /repo/src/config_macro.rs:31-41. -/
def initLayerLog (w : World) (c : LogConfig) (added : Bool) (path : OsStr) (spec : LayerSpec) (defaultValue : Value) : World × List LogRecord :=
  match spec.init with
  | none => (w, [])
  | some flag =>
    if added && !w.pathExists path && flag then
      match c.getLayer spec.name with
      | some layer =>
        match layer.writeValue w defaultValue with
        | ((.ok (), w), log) => (w, log)
        | ((.error e, w), log) => (w, log ++ [.initError spec.name e])
      | none => (w, [])
    else (w, [])

/-- One layer: /repo/src/config_macro.rs:18-44. -/
def macroLayerLog (b : Build) (fm : Formats) (fileName : String) (defaultValue : Value) (st : LogConfig × World) (spec : LayerSpec) :
    Outcome BakuninError (LogConfig × World) × List LogRecord :=
  match layerFinderLog b st.2 fileName spec.dirs with
  | (.ok r, log) =>
    let a := st.1.addFileLayer b fm spec.name r.path
    let added := match a.1.1 with | .ok () => true | .error _ => false
    let i := initLayerLog st.2 a.1.2 added r.path spec defaultValue
    (.ok (a.1.2, i.1), log ++ a.2 ++ i.2)
  | (.err e, log) => (.ok st, log ++ [.searchError e])
  | (.panic, log) => (.panic, log)

/-- The layers one after the other: /repo/src/config_macro.rs:17-45. -/
def macroLayersLog (b : Build) (fm : Formats) (fileName : String) (defaultValue : Value) (st : LogConfig × World) (log : List LogRecord) :
    List LayerSpec → Outcome BakuninError (LogConfig × World) × List LogRecord
  | [] => (.ok st, log)
  | spec :: specs =>
    match macroLayerLog b fm fileName defaultValue st spec with
    | (.ok st, more) => macroLayersLog b fm fileName defaultValue st (log ++ more) specs
    | (.err e, more) => (.err e, log ++ more)
    | (.panic, more) => (.panic, log ++ more)

/-- /repo/src/config_macro.rs:2-54 `create_config!`: the configuration and the world afterwards, and the records. -/
def createConfigLog (b : Build) (fm : Formats) (w : World) (args : MacroArgs) : Outcome BakuninError (LogConfig × World) × List LogRecord :=
  match valueMapMacro args.default with
  | none => (.panic, [])
  | some defaultValue =>
    let d := LogConfig.new.addMemoryLayer "default" defaultValue
    match macroLayersLog b fm args.fileName defaultValue (d.1, w) d.2 args.layers with
    | (.ok (c, w), log) =>
      match args.env with
      | some pre => (.ok ((c.addEnvironmentLayer "environment" pre).1, w), log ++ (c.addEnvironmentLayer "environment" pre).2)
      | none => (.ok (c, w), log)
    | (.err e, log) => (.err e, log)
    | (.panic, log) => (.panic, log)

end Verif
