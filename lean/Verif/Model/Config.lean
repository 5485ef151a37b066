import Verif.Model.Layer
import Verif.Model.Merge
/-!
# The configuration builder: models /repo/src/config.rs
-/
namespace Verif

/-- The two text formats the crate is compiled with. Needed for /repo/src/config.rs:55-76 (which handler a feature selects). -/
structure Formats where
  toml : Codec
  json : Codec

/-- /repo/src/config.rs:11-14 `struct BakuninConfig`. -/
structure Config where
  names : List String
  layers : List (String × Layer)

namespace Config

/-- /repo/src/config.rs:17-22 `new`. -/
def new : Config := ⟨[], []⟩

/-- /repo/src/config.rs:29-40 `push_layer`. -/
def pushLayer (c : Config) (name : String) (layer : Layer) : Config :=
  if (hmGet c.layers name).isSome then c
  else { names := c.names ++ [name], layers := hmInsert c.layers name layer }

/-- /repo/src/config.rs:45-48 `with_layer`. -/
def withLayer (c : Config) (name : String) (layer : Layer) : Config := c.pushLayer name layer

/-- /repo/src/config.rs:54-79 `add_file_layer`: the result, and the configuration afterwards. -/
def addFileLayer (b : Build) (fm : Formats) (c : Config) (name : String) (path : OsStr) :
    Except BakuninError Unit × Config :=
  if b.toml && FileExtension.toml.matchPath path then
    (.ok (), c.pushLayer name (Layer.newFile (textHandler fm.toml) path))
  else if b.json && FileExtension.json.matchPath path then
    (.ok (), c.pushLayer name (Layer.newFile (textHandler fm.json) path))
  else
    let ext := ((pathExtension path).bind osToStr).getD ""
    (.error (.configLayerError (.unsupportedExtension ext)), c)

/-- /repo/src/config.rs:84-87 `with_file_layer`. -/
def withFileLayer (b : Build) (fm : Formats) (c : Config) (name : String) (path : OsStr) :
    Except BakuninError Config :=
  match c.addFileLayer b fm name path with
  | (.ok (), c) => .ok c
  | (.error e, _) => .error e

/-- /repo/src/config.rs:94-96 `add_environment_layer`. -/
def addEnvironmentLayer (c : Config) (name pre : String) : Config := c.pushLayer name (Layer.newEnvironment pre)

/-- /repo/src/config.rs:101-104 `with_environment_layer`. -/
def withEnvironmentLayer (c : Config) (name pre : String) : Config := c.addEnvironmentLayer name pre

/-- /repo/src/config.rs:109-111 `add_memory_layer`. -/
def addMemoryLayer (c : Config) (name : String) (v : Value) : Config := c.pushLayer name (Layer.newMemory v)

/-- /repo/src/config.rs:116-119 `with_memory_layer`. -/
def withMemoryLayer (c : Config) (name : String) (v : Value) : Config := c.addMemoryLayer name v

/-- /repo/src/config.rs:121-123 `get_layer`. -/
def getLayer (c : Config) (name : String) : Option Layer := hmGet c.layers name

/-- The loop of /repo/src/config.rs:130-145 from some point on, with the value built so far. -/
def buildLoop (w : World) (c : Config) (skip : Bool) (value : Value) : List String → Except BakuninError Value
  | [] => .ok value
  | name :: names =>
    match hmGet c.layers name with
    | some layer =>
      match layer.readValue w with
      | .error e => if skip then buildLoop w c skip value names else .error e
      | .ok v => buildLoop w c skip (value.merge v) names
    | none => buildLoop w c skip value names

/-- /repo/src/config.rs:127-148 `build_value`. -/
def buildValue (w : World) (c : Config) (skip : Bool) : Except BakuninError Value :=
  buildLoop w c skip Value.newMap c.names

end Config

/-! ## `create_config!`: models /repo/src/config_macro.rs -/

/-- One `"layer": [dirs] init: flag` of the macro, /repo/src/config_macro.rs:6. (The macro as written only compiles for
directories without argument and `Path`, because it passes `AppConfig`/`AppHome` a `String`.) -/
structure LayerSpec where
  name : String
  dirs : List OSDirectory
  init : Option Bool

/-- The arguments of the macro: /repo/src/config_macro.rs:3-7. -/
structure MacroArgs where
  fileName : String
  default : List (String × Value)
  env : Option String
  layers : List LayerSpec

/-- The search of one layer: /repo/src/config_macro.rs:18-21. -/
def layerFinder (b : Build) (w : World) (fileName : String) (dirs : List OSDirectory) :
    Outcome BakuninError FindResult :=
  FileFinder.findFirst b w
    (dirs.foldl (FileFinder.withOsDirectory w) ((FileFinder.new fileName).withSupportedExtensions b)) true

/-- The `init` part of one layer: /repo/src/config_macro.rs:31-41. -/
def initLayer (w : World) (c : Config) (added : Bool) (path : OsStr) (spec : LayerSpec) (defaultValue : Value) : World :=
  match spec.init with
  | none => w
  | some flag =>
    if added && !w.pathExists path && flag then
      match c.getLayer spec.name with
      | some layer => (layer.writeValue w defaultValue).2       -- an error is only logged
      | none => w
    else w

/-- One layer: /repo/src/config_macro.rs:18-44. -/
def macroLayer (b : Build) (fm : Formats) (fileName : String) (defaultValue : Value) (st : Config × World)
    (spec : LayerSpec) : Outcome BakuninError (Config × World) :=
  match layerFinder b st.2 fileName spec.dirs with
  | .ok r =>
    let (res, c) := st.1.addFileLayer b fm spec.name r.path
    let added := match res with | .ok () => true | .error _ => false
    .ok (c, initLayer st.2 c added r.path spec defaultValue)
  | .err _ => .ok st
  | .panic => .panic

/-- The layers one after the other: /repo/src/config_macro.rs:17-45. -/
def macroLayers (b : Build) (fm : Formats) (fileName : String) (defaultValue : Value) (st : Config × World) :
    List LayerSpec → Outcome BakuninError (Config × World)
  | [] => .ok st
  | spec :: specs =>
    macroLayer b fm fileName defaultValue st spec >>= fun st => macroLayers b fm fileName defaultValue st specs

/-- /repo/src/config_macro.rs:2-54 `create_config!`: the configuration, and the world afterwards. -/
def createConfig (b : Build) (fm : Formats) (w : World) (args : MacroArgs) : Outcome BakuninError (Config × World) :=
  match valueMapMacro args.default with
  | none => .panic
  | some defaultValue =>
    macroLayers b fm args.fileName defaultValue (Config.new.addMemoryLayer "default" defaultValue, w) args.layers >>=
      fun (c, w) =>
        match args.env with
        | some pre => .ok (c.addEnvironmentLayer "environment" pre, w)
        | none => .ok (c, w)

/-- The `init` part of one layer, /repo/src/config_macro.rs:31-41, when between the look at the path (line 33) and the write (lines
35-39) other processes change the world in some way. -/
def initLayerRaced (between : World → World) (w : World) (c : Config) (added : Bool) (path : OsStr) (spec : LayerSpec)
    (defaultValue : Value) : World :=
  match spec.init with
  | none => between w
  | some flag =>
    if added && !w.pathExists path && flag then
      match c.getLayer spec.name with
      | some layer => (layer.writeValue (between w) defaultValue).2
      | none => between w
    else between w

end Verif
