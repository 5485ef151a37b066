import Verif.Model.Race
/-!
# `create_config!` among other processes

The same macro as `createConfig` (Model/Config.lean), but the world may be a different one whenever the macro touches it.
-/
namespace Verif

/-- The worlds that one layer of the macro meets: when its directories are resolved (/repo/src/config_macro.rs:20), at each look of the
search (line 21), when it checks the path (line 32), and when it writes (lines 34-36). -/
structure LayerMoments where
  dirs : World
  search : Moments
  check : World
  write : World

/-- One `write_value` that the macro issued (/repo/src/config_macro.rs:34-36): for which layer, through which layer of the configuration,
at what world, and what came out. -/
structure Wrote where
  layer : String
  through : Layer
  at' : World
  value : Value
  result : Except BakuninError Unit × World

/-- The search of one layer: /repo/src/config_macro.rs:18-21. -/
def layerFinderR (b : Build) (m : LayerMoments) (fileName : String) (dirs : List OSDirectory) : Outcome BakuninError FindResult :=
  FileFinder.findFirstR b m.search
    (dirs.foldl (FileFinder.withOsDirectory m.dirs) ((FileFinder.new fileName).withSupportedExtensions b)) true

/-- The `init` part of one layer: /repo/src/config_macro.rs:31-41: the write it issues, if it does. -/
def initLayerR (m : LayerMoments) (c : Config) (added : Bool) (path : OsStr) (spec : LayerSpec) (defaultValue : Value) : List Wrote :=
  match spec.init with
  | none => []
  | some flag =>
    if added && !m.check.pathExists path && flag then
      match c.getLayer spec.name with
      | some layer => [⟨spec.name, layer, m.write, defaultValue, layer.writeValue m.write defaultValue⟩]
      | none => []
    else []

/-- One layer: /repo/src/config_macro.rs:18-44: the configuration so far, and the writes so far. -/
def macroLayerR (b : Build) (fm : Formats) (fileName : String) (defaultValue : Value) (st : Config × List Wrote)
    (spec : LayerSpec) (m : LayerMoments) : Outcome BakuninError (Config × List Wrote) :=
  match layerFinderR b m fileName spec.dirs with
  | .ok r =>
    let (res, c) := st.1.addFileLayer b fm spec.name r.path
    let added := match res with | .ok () => true | .error _ => false
    .ok (c, st.2 ++ initLayerR m c added r.path spec defaultValue)
  | .err _ => .ok st
  | .panic => .panic

/-- The layers one after the other, each with the worlds it meets: /repo/src/config_macro.rs:17-45. -/
def macroLayersR (b : Build) (fm : Formats) (fileName : String) (defaultValue : Value) (st : Config × List Wrote) :
    List (LayerSpec × LayerMoments) → Outcome BakuninError (Config × List Wrote)
  | [] => .ok st
  | (spec, m) :: rest =>
    macroLayerR b fm fileName defaultValue st spec m >>= fun st => macroLayersR b fm fileName defaultValue st rest

/-- /repo/src/config_macro.rs:2-54 `create_config!`: the configuration, and the writes it issued. `ms` are the worlds that the layers meet,
layer by layer. -/
def createConfigR (b : Build) (fm : Formats) (args : MacroArgs) (ms : List LayerMoments) : Outcome BakuninError (Config × List Wrote) :=
  match valueMapMacro args.default with
  | none => .panic
  | some defaultValue =>
    macroLayersR b fm args.fileName defaultValue (Config.new.addMemoryLayer "default" defaultValue, []) (args.layers.zip ms) >>=
      fun (c, ws) =>
        match args.env with
        | some pre => .ok (c.addEnvironmentLayer "environment" pre, ws)
        | none => .ok (c, ws)

end Verif
