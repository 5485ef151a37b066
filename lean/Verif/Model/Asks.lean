import Verif.Model.Config
/-!
# What the crate asks of the operating system

The functions of the crate once more, this time with the list of everything they ask of the outside world, in order. Each is proved to give the
same results as the plain model. Everything an answer depends on is asked for: no function here uses the world without adding to the list.
-/
namespace Verif

/-- One request to the outside world: what is called at the places cited at each, such as /repo/src/file_finder/alg_find_first.rs:23. -/
inductive Ask where
  /-- `path.exists()`: /repo/src/file_finder/alg_find_first.rs:23, find_result.rs:25, /repo/src/config_layer/layer_file.rs:45,57,
  /repo/src/config_macro.rs:33 -/
  | exists (p : OsStr)
  /-- the format's handler reads the file (`std::fs::read_to_string`): /repo/src/config_layer/layer_file.rs:61, handlers/toml.rs:9 -/
  | read (p : OsStr)
  /-- the format's handler is given a value for the file (`std::fs::write`): /repo/src/config_layer/layer_file.rs:53, handlers/toml.rs:18 -/
  | write (p : OsStr)
  /-- `std::env::vars_os()`: /repo/src/config_layer/layer_env.rs:55 -/
  | vars
  /-- `directories::BaseDirs::new()`: /repo/src/file_finder/os_directory.rs:48 -/
  | baseDirs
  /-- `std::env::current_dir()`: /repo/src/file_finder/os_directory.rs:53 -/
  | cwd
  /-- the `read_value` of a layer type of the program: /repo/src/config_layer/layer.rs:12 -/
  | userRead (name : String)
  /-- the `write_value` of a layer type of the program: /repo/src/config_layer/layer.rs:10 -/
  | userWrite (name : String)
  deriving DecidableEq, Repr

/-- What a call asked, and how it ended. Needed for /repo/src/file_finder/alg_find_first.rs:14. -/
structure Asking (α : Type) where
  asks : List Ask
  out : Outcome BakuninError α

namespace Asking

/-- Asks nothing. Needed for /repo/src/file_finder/alg_find_first.rs:14. -/
def pure {α : Type} (a : α) : Asking α := ⟨[], .ok a⟩

/-- One thing after another; nothing more is asked after an error or a panic. Needed for /repo/src/file_finder/alg_find_first.rs:15. -/
def bind {α β : Type} (x : Asking α) (f : α → Asking β) : Asking β :=
  match x.out with
  | .ok a => ⟨x.asks ++ (f a).asks, (f a).out⟩
  | .err e => ⟨x.asks, .err e⟩
  | .panic => ⟨x.asks, .panic⟩

/-- What asks nothing. Needed for /repo/src/file_finder/alg_find_first.rs:15. -/
def quiet {α : Type} (o : Outcome BakuninError α) : Asking α := ⟨[], o⟩

end Asking

/-- `path.exists()`: /repo/src/file_finder/alg_find_first.rs:23. -/
def existsA (w : World) (p : OsStr) : Asking Bool := ⟨[.exists p], .ok (w.pathExists p)⟩

/-- /repo/src/file_finder/find_result.rs:24-32 `FindResult::new`: it asks itself. -/
def FindResult.newA (b : Build) (w : World) (path : OsStr) (ext : String) : Asking FindResult :=
  (existsA w path).bind fun e => .pure { path := path, extension := FileExtension.ofStr b ext, index := 0, exists' := e }

namespace FileFinder

/-- The inner loop common to the searches: /repo/src/file_finder/alg_find_first.rs:21-31, alg_find_last.rs:24-31,
alg_find_all.rs:22-28, alg_find_all_or_first.rs:21-30. -/
def eachExtA {ρ σ : Type} (body : σ → OsStr → String → Asking (Flow ρ σ)) (base : OsStr) (st : σ) :
    List String → Asking (Flow ρ σ)
  | [] => .pure (.cont st)
  | ext :: exts =>
    (Asking.quiet (withExt base ext)).bind fun file => (body st file ext).bind fun
      | .ret r => .pure (.ret r)
      | .cont st => eachExtA body base st exts

/-- The outer loop common to the searches: /repo/src/file_finder/alg_find_first.rs:19-32, alg_find_last.rs:22-32,
alg_find_all.rs:20-29, alg_find_all_or_first.rs:19-31. -/
def eachFolderA {ρ σ : Type} (body : σ → OsStr → String → Asking (Flow ρ σ)) (fileName : String)
    (exts : List String) (st : σ) : List OsStr → Asking (Flow ρ σ)
  | [] => .pure (.cont st)
  | folder :: folders =>
    (eachExtA body (pathJoin folder (os fileName)) st exts).bind fun
      | .ret r => .pure (.ret r)
      | .cont st => eachFolderA body fileName exts st folders

/-- /repo/src/file_finder/alg_find_first.rs:23-30; the state is `first_found`. -/
def firstBodyA (b : Build) (w : World) (am : Bool) (first : Option FindResult) (file : OsStr) (ext : String) :
    Asking (Flow FindResult (Option FindResult)) :=
  (existsA w file).bind fun e =>
    if e then (FindResult.newA b w file ext).bind fun r => .pure (.ret r)
    else if am && first.isNone then (FindResult.newA b w file ext).bind fun r => .pure (.cont (some r))
    else .pure (.cont first)

/-- /repo/src/file_finder/alg_find_first.rs:14-41 `find_first`. -/
def findFirstA (b : Build) (w : World) (f : FileFinder) (am : Bool) : Asking FindResult :=
  (Asking.quiet f.validate).bind fun _ =>
    (eachFolderA (firstBodyA b w am) f.fileName f.extensions none f.folders).bind fun
      | .ret r => .pure r
      | .cont first => .quiet <|
        if am then
          match first with
          | some r => .ok r
          | none => .err (.fileFinderError .noFilesFound)
        else .err (.fileFinderError .noFilesFound)

/-- /repo/src/file_finder/alg_find_last.rs:26-30; the state is (`last_found`, `last_result`). -/
def lastBodyA (b : Build) (w : World) (am : Bool) (st : Option FindResult × Option FindResult) (file : OsStr) (ext : String) :
    Asking (Flow Empty (Option FindResult × Option FindResult)) :=
  (existsA w file).bind fun e =>
    if e then (FindResult.newA b w file ext).bind fun r => .pure (.cont (some r, st.2))
    else if am && st.1.isNone then (FindResult.newA b w file ext).bind fun r => .pure (.cont (st.1, some r))
    else .pure (.cont st)

/-- /repo/src/file_finder/alg_find_last.rs:14-43 `find_last`. -/
def findLastA (b : Build) (w : World) (f : FileFinder) (am : Bool) : Asking FindResult :=
  (Asking.quiet f.validate).bind fun _ =>
    (eachFolderA (lastBodyA b w am) f.fileName f.extensions (none, none) f.folders).bind fun
      | .ret r => r.elim
      | .cont st => .quiet <|
        match st.1 with
        | some r => .ok r
        | none =>
          if am then
            match st.2 with
            | some r => .ok r
            | none => .err (.fileFinderError .noFilesFound)
          else .err (.fileFinderError .noFilesFound)

/-- /repo/src/file_finder/alg_find_all.rs:24-27; the state is (`files`, `index`). `allow_missing || file.exists()` asks only without
`allow_missing`. -/
def allBodyA (b : Build) (w : World) (am : Bool) (st : List FindResult × Nat) (file : OsStr) (ext : String) :
    Asking (Flow Empty (List FindResult × Nat)) :=
  (if am then .pure true else existsA w file).bind fun e =>
    if e then (FindResult.newA b w file ext).bind fun r =>
      (Asking.quiet (incIndex b st.2)).bind fun i => .pure (.cont (st.1 ++ [r.withIndex st.2], i))
    else .pure (.cont st)

/-- /repo/src/file_finder/alg_find_all.rs:14-36 `find_all`. -/
def findAllA (b : Build) (w : World) (f : FileFinder) (am : Bool) : Asking (List FindResult) :=
  (Asking.quiet f.validate).bind fun _ =>
    (eachFolderA (allBodyA b w am) f.fileName f.extensions ([], 0) f.folders).bind fun
      | .ret r => r.elim
      | .cont st => .quiet <| if st.1.isEmpty then .err (.fileFinderError .noFilesFound) else .ok st.1

/-- /repo/src/file_finder/alg_find_all_or_first.rs:23-29. -/
def allOrFirstBodyA (b : Build) (w : World) (st : AllOrFirst) (file : OsStr) (ext : String) :
    Asking (Flow Empty AllOrFirst) :=
  (existsA w file).bind fun e =>
    if e then (FindResult.newA b w file ext).bind fun r =>
      (Asking.quiet (incIndex b st.index)).bind fun i =>
        .pure (.cont { st with files := st.files ++ [r.withIndex st.index], index := i })
    else if st.first.isNone then
      (FindResult.newA b w file ext).bind fun r => .pure (.cont { st with first := some r })
    else .pure (.cont st)

/-- /repo/src/file_finder/alg_find_all_or_first.rs:12-43 `find_all_or_first`. -/
def findAllOrFirstA (b : Build) (w : World) (f : FileFinder) : Asking (List FindResult) :=
  (Asking.quiet f.validate).bind fun _ =>
    (eachFolderA (allOrFirstBodyA b w) f.fileName f.extensions ⟨[], none, 0⟩ f.folders).bind fun
      | .ret r => r.elim
      | .cont st => .quiet <|
        if st.files.isEmpty then
          match st.first with
          | some r => .ok (st.files ++ [r.withIndex 0])
          | none => .err (.fileFinderError .noFilesFound)
        else .ok st.files

end FileFinder

/-! ## Layers and the build -/

/-- `read_value`: /repo/src/config_layer/layer_mem.rs:33-35, layer_env.rs:41-86, layer_file.rs:56-62. -/
def Layer.readValueA (w : World) : Layer → List Ask × Except BakuninError Value
  | .memory v => ([], .ok v)
  | .environment pre =>
    if pre.isEmpty then ([], .error (.configLayerError (.errorReadingValue "Environment prefix cannot be empty")))
    else ([.vars], .ok (.map (w.env.foldl (Layer.envStep pre) [])))
  | .file h path =>
    if !w.pathExists path then ([.exists path], .ok Value.newMap)
    else ([.exists path, .read path], h.read w path)
  | .user l => ([.userRead l.getName], l.readValue w)

/-- `write_value`: /repo/src/config_layer/layer_mem.rs:29-31, layer_env.rs:37-39, layer_file.rs:52-54. -/
def Layer.writeValueA (w : World) (v : Value) : Layer → List Ask × Except BakuninError Unit × World
  | .memory _ => ([], .error (.configLayerError .writeNotSupported), w)
  | .environment _ => ([], .error (.configLayerError .writeNotSupported), w)
  | .file h path => ([.write path], h.write w path v)
  | .user l => ([.userWrite l.getName], l.writeValue w v)

/-- The loop of /repo/src/config.rs:130-145. -/
def Config.buildLoopA (w : World) (c : Config) (skip : Bool) (value : Value) :
    List String → List Ask × Except BakuninError Value
  | [] => ([], .ok value)
  | name :: names =>
    match hmGet c.layers name with
    | some layer =>
      let r := layer.readValueA w
      match r.2 with
      | .error e =>
        if skip then
          let rest := buildLoopA w c skip value names
          (r.1 ++ rest.1, rest.2)
        else (r.1, .error e)
      | .ok v =>
        let rest := buildLoopA w c skip (value.merge v) names
        (r.1 ++ rest.1, rest.2)
    | none => buildLoopA w c skip value names

/-- /repo/src/config.rs:127-148 `build_value`. -/
def Config.buildValueA (w : World) (c : Config) (skip : Bool) : List Ask × Except BakuninError Value :=
  buildLoopA w c skip Value.newMap c.names

/-! ## `create_config!` -/

/-- /repo/src/file_finder/os_directory.rs:47-63 `to_path_buf`: `BaseDirs::new` every time, and the working directory only when that gave
something. -/
def OSDirectory.toPathBufA (w : World) (d : OSDirectory) : List Ask × Option OsStr :=
  match w.baseDirs with
  | some dir => match d with
    | .userHome => ([.baseDirs], some dir.home)
    | .userConfig => ([.baseDirs], some dir.config)
    | .userPreferences => ([.baseDirs], some dir.preference)
    | .workingDirectory => ([.baseDirs, .cwd], w.cwd)
    | .appHome app => ([.baseDirs], some (pathJoin dir.home (os app)))
    | .appConfig app => ([.baseDirs], some (pathJoin dir.config (os app)))
    | .path p => ([.baseDirs], some (os p))
  | none => ([.baseDirs], none)

/-- /repo/src/file_finder/os_directory.rs:68-75 `with_os_directory`, once for each directory, /repo/src/config_macro.rs:20. -/
def FileFinder.withDirsA (w : World) (f : FileFinder) : List OSDirectory → List Ask × FileFinder
  | [] => ([], f)
  | d :: ds =>
    let r := d.toPathBufA w
    let f := match r.2 with
      | some p => { f with folders := f.folders ++ [p] }
      | none => f
    let rest := withDirsA w f ds
    (r.1 ++ rest.1, rest.2)

/-- The search of one layer: /repo/src/config_macro.rs:18-21. -/
def layerFinderA (b : Build) (w : World) (fileName : String) (dirs : List OSDirectory) : Asking FindResult :=
  let f := FileFinder.withDirsA w ((FileFinder.new fileName).withSupportedExtensions b) dirs
  let r := FileFinder.findFirstA b w f.2 true
  ⟨f.1 ++ r.asks, r.out⟩

/-- The `init` part of one layer: /repo/src/config_macro.rs:31-41; `&&` asks for the path only when the layer was added. -/
def initLayerA (w : World) (c : Config) (added : Bool) (path : OsStr) (spec : LayerSpec) (defaultValue : Value) :
    List Ask × World :=
  match spec.init with
  | none => ([], w)
  | some flag =>
    if added then
      if !w.pathExists path && flag then
        match c.getLayer spec.name with
        | some layer =>
          let r := layer.writeValueA w defaultValue
          ([.exists path] ++ r.1, r.2.2)
        | none => ([.exists path], w)
      else ([.exists path], w)
    else ([], w)

/-- One layer: /repo/src/config_macro.rs:18-44. -/
def macroLayerA (b : Build) (fm : Formats) (fileName : String) (defaultValue : Value) (st : Config × World)
    (spec : LayerSpec) : Asking (Config × World) :=
  let s := layerFinderA b st.2 fileName spec.dirs
  match s.out with
  | .ok r =>
    let (res, c) := st.1.addFileLayer b fm spec.name r.path
    let added := match res with | .ok () => true | .error _ => false
    let i := initLayerA st.2 c added r.path spec defaultValue
    ⟨s.asks ++ i.1, .ok (c, i.2)⟩
  | .err _ => ⟨s.asks, .ok st⟩
  | .panic => ⟨s.asks, .panic⟩

/-- The layers one after the other: /repo/src/config_macro.rs:17-45. -/
def macroLayersA (b : Build) (fm : Formats) (fileName : String) (defaultValue : Value) (st : Config × World) :
    List LayerSpec → Asking (Config × World)
  | [] => .pure st
  | spec :: specs =>
    (macroLayerA b fm fileName defaultValue st spec).bind fun st => macroLayersA b fm fileName defaultValue st specs

/-- /repo/src/config_macro.rs:2-54 `create_config!`. -/
def createConfigA (b : Build) (fm : Formats) (w : World) (args : MacroArgs) : Asking (Config × World) :=
  match valueMapMacro args.default with
  | none => ⟨[], .panic⟩
  | some defaultValue =>
    (macroLayersA b fm args.fileName defaultValue (Config.new.addMemoryLayer "default" defaultValue, w) args.layers).bind
      fun (c, w) =>
        match args.env with
        | some pre => .pure (c.addEnvironmentLayer "environment" pre, w)
        | none => .pure (c, w)

end Verif
