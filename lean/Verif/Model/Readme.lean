import Verif.Model.Config
/-!
# The program that `create_config!` is said to abbreviate: models /repo/README.MD:237-291

README.MD:293 claims that the macro is a simplification of this program.
-/
namespace Verif.Readme

/-- The search for the global file: /repo/README.MD:252-256. -/
def globalFinder (b : Build) (w : World) (fileName : String) : Outcome BakuninError FindResult :=
  ((((FileFinder.new fileName).withSupportedExtensions b).withUserHome w).withUserConfig w).findFirst b w true

/-- The global layer, created with the defaults if it does not exist: /repo/README.MD:258-271 (`unwrap` panics when the write fails). -/
def globalPart (b : Build) (fm : Formats) (c : Config) (w : World) (fileName : String) (defaultValue : Value) :
    Outcome BakuninError (Config × World) :=
  match globalFinder b w fileName with
  | .ok r =>
    let c := (c.addFileLayer b fm "global" r.path).2
    if !w.pathExists r.path then
      match c.getLayer "global" with
      | some cfg =>
        match cfg.writeValue w defaultValue with
        | (.ok (), w) => .ok (c, w)
        | (.error _, _) => .panic
      | none => .ok (c, w)
    else .ok (c, w)
  | .err _ => .ok (c, w)
  | .panic => .panic

/-- The search for the local file: /repo/README.MD:273-276. -/
def localFinder (b : Build) (w : World) (fileName : String) : Outcome BakuninError FindResult :=
  (((FileFinder.new fileName).withSupportedExtensions b).withWorkingDirectory w).findFirst b w false

/-- The local layer, if there is a file: /repo/README.MD:278-285. -/
def localPart (b : Build) (fm : Formats) (c : Config) (w : World) (fileName : String) : Outcome BakuninError Config :=
  match localFinder b w fileName with
  | .ok r => .ok (c.addFileLayer b fm "local" r.path).2
  | .err _ => .ok c
  | .panic => .panic

/-- The whole program up to `build_value`: /repo/README.MD:240-288, with the name, the defaults and the prefix as parameters. The
configuration, and the world afterwards. -/
def program (b : Build) (fm : Formats) (w : World) (fileName : String) (default : List (String × Value)) (pre : String) :
    Outcome BakuninError (Config × World) :=
  match valueMapMacro default with
  | none => .panic
  | some defaultValue =>
    globalPart b fm (Config.new.addMemoryLayer "default" defaultValue) w fileName defaultValue >>= fun (c, w) =>
    localPart b fm c w fileName >>= fun c =>
    .ok (c.addEnvironmentLayer "env" pre, w)

/-- The arguments of the `create_config!` of /repo/README.MD:298-310. -/
def macroArgs (fileName : String) (default : List (String × Value)) (pre : String) : MacroArgs :=
  { fileName := fileName, default := default, env := some pre,
    layers := [⟨"global", [.userHome, .userConfig], some true⟩, ⟨"local", [.workingDirectory], none⟩] }

end Verif.Readme
