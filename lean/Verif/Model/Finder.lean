import Verif.Model.World
/-!
# The file finder: models /repo/src/file_finder
-/
namespace Verif

/-- How the crate was compiled: the cargo features (/repo/Cargo.toml:24-27) and whether integer overflow is
checked (rustc's debug profile) or wraps (release). -/
structure Build where
  toml : Bool
  json : Bool
  overflowChecks : Bool

/-- /repo/src/file_finder/file_extension.rs:4-10 `enum FileExtension`. -/
inductive FileExtension where
  | custom (ext : String)
  | toml
  | json
  deriving DecidableEq, Repr

namespace FileExtension

/-- /repo/src/file_finder/file_extension.rs:12-22 `From<&str>`: the patterns have a leading dot. -/
def ofStr (b : Build) (ext : String) : FileExtension :=
  if b.toml = true ∧ ext = ".toml" then .toml
  else if b.json = true ∧ ext = ".json" then .json
  else .custom ext

/-- /repo/src/file_finder/file_extension.rs:31-38 `as_str`. -/
def asStr : FileExtension → String
  | .custom ext => ext
  | .toml => "toml"
  | .json => "json"

/-- /repo/src/file_finder/file_extension.rs:40-49 `match_path`. -/
def matchPath (e : FileExtension) (p : OsStr) : Bool :=
  let ext := (pathExtension p).bind osToStr
  match e with
  | .toml => ext == some "toml"
  | .json => ext == some "json"
  | .custom _ => false

end FileExtension

/-- /repo/src/file_finder/find_result.rs:6-15 `struct FindResult` (`index : u16`). -/
structure FindResult where
  path : OsStr
  extension : FileExtension
  index : Nat
  exists' : Bool
  deriving DecidableEq, Repr

/-- /repo/src/file_finder/find_result.rs:24-32 `FindResult::new`. -/
def FindResult.new (b : Build) (w : World) (path : OsStr) (ext : String) : FindResult :=
  { path := path, extension := FileExtension.ofStr b ext, index := 0, exists' := w.pathExists path }

/-- /repo/src/file_finder/find_result.rs:34-37 `with_index`. -/
def FindResult.withIndex (r : FindResult) (i : Nat) : FindResult := { r with index := i }

/-- /repo/src/file_finder/finder.rs:6-10 `struct FileFinder`. -/
structure FileFinder where
  folders : List OsStr
  fileName : String
  extensions : List String

/-- /repo/src/file_finder/os_directory.rs:7-43 `enum OSDirectory`. -/
inductive OSDirectory where
  | workingDirectory
  | userHome
  | userConfig
  | userPreferences
  | appConfig (app : String)
  | appHome (app : String)
  | path (p : String)
  deriving DecidableEq, Repr

/-- /repo/src/file_finder/os_directory.rs:47-63 `to_path_buf`. -/
def OSDirectory.toPathBuf (w : World) (d : OSDirectory) : Option OsStr :=
  match w.baseDirs with
  | some dir => match d with
    | .userHome => some dir.home
    | .userConfig => some dir.config
    | .userPreferences => some dir.preference
    | .workingDirectory => w.cwd
    | .appHome app => some (pathJoin dir.home (os app))
    | .appConfig app => some (pathJoin dir.config (os app))
    | .path p => some (os p)
  | none => none

namespace FileFinder

/-- /repo/src/file_finder/finder.rs:16-22 `FileFinder::new`. -/
def new (name : String) : FileFinder := { folders := [], fileName := name, extensions := [] }

/-- /repo/src/file_finder/finder.rs:24-26 `get_file_name`. -/
def getFileName (f : FileFinder) : String := f.fileName

/-- /repo/src/file_finder/finder.rs:30-33 `with_extension`. -/
def withExtension (f : FileFinder) (ext : String) : FileFinder := { f with extensions := f.extensions ++ [ext] }

/-- /repo/src/file_finder/finder.rs:36-39 `with_folder`. -/
def withFolder (f : FileFinder) (folder : OsStr) : FileFinder := { f with folders := f.folders ++ [folder] }

/-- /repo/src/file_finder/file_extension.rs:55-57 `with_toml`. -/
def withToml (f : FileFinder) : FileFinder := f.withExtension FileExtension.toml.asStr

/-- /repo/src/file_finder/file_extension.rs:61-63 `with_json`. -/
def withJson (f : FileFinder) : FileFinder := f.withExtension FileExtension.json.asStr

/-- /repo/src/file_finder/file_extension.rs:66-77 `with_supported_extensions`. -/
def withSupportedExtensions (b : Build) (f : FileFinder) : FileFinder :=
  let f := if b.toml then f.withToml else f
  if b.json then f.withJson else f

/-- /repo/src/file_finder/os_directory.rs:68-75 `with_os_directory`. -/
def withOsDirectory (w : World) (f : FileFinder) (d : OSDirectory) : FileFinder :=
  match d.toPathBuf w with
  | some p => { f with folders := f.folders ++ [p] }
  | none => f

/-- /repo/src/file_finder/os_directory.rs:78-80 `with_working_directory`. -/
def withWorkingDirectory (w : World) (f : FileFinder) : FileFinder := f.withOsDirectory w .workingDirectory

/-- /repo/src/file_finder/os_directory.rs:83-85 `with_user_home`. -/
def withUserHome (w : World) (f : FileFinder) : FileFinder := f.withOsDirectory w .userHome

/-- /repo/src/file_finder/os_directory.rs:88-90 `with_user_config`. -/
def withUserConfig (w : World) (f : FileFinder) : FileFinder := f.withOsDirectory w .userConfig

/-- /repo/src/file_finder/os_directory.rs:93-95 `with_user_preferences`. -/
def withUserPreferences (w : World) (f : FileFinder) : FileFinder := f.withOsDirectory w .userPreferences

/-- /repo/src/file_finder/os_directory.rs:98-100 `with_app_config`. -/
def withAppConfig (w : World) (f : FileFinder) (app : String) : FileFinder := f.withOsDirectory w (.appConfig app)

/-- /repo/src/file_finder/os_directory.rs:103-105 `with_app_home`. -/
def withAppHome (w : World) (f : FileFinder) (app : String) : FileFinder := f.withOsDirectory w (.appHome app)

/-- /repo/src/file_finder/os_directory.rs:108-110 `with_path`. -/
def withPath (w : World) (f : FileFinder) (p : String) : FileFinder := f.withOsDirectory w (.path p)

/-- /repo/src/file_finder/finder.rs:41-49 `validate`. -/
def validate (f : FileFinder) : Outcome BakuninError Unit :=
  if f.folders.isEmpty then .err (.fileFinderError .noFoldersDefined)
  else if f.extensions.isEmpty then .err (.fileFinderError .noExtensionsDefined)
  else .ok ()

/-- `base_file.with_extension(ext)`, a panic if `ext` contains a separator. Needed for /repo/src/file_finder/alg_find_first.rs:22. -/
def withExt (base : OsStr) (ext : String) : Outcome BakuninError OsStr :=
  match pathWithExtension base (os ext) with
  | some p => .ok p
  | none => .panic

/-- What a loop does next: `return`s from the function, or goes on with a new state. Needed for /repo/src/file_finder/alg_find_first.rs:19-32. -/
inductive Flow (ρ σ : Type) where
  | ret (r : ρ)
  | cont (s : σ)

/-! ### find_first: /repo/src/file_finder/alg_find_first.rs -/

/-- The inner loop, /repo/src/file_finder/alg_find_first.rs:21-31. -/
def findFirstExts (b : Build) (w : World) (allowMissing : Bool) (base : OsStr) (first : Option FindResult) :
    List String → Outcome BakuninError (Flow FindResult (Option FindResult))
  | [] => .ok (.cont first)
  | ext :: exts =>
    withExt base ext >>= fun file =>
      if w.pathExists file then .ok (.ret (FindResult.new b w file ext))
      else if allowMissing && first.isNone then
        findFirstExts b w allowMissing base (some (FindResult.new b w file ext)) exts
      else findFirstExts b w allowMissing base first exts

/-- The outer loop, /repo/src/file_finder/alg_find_first.rs:19-32. -/
def findFirstFolders (b : Build) (w : World) (allowMissing : Bool) (fileName : String) (exts : List String)
    (first : Option FindResult) : List OsStr → Outcome BakuninError (Flow FindResult (Option FindResult))
  | [] => .ok (.cont first)
  | folder :: folders =>
    findFirstExts b w allowMissing (pathJoin folder (os fileName)) first exts >>= fun
      | .ret r => .ok (.ret r)
      | .cont first => findFirstFolders b w allowMissing fileName exts first folders

/-- /repo/src/file_finder/alg_find_first.rs:14-41 `find_first`. -/
def findFirst (b : Build) (w : World) (f : FileFinder) (allowMissing : Bool) : Outcome BakuninError FindResult :=
  f.validate >>= fun _ =>
    findFirstFolders b w allowMissing f.fileName f.extensions none f.folders >>= fun
      | .ret r => .ok r
      | .cont first =>
        if allowMissing then
          match first with
          | some r => .ok r
          | none => .err (.fileFinderError .noFilesFound)
        else .err (.fileFinderError .noFilesFound)

/-! ### find_last: /repo/src/file_finder/alg_find_last.rs -/

/-- The inner loop, /repo/src/file_finder/alg_find_last.rs:24-31; the state is (`last_found`, `last_result`). -/
def findLastExts (b : Build) (w : World) (allowMissing : Bool) (base : OsStr)
    (st : Option FindResult × Option FindResult) :
    List String → Outcome BakuninError (Option FindResult × Option FindResult)
  | [] => .ok st
  | ext :: exts =>
    withExt base ext >>= fun file =>
      if w.pathExists file then
        findLastExts b w allowMissing base (some (FindResult.new b w file ext), st.2) exts
      else if allowMissing && st.1.isNone then
        findLastExts b w allowMissing base (st.1, some (FindResult.new b w file ext)) exts
      else findLastExts b w allowMissing base st exts

/-- The outer loop, /repo/src/file_finder/alg_find_last.rs:22-32. -/
def findLastFolders (b : Build) (w : World) (allowMissing : Bool) (fileName : String) (exts : List String)
    (st : Option FindResult × Option FindResult) :
    List OsStr → Outcome BakuninError (Option FindResult × Option FindResult)
  | [] => .ok st
  | folder :: folders =>
    findLastExts b w allowMissing (pathJoin folder (os fileName)) st exts >>= fun st =>
      findLastFolders b w allowMissing fileName exts st folders

/-- /repo/src/file_finder/alg_find_last.rs:14-43 `find_last`. -/
def findLast (b : Build) (w : World) (f : FileFinder) (allowMissing : Bool) : Outcome BakuninError FindResult :=
  f.validate >>= fun _ =>
    findLastFolders b w allowMissing f.fileName f.extensions (none, none) f.folders >>= fun st =>
      match st.1 with
      | some r => .ok r
      | none =>
        if allowMissing then
          match st.2 with
          | some r => .ok r
          | none => .err (.fileFinderError .noFilesFound)
        else .err (.fileFinderError .noFilesFound)

/-! ### find_all: /repo/src/file_finder/alg_find_all.rs -/

/-- `index += 1` on a `u16`: /repo/src/file_finder/alg_find_all.rs:26, alg_find_all_or_first.rs:25. -/
def incIndex (b : Build) (i : Nat) : Outcome BakuninError Nat :=
  if i + 1 < 65536 then .ok (i + 1) else if b.overflowChecks then .panic else .ok 0

/-- The inner loop, /repo/src/file_finder/alg_find_all.rs:22-28; the state is (`files`, `index`). -/
def findAllExts (b : Build) (w : World) (allowMissing : Bool) (base : OsStr) (st : List FindResult × Nat) :
    List String → Outcome BakuninError (List FindResult × Nat)
  | [] => .ok st
  | ext :: exts =>
    withExt base ext >>= fun file =>
      if allowMissing || w.pathExists file then
        incIndex b st.2 >>= fun i =>
          findAllExts b w allowMissing base (st.1 ++ [(FindResult.new b w file ext).withIndex st.2], i) exts
      else findAllExts b w allowMissing base st exts

/-- The outer loop, /repo/src/file_finder/alg_find_all.rs:20-29. -/
def findAllFolders (b : Build) (w : World) (allowMissing : Bool) (fileName : String) (exts : List String)
    (st : List FindResult × Nat) : List OsStr → Outcome BakuninError (List FindResult × Nat)
  | [] => .ok st
  | folder :: folders =>
    findAllExts b w allowMissing (pathJoin folder (os fileName)) st exts >>= fun st =>
      findAllFolders b w allowMissing fileName exts st folders

/-- /repo/src/file_finder/alg_find_all.rs:14-36 `find_all`. -/
def findAll (b : Build) (w : World) (f : FileFinder) (allowMissing : Bool) :
    Outcome BakuninError (List FindResult) :=
  f.validate >>= fun _ =>
    findAllFolders b w allowMissing f.fileName f.extensions ([], 0) f.folders >>= fun st =>
      if st.1.isEmpty then .err (.fileFinderError .noFilesFound) else .ok st.1

/-! ### find_all_or_first: /repo/src/file_finder/alg_find_all_or_first.rs -/

/-- The state of the loops: `files`, `first_file`, `index`. Needed for /repo/src/file_finder/alg_find_all_or_first.rs:15-17. -/
structure AllOrFirst where
  files : List FindResult
  first : Option FindResult
  index : Nat

/-- The inner loop, /repo/src/file_finder/alg_find_all_or_first.rs:21-30. -/
def findAllOrFirstExts (b : Build) (w : World) (base : OsStr) (st : AllOrFirst) :
    List String → Outcome BakuninError AllOrFirst
  | [] => .ok st
  | ext :: exts =>
    withExt base ext >>= fun file =>
      if w.pathExists file then
        incIndex b st.index >>= fun i =>
          findAllOrFirstExts b w base
            { st with files := st.files ++ [(FindResult.new b w file ext).withIndex st.index], index := i } exts
      else if st.first.isNone then
        findAllOrFirstExts b w base { st with first := some (FindResult.new b w file ext) } exts
      else findAllOrFirstExts b w base st exts

/-- The outer loop, /repo/src/file_finder/alg_find_all_or_first.rs:19-31. -/
def findAllOrFirstFolders (b : Build) (w : World) (fileName : String) (exts : List String) (st : AllOrFirst) :
    List OsStr → Outcome BakuninError AllOrFirst
  | [] => .ok st
  | folder :: folders =>
    findAllOrFirstExts b w (pathJoin folder (os fileName)) st exts >>= fun st =>
      findAllOrFirstFolders b w fileName exts st folders

/-- /repo/src/file_finder/alg_find_all_or_first.rs:12-43 `find_all_or_first`. -/
def findAllOrFirst (b : Build) (w : World) (f : FileFinder) : Outcome BakuninError (List FindResult) :=
  f.validate >>= fun _ =>
    findAllOrFirstFolders b w f.fileName f.extensions ⟨[], none, 0⟩ f.folders >>= fun st =>
      if st.files.isEmpty then
        match st.first with
        | some r => .ok (st.files ++ [r.withIndex 0])
        | none => .err (.fileFinderError .noFilesFound)
      else .ok st.files

end FileFinder
end Verif
