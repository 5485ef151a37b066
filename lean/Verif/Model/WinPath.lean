import Verif.Model.Config
/-!
# Windows paths, and the finder over the path rules of any platform

Rust std's `Path` on Windows, as used by /repo/src/file_finder and /repo/src/config.rs, and the functions of /repo that work with paths with the
platform's path functions as a parameter. std is not in /repo; its documented behaviour is modelled. (Simplified: verbatim and device paths, `\\?\…` and
`\\.\…`, are taken as if `?` or `.` was the name of a server; std does not resolve `.` and `..` in them when joining.)
-/
namespace Verif

/-- The characters that separate the components of a Windows path. Needed for /repo/src/file_finder/alg_find_first.rs:20. -/
def winSep (c : OsChar) : Bool := c = .chr '\\' || c = .chr '/'

/-- A drive letter. Needed for /repo/src/file_finder/alg_find_first.rs:20. -/
def driveLetter : OsChar → Bool
  | .chr c => c.isAlpha
  | .raw _ => false

/-- The prefix of a Windows path: its length, and whether it is a drive (`C:`) or not (`\\server\share`). Needed for /repo/src/file_finder/alg_find_first.rs:20. -/
def winPrefix (p : OsStr) : Option (Nat × Bool) :=
  match p with
  | a :: b :: r =>
    if winSep a && winSep b then
      let server := r.takeWhile fun c => !winSep c
      let share := ((r.dropWhile fun c => !winSep c).drop 1).takeWhile fun c => !winSep c
      if server = [] ∨ share = [] then none else some (2 + server.length + 1 + share.length, false)
    else if driveLetter a && b = .chr ':' then some (2, true)
    else none
  | _ => none

/-- How long the prefix is. Needed for /repo/src/file_finder/alg_find_first.rs:20. -/
def winPrefixLen (p : OsStr) : Nat := ((winPrefix p).map Prod.fst).getD 0

/-- `Path::join` (`PathBuf::push`) on Windows: a right side with a prefix replaces the left; one that starts with a separator leaves of the left only the
prefix; otherwise a `\` is put between unless the left side is empty, ends with a separator or is just a drive. /repo/src/file_finder/alg_find_first.rs:20 (and
the other three searches), /repo/src/file_finder/os_directory.rs:54, 56. -/
def winJoin (base p : OsStr) : OsStr :=
  if (winPrefix p).isSome then p
  else if p.head?.any winSep then base.take (winPrefixLen base) ++ p
  else if base = [] ∨ base.getLast?.any winSep ∨ winPrefix base = some (base.length, true) then base ++ p
  else base ++ .chr '\\' :: p

/-- Removes what std's component iterator skips at the end of a path, from the reversed path. Needed for /repo/src/file_finder/alg_find_first.rs:22. -/
def winTrimRev : OsStr → OsStr
  | [] => []
  | c :: r => if winSep c || (c = dot && r.head?.any winSep) then winTrimRev r else c :: r

/-- `Path::file_name` on Windows, with what stands before it in the path. Needed for /repo/src/file_finder/alg_find_first.rs:22. -/
def winSplitFileName (p : OsStr) : Option (OsStr × OsStr) :=
  let r := winTrimRev (p.drop (winPrefixLen p)).reverse
  let name := (r.takeWhile fun c => !winSep c).reverse
  if name = [] ∨ name = [dot] ∨ name = [dot, dot] then none
  else some (p.take (winPrefixLen p) ++ (r.dropWhile fun c => !winSep c).reverse, name)

/-- `Path::extension` on Windows: /repo/src/file_finder/file_extension.rs:41, /repo/src/config.rs:76. -/
def winExtension (p : OsStr) : Option OsStr :=
  (winSplitFileName p).bind fun dn => (splitDot dn.2).2

/-- `Path::with_extension` on Windows; `none` is std's panic on an extension that contains a separator. /repo/src/file_finder/alg_find_first.rs:22. -/
def winWithExtension (p ext : OsStr) : Option OsStr :=
  if ext.any winSep then none
  else some (match winSplitFileName p with
    | none => p
    | some (dir, name) => dir ++ (splitDot name).1 ++ (if ext = [] then [] else dot :: ext))

/-- What a platform's std does with paths: /repo/src/file_finder/alg_find_first.rs:20-22, file_extension.rs:41, /repo/src/config.rs:76. -/
structure Paths where
  join : OsStr → OsStr → OsStr
  extension : OsStr → Option OsStr
  withExtension : OsStr → OsStr → Option OsStr

/-- Unix. Needed for /repo/src/file_finder/alg_find_first.rs:20-22. -/
def unixPaths : Paths := ⟨pathJoin, pathExtension, pathWithExtension⟩
/-- Windows. Needed for /repo/src/file_finder/alg_find_first.rs:20-22. -/
def windowsPaths : Paths := ⟨winJoin, winExtension, winWithExtension⟩

/-- `directories::BaseDirs::new()` on Windows (/repo/src/file_finder/os_directory.rs:48) from the known folders Profile, RoamingAppData and
LocalAppData, with the directories of /repo/src/file_finder/os_directory.rs:13, 19, 25. -/
def windowsBaseDirs (profile roaming localData : Option OsStr) : Option BaseDirs :=
  match profile, roaming, localData with
  | some home, some data, some _ => some { home := home, config := data, preference := data }
  | _, _, _ => none

namespace Paths

/-- /repo/src/file_finder/os_directory.rs:47-63 `to_path_buf`. -/
def toPathBuf (P : Paths) (w : World) (d : OSDirectory) : Option OsStr :=
  match w.baseDirs with
  | some dir => match d with
    | .userHome => some dir.home
    | .userConfig => some dir.config
    | .userPreferences => some dir.preference
    | .workingDirectory => w.cwd
    | .appHome app => some (P.join dir.home (os app))
    | .appConfig app => some (P.join dir.config (os app))
    | .path p => some (os p)
  | none => none

/-- /repo/src/file_finder/file_extension.rs:40-49 `match_path`. -/
def matchPath (P : Paths) (e : FileExtension) (p : OsStr) : Bool :=
  let ext := (P.extension p).bind osToStr
  match e with
  | .toml => ext == some "toml"
  | .json => ext == some "json"
  | .custom _ => false

/-- /repo/src/config.rs:54-79 `add_file_layer`: the result, and the configuration afterwards. -/
def addFileLayer (P : Paths) (b : Build) (fm : Formats) (c : Config) (name : String) (path : OsStr) : Except BakuninError Unit × Config :=
  if b.toml && P.matchPath .toml path then
    (.ok (), c.pushLayer name (Layer.newFile (textHandler fm.toml) path))
  else if b.json && P.matchPath .json path then
    (.ok (), c.pushLayer name (Layer.newFile (textHandler fm.json) path))
  else
    let ext := ((P.extension path).bind osToStr).getD ""
    (.error (.configLayerError (.unsupportedExtension ext)), c)

/-- /repo/src/file_finder/os_directory.rs:68-75 `with_os_directory`. -/
def withOsDirectory (P : Paths) (w : World) (f : FileFinder) (d : OSDirectory) : FileFinder :=
  match P.toPathBuf w d with
  | some p => { f with folders := f.folders ++ [p] }
  | none => f

/-- `base_file.with_extension(ext)`, a panic if `ext` contains a separator. Needed for /repo/src/file_finder/alg_find_first.rs:22. -/
def withExt (P : Paths) (base : OsStr) (ext : String) : Outcome BakuninError OsStr :=
  match P.withExtension base (os ext) with
  | some p => .ok p
  | none => .panic

open FileFinder (Flow incIndex AllOrFirst)

/-- The inner loop, /repo/src/file_finder/alg_find_first.rs:21-31. -/
def findFirstExts (P : Paths) (b : Build) (w : World) (allowMissing : Bool) (base : OsStr) (first : Option FindResult) :
    List String → Outcome BakuninError (Flow FindResult (Option FindResult))
  | [] => .ok (.cont first)
  | ext :: exts =>
    P.withExt base ext >>= fun file =>
      if w.pathExists file then .ok (.ret (FindResult.new b w file ext))
      else if allowMissing && first.isNone then
        findFirstExts P b w allowMissing base (some (FindResult.new b w file ext)) exts
      else findFirstExts P b w allowMissing base first exts

/-- The outer loop, /repo/src/file_finder/alg_find_first.rs:19-32. -/
def findFirstFolders (P : Paths) (b : Build) (w : World) (allowMissing : Bool) (fileName : String) (exts : List String)
    (first : Option FindResult) : List OsStr → Outcome BakuninError (Flow FindResult (Option FindResult))
  | [] => .ok (.cont first)
  | folder :: folders =>
    P.findFirstExts b w allowMissing (P.join folder (os fileName)) first exts >>= fun
      | .ret r => .ok (.ret r)
      | .cont first => findFirstFolders P b w allowMissing fileName exts first folders

/-- /repo/src/file_finder/alg_find_first.rs:14-41 `find_first`. -/
def findFirst (P : Paths) (b : Build) (w : World) (f : FileFinder) (allowMissing : Bool) : Outcome BakuninError FindResult :=
  f.validate >>= fun _ =>
    P.findFirstFolders b w allowMissing f.fileName f.extensions none f.folders >>= fun
      | .ret r => .ok r
      | .cont first =>
        if allowMissing then
          match first with
          | some r => .ok r
          | none => .err (.fileFinderError .noFilesFound)
        else .err (.fileFinderError .noFilesFound)

/-- The inner loop, /repo/src/file_finder/alg_find_last.rs:24-31; the state is (`last_found`, `last_result`). -/
def findLastExts (P : Paths) (b : Build) (w : World) (allowMissing : Bool) (base : OsStr)
    (st : Option FindResult × Option FindResult) :
    List String → Outcome BakuninError (Option FindResult × Option FindResult)
  | [] => .ok st
  | ext :: exts =>
    P.withExt base ext >>= fun file =>
      if w.pathExists file then
        findLastExts P b w allowMissing base (some (FindResult.new b w file ext), st.2) exts
      else if allowMissing && st.1.isNone then
        findLastExts P b w allowMissing base (st.1, some (FindResult.new b w file ext)) exts
      else findLastExts P b w allowMissing base st exts

/-- The outer loop, /repo/src/file_finder/alg_find_last.rs:22-32. -/
def findLastFolders (P : Paths) (b : Build) (w : World) (allowMissing : Bool) (fileName : String) (exts : List String)
    (st : Option FindResult × Option FindResult) :
    List OsStr → Outcome BakuninError (Option FindResult × Option FindResult)
  | [] => .ok st
  | folder :: folders =>
    P.findLastExts b w allowMissing (P.join folder (os fileName)) st exts >>= fun st =>
      findLastFolders P b w allowMissing fileName exts st folders

/-- /repo/src/file_finder/alg_find_last.rs:14-43 `find_last`. -/
def findLast (P : Paths) (b : Build) (w : World) (f : FileFinder) (allowMissing : Bool) : Outcome BakuninError FindResult :=
  f.validate >>= fun _ =>
    P.findLastFolders b w allowMissing f.fileName f.extensions (none, none) f.folders >>= fun st =>
      match st.1 with
      | some r => .ok r
      | none =>
        if allowMissing then
          match st.2 with
          | some r => .ok r
          | none => .err (.fileFinderError .noFilesFound)
        else .err (.fileFinderError .noFilesFound)

/-- The inner loop, /repo/src/file_finder/alg_find_all.rs:22-28; the state is (`files`, `index`). -/
def findAllExts (P : Paths) (b : Build) (w : World) (allowMissing : Bool) (base : OsStr) (st : List FindResult × Nat) :
    List String → Outcome BakuninError (List FindResult × Nat)
  | [] => .ok st
  | ext :: exts =>
    P.withExt base ext >>= fun file =>
      if allowMissing || w.pathExists file then
        incIndex b st.2 >>= fun i =>
          findAllExts P b w allowMissing base (st.1 ++ [(FindResult.new b w file ext).withIndex st.2], i) exts
      else findAllExts P b w allowMissing base st exts

/-- The outer loop, /repo/src/file_finder/alg_find_all.rs:20-29. -/
def findAllFolders (P : Paths) (b : Build) (w : World) (allowMissing : Bool) (fileName : String) (exts : List String)
    (st : List FindResult × Nat) : List OsStr → Outcome BakuninError (List FindResult × Nat)
  | [] => .ok st
  | folder :: folders =>
    P.findAllExts b w allowMissing (P.join folder (os fileName)) st exts >>= fun st =>
      findAllFolders P b w allowMissing fileName exts st folders

/-- /repo/src/file_finder/alg_find_all.rs:14-36 `find_all`. -/
def findAll (P : Paths) (b : Build) (w : World) (f : FileFinder) (allowMissing : Bool) :
    Outcome BakuninError (List FindResult) :=
  f.validate >>= fun _ =>
    P.findAllFolders b w allowMissing f.fileName f.extensions ([], 0) f.folders >>= fun st =>
      if st.1.isEmpty then .err (.fileFinderError .noFilesFound) else .ok st.1

/-- The inner loop, /repo/src/file_finder/alg_find_all_or_first.rs:21-30. -/
def findAllOrFirstExts (P : Paths) (b : Build) (w : World) (base : OsStr) (st : AllOrFirst) :
    List String → Outcome BakuninError AllOrFirst
  | [] => .ok st
  | ext :: exts =>
    P.withExt base ext >>= fun file =>
      if w.pathExists file then
        incIndex b st.index >>= fun i =>
          findAllOrFirstExts P b w base
            { st with files := st.files ++ [(FindResult.new b w file ext).withIndex st.index], index := i } exts
      else if st.first.isNone then
        findAllOrFirstExts P b w base { st with first := some (FindResult.new b w file ext) } exts
      else findAllOrFirstExts P b w base st exts

/-- The outer loop, /repo/src/file_finder/alg_find_all_or_first.rs:19-31. -/
def findAllOrFirstFolders (P : Paths) (b : Build) (w : World) (fileName : String) (exts : List String) (st : AllOrFirst) :
    List OsStr → Outcome BakuninError AllOrFirst
  | [] => .ok st
  | folder :: folders =>
    P.findAllOrFirstExts b w (P.join folder (os fileName)) st exts >>= fun st =>
      findAllOrFirstFolders P b w fileName exts st folders

/-- /repo/src/file_finder/alg_find_all_or_first.rs:12-43 `find_all_or_first`. -/
def findAllOrFirst (P : Paths) (b : Build) (w : World) (f : FileFinder) : Outcome BakuninError (List FindResult) :=
  f.validate >>= fun _ =>
    P.findAllOrFirstFolders b w f.fileName f.extensions ⟨[], none, 0⟩ f.folders >>= fun st =>
      if st.files.isEmpty then
        match st.first with
        | some r => .ok (st.files ++ [r.withIndex 0])
        | none => .err (.fileFinderError .noFilesFound)
      else .ok st.files

/-- The search of one layer of `create_config!`: /repo/src/config_macro.rs:18-21. -/
def layerFinder (P : Paths) (b : Build) (w : World) (fileName : String) (dirs : List OSDirectory) : Outcome BakuninError FindResult :=
  P.findFirst b w (dirs.foldl (P.withOsDirectory w) ((FileFinder.new fileName).withSupportedExtensions b)) true

end Paths
end Verif
