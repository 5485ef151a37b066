import Verif.Model.Crash
import Verif.Model.Config
/-!
# The crate among other processes

Nothing keeps other processes from changing the filesystem while the crate looks at it. Here every single look at
the outside world (`Path::exists`, opening and reading a file, the environment) happens at its own moment: `ws t` is
the world at the moment of the `t`-th look. What `ws` does after the last look is immaterial.
-/
namespace Verif

/-- The world at the moment of each look. Needed for /repo/src/file_finder/alg_find_first.rs:23,
/repo/src/config_layer/layer_file.rs:57-58. -/
abbrev Moments := Nat → World

namespace FileFinder

/-- The inner loop common to the four searches, `for ext in &self.extensions { let file = base_file.with_extension(ext); … }`, with the
rest of the body as a parameter: /repo/src/file_finder/alg_find_first.rs:21-31, alg_find_last.rs:24-31,
alg_find_all.rs:22-28, alg_find_all_or_first.rs:21-30. -/
def eachExt {ρ σ : Type} (body : σ → OsStr → String → Outcome BakuninError (Flow ρ σ)) (base : OsStr) (st : σ) :
    List String → Outcome BakuninError (Flow ρ σ)
  | [] => .ok (.cont st)
  | ext :: exts =>
    withExt base ext >>= fun file => body st file ext >>= fun
      | .ret r => .ok (.ret r)
      | .cont st => eachExt body base st exts

/-- The outer loop common to the four searches, `for folder in &self.folders { let base_file = folder.join(self.file_name); … }`:
/repo/src/file_finder/alg_find_first.rs:19-32, alg_find_last.rs:22-32, alg_find_all.rs:20-29, alg_find_all_or_first.rs:19-31. -/
def eachFolder {ρ σ : Type} (body : σ → OsStr → String → Outcome BakuninError (Flow ρ σ)) (fileName : String)
    (exts : List String) (st : σ) : List OsStr → Outcome BakuninError (Flow ρ σ)
  | [] => .ok (.cont st)
  | folder :: folders =>
    eachExt body (pathJoin folder (os fileName)) st exts >>= fun
      | .ret r => .ok (.ret r)
      | .cont st => eachFolder body fileName exts st folders

/-- /repo/src/file_finder/alg_find_first.rs:23-30; the state is the moment and `first_found`. `FindResult::new` looks again
(find_result.rs:25). -/
def firstBody (b : Build) (ws : Moments) (am : Bool) (st : Nat × Option FindResult) (file : OsStr) (ext : String) :
    Outcome BakuninError (Flow FindResult (Nat × Option FindResult)) :=
  if (ws st.1).pathExists file then .ok (.ret (FindResult.new b (ws (st.1 + 1)) file ext))
  else if am && st.2.isNone then .ok (.cont (st.1 + 2, some (FindResult.new b (ws (st.1 + 1)) file ext)))
  else .ok (.cont (st.1 + 1, st.2))

/-- /repo/src/file_finder/alg_find_first.rs:14-41 `find_first`. -/
def findFirstR (b : Build) (ws : Moments) (f : FileFinder) (am : Bool) : Outcome BakuninError FindResult :=
  f.validate >>= fun _ =>
    eachFolder (firstBody b ws am) f.fileName f.extensions (0, none) f.folders >>= fun
      | .ret r => .ok r
      | .cont (_, first) =>
        if am then
          match first with
          | some r => .ok r
          | none => .err (.fileFinderError .noFilesFound)
        else .err (.fileFinderError .noFilesFound)

/-- /repo/src/file_finder/alg_find_last.rs:26-30; the state is the moment, `last_found` and `last_result`. -/
def lastBody (b : Build) (ws : Moments) (am : Bool) (st : Nat × Option FindResult × Option FindResult) (file : OsStr)
    (ext : String) : Outcome BakuninError (Flow Empty (Nat × Option FindResult × Option FindResult)) :=
  if (ws st.1).pathExists file then .ok (.cont (st.1 + 2, some (FindResult.new b (ws (st.1 + 1)) file ext), st.2.2))
  else if am && st.2.1.isNone then
    .ok (.cont (st.1 + 2, st.2.1, some (FindResult.new b (ws (st.1 + 1)) file ext)))
  else .ok (.cont (st.1 + 1, st.2))

/-- /repo/src/file_finder/alg_find_last.rs:14-43 `find_last`. -/
def findLastR (b : Build) (ws : Moments) (f : FileFinder) (am : Bool) : Outcome BakuninError FindResult :=
  f.validate >>= fun _ =>
    eachFolder (lastBody b ws am) f.fileName f.extensions (0, none, none) f.folders >>= fun
      | .ret r => r.elim
      | .cont (_, lastFound, lastResult) =>
        match lastFound with
        | some r => .ok r
        | none =>
          if am then
            match lastResult with
            | some r => .ok r
            | none => .err (.fileFinderError .noFilesFound)
          else .err (.fileFinderError .noFilesFound)

/-- /repo/src/file_finder/alg_find_all.rs:24-27; the state is the moment, `files` and `index`. With `allow_missing` the only look is
the one of `FindResult::new`. -/
def allBody (b : Build) (ws : Moments) (am : Bool) (st : Nat × List FindResult × Nat) (file : OsStr) (ext : String) :
    Outcome BakuninError (Flow Empty (Nat × List FindResult × Nat)) :=
  if am then
    incIndex b st.2.2 >>= fun i =>
      .ok (.cont (st.1 + 1, st.2.1 ++ [(FindResult.new b (ws st.1) file ext).withIndex st.2.2], i))
  else if (ws st.1).pathExists file then
    incIndex b st.2.2 >>= fun i =>
      .ok (.cont (st.1 + 2, st.2.1 ++ [(FindResult.new b (ws (st.1 + 1)) file ext).withIndex st.2.2], i))
  else .ok (.cont (st.1 + 1, st.2))

/-- /repo/src/file_finder/alg_find_all.rs:14-36 `find_all`. -/
def findAllR (b : Build) (ws : Moments) (f : FileFinder) (am : Bool) : Outcome BakuninError (List FindResult) :=
  f.validate >>= fun _ =>
    eachFolder (allBody b ws am) f.fileName f.extensions (0, [], 0) f.folders >>= fun
      | .ret r => r.elim
      | .cont (_, files, _) => if files.isEmpty then .err (.fileFinderError .noFilesFound) else .ok files

/-- /repo/src/file_finder/alg_find_all_or_first.rs:23-29; the state is the moment, `files`, `first_file` and `index`. -/
def allOrFirstBody (b : Build) (ws : Moments) (st : Nat × AllOrFirst) (file : OsStr) (ext : String) :
    Outcome BakuninError (Flow Empty (Nat × AllOrFirst)) :=
  if (ws st.1).pathExists file then
    incIndex b st.2.index >>= fun i =>
      .ok (.cont (st.1 + 2, { st.2 with
        files := st.2.files ++ [(FindResult.new b (ws (st.1 + 1)) file ext).withIndex st.2.index], index := i }))
  else if st.2.first.isNone then
    .ok (.cont (st.1 + 2, { st.2 with first := some (FindResult.new b (ws (st.1 + 1)) file ext) }))
  else .ok (.cont (st.1 + 1, st.2))

/-- /repo/src/file_finder/alg_find_all_or_first.rs:12-43 `find_all_or_first`. -/
def findAllOrFirstR (b : Build) (ws : Moments) (f : FileFinder) : Outcome BakuninError (List FindResult) :=
  f.validate >>= fun _ =>
    eachFolder (allOrFirstBody b ws) f.fileName f.extensions (0, ⟨[], none, 0⟩) f.folders >>= fun
      | .ret r => r.elim
      | .cont (_, st) =>
        if st.files.isEmpty then
          match st.first with
          | some r => .ok (st.files ++ [r.withIndex 0])
          | none => .err (.fileFinderError .noFilesFound)
        else .ok st.files

end FileFinder

/-! ## Reading layers -/

/-- `read_value` (/repo/src/config_layer/layer_file.rs:56-62) when the look at the path (line 57) and the reading (line 58) happen at two
moments; the other layers look once. -/
def Layer.readValueR (look read : World) : Layer → Except BakuninError Value
  | .file h path => if look.pathExists path then h.read read path else .ok Value.newMap
  | l => l.readValue read

/-- /repo/src/config.rs:130-145, each layer with its own two moments; `t` counts the looks. -/
def Config.buildLoopR (ws : Moments) (t : Nat) (c : Config) (skip : Bool) (value : Value) :
    List String → Except BakuninError Value
  | [] => .ok value
  | name :: names =>
    match hmGet c.layers name with
    | some layer =>
      match layer.readValueR (ws t) (ws (t + 1)) with
      | .error e => if skip then buildLoopR ws (t + 2) c skip value names else .error e
      | .ok v => buildLoopR ws (t + 2) c skip (value.merge v) names
    | none => buildLoopR ws t c skip value names

/-- /repo/src/config.rs:127-148 `build_value` among other processes. -/
def Config.buildValueR (ws : Moments) (c : Config) (skip : Bool) : Except BakuninError Value :=
  buildLoopR ws 0 c skip Value.newMap c.names

end Verif
