import Verif.Model.Asks
import Verif.Spec.Deciding
/-!
# What is asked of the operating system, and how often
-/
namespace Verif.Spec

/-- Each of these paths is looked for, in order, as often as `times` says, which is told the candidates before it. -/
def looksAfter (times : List OsStr → OsStr → Nat) (before : List OsStr) : List OsStr → List Ask
  | [] => []
  | p :: ps => List.replicate (times before p) (.exists p) ++ looksAfter times (before ++ [p]) ps

/-- The same, from the first path on. -/
def looks (times : List OsStr → OsStr → Nat) (ps : List OsStr) : List Ask := looksAfter times [] ps

/-- Twice or once. -/
def twiceIf (c : Bool) : Nat := if c then 2 else 1

/-- The paths of a search, in order. -/
def paths (f : FileFinder) : List OsStr := (candidates f).map Prod.fst

/-- `find_first`: up to the first that exists, that one twice; with `allow_missing` the very first twice as well. -/
def firstLooks (w : World) (am : Bool) (ps : List OsStr) : List Ask :=
  looks (fun before p => twiceIf (w.pathExists p || (am && before.isEmpty))) (consulted w ps)

/-- `find_last`: all; those that exist twice, with `allow_missing` also those before the first that exists. -/
def lastLooks (w : World) (am : Bool) (ps : List OsStr) : List Ask :=
  looks (fun before p => twiceIf (w.pathExists p || (am && !before.any w.pathExists))) ps

/-- `find_all`: with `allow_missing` all once; else all, those that exist twice. -/
def allLooks (w : World) (am : Bool) (ps : List OsStr) : List Ask :=
  looks (fun _ p => twiceIf (!am && w.pathExists p)) ps

/-- `find_all_or_first`: all; those that exist twice, and the first missing one. -/
def allOrFirstLooks (w : World) (ps : List OsStr) : List Ask :=
  looks (fun before p => twiceIf (w.pathExists p || before.all w.pathExists)) ps

/-- What reading a layer asks. -/
def layerAsks (w : World) : Layer → List Ask
  | .memory _ => []
  | .environment pre => if pre = "" then [] else [.vars]
  | .file _ p => if w.pathExists p = true then [.exists p, .read p] else [.exists p]
  | .user l => [.userRead l.getName]

/-- The layers that a build reads: with `skip` all, else up to and including the first that cannot be read. -/
def readTo (w : World) (skip : Bool) : List (String × Layer) → List (String × Layer)
  | [] => []
  | e :: es =>
    match e.2.readValue w with
    | .ok _ => e :: readTo w skip es
    | .error _ => if skip then e :: readTo w skip es else [e]

/-- What resolving a directory asks. -/
def dirAsks (w : World) (d : OSDirectory) : List Ask :=
  .baseDirs :: if d = .workingDirectory ∧ w.baseDirs.isSome = true then [.cwd] else []

/-- The extension is that of an enabled format. -/
def InEnabledFormat (b : Build) (p : OsStr) : Prop :=
  (b.toml = true ∧ pathExtension p = some (os "toml")) ∨ (b.json = true ∧ pathExtension p = some (os "json"))

instance (b : Build) (p : OsStr) : Decidable (InEnabledFormat b p) := by unfold InEnabledFormat; infer_instance

/-- What the `init` part of a layer asks when `p` was taken for it: nothing without `init`; else whether the file is there, and if it is to be
made, one write to the file that the configuration has under the layer's name. -/
def initAsks (b : Build) (w : World) (l : LayerSpec) (c : Config) (p : OsStr) : List Ask :=
  if l.init.isSome = true ∧ InEnabledFormat b p then
    .exists p :: if l.init = some true ∧ w.pathExists p = false then
      match c.getLayer l.name with
      | some (.file _ q) => [.write q]
      | _ => []
    else []
  else []

/-- The `init` part when this is the file taken, if one is. -/
def takenAsks (b : Build) (w : World) (l : LayerSpec) (c : Config) : Option OsStr → List Ask
  | some p => initAsks b w l c p
  | none => []

/-- What one layer of `create_config!` asks: each of its directories, the search with `allow_missing`, the `init` part. `c` is the configuration
with the layer. -/
def startAsks (b : Build) (w : World) (fileName : String) (l : LayerSpec) (c : Config) : List Ask :=
  l.dirs.flatMap (dirAsks w) ++ firstLooks w true (layerCandidates b w fileName l) ++
    takenAsks b w l c (chosen w (layerCandidates b w fileName l))

/-- The layer is one for the file. -/
def forFile (p : OsStr) (e : String × Layer) : Bool :=
  match e.2 with
  | .file _ q => q == p
  | _ => false

/-- The ask is a write. -/
def isWrite (a : Ask) : Bool := match a with | .write _ => true | _ => false

end Verif.Spec
