import Verif.Spec.Contained
/-!
# Which files decide
-/
namespace Verif.Spec

/-- The candidate with number `i` exists and no earlier one does. -/
def FirstThere (w : World) (cs : List (OsStr × String)) (i : Nat) : Prop :=
  (∃ c, cs[i]? = some c ∧ w.pathExists c.1 = true) ∧ ∀ (j : Nat) d, j < i → cs[j]? = some d → w.pathExists d.1 = false

/-- The candidate with number `i` exists and no later one does. -/
def LastThere (w : World) (cs : List (OsStr × String)) (i : Nat) : Prop :=
  (∃ c, cs[i]? = some c ∧ w.pathExists c.1 = true) ∧ ∀ (j : Nat) d, i < j → cs[j]? = some d → w.pathExists d.1 = false

/-- The candidates whose existence matters: up to and including the first that exists (all, if none does). -/
def consulted (w : World) : List OsStr → List OsStr
  | [] => []
  | p :: ps => if w.pathExists p then [p] else p :: consulted w ps

/-- The place of the disk is that of the file taken for some layer. -/
def PlaceTaken (b : Build) (w : World) (args : MacroArgs) (s : Nat) : Prop :=
  ∃ l ∈ args.layers, ∃ p, chosen w (layerCandidates b w args.fileName l) = some p ∧ w.locate p = s

/-- Two worlds with the same directories in which the same consulted candidates exist, with the same files (and the same room to write)
where a file is taken. Everything else on the disk, and the environment, may differ: among it the candidates after the one taken, and what is in
a file that another layer's search only passes. -/
structure SameDeciding (b : Build) (args : MacroArgs) (w u : World) : Prop where
  locate : u.locate = w.locate
  baseDirs : u.baseDirs = w.baseDirs
  cwd : u.cwd = w.cwd
  there : ∀ l ∈ args.layers, ∀ p ∈ consulted w (layerCandidates b w args.fileName l), u.pathExists p = w.pathExists p
  disk : ∀ s, PlaceTaken b w args s → u.disk s = w.disk s
  room : ∀ s, PlaceTaken b w args s → u.room s = w.room s

end Verif.Spec
