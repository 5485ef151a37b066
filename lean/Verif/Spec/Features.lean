import Verif.Spec.Deciding
/-!
# Builds of the crate with different formats
-/
namespace Verif.Spec

/-- `b'` has every format of `b`, and perhaps more. (Cargo gives a program the features that any of its crates asks for.) -/
structure MoreFormats (b b' : Build) : Prop where
  toml : b.toml = true → b'.toml = true
  json : b.json = true → b'.json = true

/-- `b'` has the format with this extension, `b` has not. -/
def Gained (b b' : Build) (ext : String) : Prop := ext ∈ enabled b' ∧ ext ∉ enabled b

/-- `p` is where the layer would look for a file of a format that only `b'` has. -/
def GainedCandidate (b b' : Build) (w : World) (fileName : String) (l : LayerSpec) (p : OsStr) : Prop :=
  ∃ ext, Gained b b' ext ∧ ∃ d ∈ l.dirs, ∃ folder, d.toPathBuf w = some folder ∧ p = candidate folder fileName ext

/-- No layer would come upon a file of a gained format: none exists, and none is another name for a file taken. -/
structure NothingGained (b b' : Build) (w : World) (args : MacroArgs) : Prop where
  missing : ∀ l ∈ args.layers, ∀ p, GainedCandidate b b' w args.fileName l p → w.pathExists p = false
  places : ∀ l ∈ args.layers, ∀ p, GainedCandidate b b' w args.fileName l p → ¬ PlaceTaken b w args (w.locate p)

end Verif.Spec
