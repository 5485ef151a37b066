import Verif.Spec.Config
/-!
# Building again after a settings file was changed from outside
-/
namespace Verif.Spec

/-- A configuration of the crate's own layers, one of them the file at `path` (below `upper`, above `lower`; no other layer reads the same place of the
disk); and two moments `w` and `w'` between which at most this file has changed, in whatever way: edited, replaced, deleted, created, damaged,
made unreadable. -/
structure Reload (b : Build) (fm : Formats) (calls : List RegCall) (lower : List (String × Layer)) (name : String) (cd : Codec) (path : OsStr)
    (upper : List (String × Layer)) (w w' : World) : Prop where
  builtIn : ∀ c ∈ calls, c.BuiltIn
  memory : ∀ n x, RegCall.memory n x ∈ calls → UniqueKeys x
  layers : firsts (offers b fm calls) = lower ++ (name, .file (textHandler cd) path) :: upper
  places : ∀ e ∈ lower ++ upper, ∀ h q, e.2 = .file h q → w.locate q ≠ w.locate path
  locate : w'.locate = w.locate
  env : w'.env = w.env
  disk : ∀ s, s ≠ w.locate path → w'.disk s = w.disk s

/-- The layer can be read, yields a map, and says about the path that there is `h` (`none`: a non-map higher up hides whatever is there). -/
def Says (w : World) (l : Layer) (p : Path) (h : Option Head) : Prop :=
  ∃ x, l.readValue w = .ok x ∧ x.isMap = true ∧ ¬ Silent x p ∧ view x p = h

end Verif.Spec
