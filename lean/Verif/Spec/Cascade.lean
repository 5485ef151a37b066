import Verif.Spec.Config
import Verif.Spec.Finder
import Verif.Spec.MacroLog
/-!
# Cascading settings files: everything a search lists, registered in order
-/
namespace Verif.Spec

/-- One of the searches that list several files answered with these results. -/
inductive Listing (b : Build) (w : World) (f : FileFinder) (rs : List FindResult) : Prop
  | all (allowMissing : Bool) (h : FileFinder.findAll b w f allowMissing = .ok rs)
  | allOrFirst (h : FileFinder.findAllOrFirst b w f = .ok rs)

/-- `for r in results { config.add_file_layer(name(r), r.path) }`, between other registrations. -/
def cascade (pre : List RegCall) (name : FindResult → String) (rs : List FindResult) (post : List RegCall) : List RegCall :=
  pre ++ (rs.map fun r => RegCall.file (name r) r.path) ++ post

/-- The other registrations are of the crate's own layers, and no two layers get the same name. -/
structure Cascading (b : Build) (fm : Formats) (pre : List RegCall) (name : FindResult → String) (rs : List FindResult) (post : List RegCall) : Prop where
  builtIn : ∀ c ∈ pre ++ post, c.BuiltIn
  memory : ∀ n x, RegCall.memory n x ∈ pre ++ post → UniqueKeys x
  names : ((offers b fm (cascade pre name rs post)).map Prod.fst).Nodup

end Verif.Spec
