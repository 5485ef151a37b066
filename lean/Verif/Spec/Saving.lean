import Verif.Spec.Config
import Verif.Spec.Doc
/-!
# Saving through a layer of a configuration
-/
namespace Verif.Spec

/-- At the path the two values show the same, up to the kind of integers. -/
def AlikeAt (v v' : Value) (p : Path) : Prop :=
  (view v p = none ∧ view v' p = none) ∨ ∃ h h', view v p = some h ∧ view v' p = some h' ∧ HeadAlike h h'

/-- A configuration made of the crate's own layers, one of them a file layer (`lower` are the layers before it, `upper` the ones after it) at a
place where no other layer's file is. A map `v` was written through that layer, which succeeded and turned the world `w` into `w'`. The format
parses what it printed for `v` to a faithful presentation of `v`. -/
structure SavedThrough (b : Build) (fm : Formats) (calls : List RegCall) (w w' : World) (lower upper : List (String × Layer)) (name : String)
    (cd : Codec) (path : OsStr) (v : Value) : Prop where
  builtIn : ∀ c ∈ calls, c.BuiltIn
  memory : ∀ c ∈ calls, ∀ n x, c = .memory n x → UniqueKeys x
  layers : firsts (offers b fm calls) = lower ++ (name, .file (textHandler cd) path) :: upper
  places : ∀ e ∈ lower ++ upper, ∀ h q, e.2 = .file h q → w.locate q ≠ w.locate path
  map : v.isMap = true
  unique : UniqueKeys v
  ok : (Layer.file (textHandler cd) path).writeValue w v = (.ok (), w')
  readable : ∀ bs code wr, w.disk (w.locate path) ≠ .file bs (some code) wr
  faithful : ∀ text, cd.print v.toData = .ok text → ∃ doc, cd.parse text = .ok doc ∧ Presents v doc

end Verif.Spec
