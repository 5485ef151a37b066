import Verif.Spec.Saving
import Verif.Spec.Toml
/-!
# Saving through a TOML layer of a configuration
-/
namespace Verif.Spec

/-- As `SavedThrough`, but the file layer's format behaves like TOML (which has no null): a value nested less deep than its parser's limit was
written through the layer, which succeeded. What the file held before, if it could be read at all, had no `None` entry (no TOML document has). -/
structure SavedToml (limit : Nat) (b : Build) (fm : Formats) (calls : List RegCall) (w w' : World) (lower upper : List (String × Layer))
    (name : String) (cd : Codec) (path : OsStr) (v : Value) : Prop where
  like : TomlLike limit cd
  builtIn : ∀ c ∈ calls, c.BuiltIn
  memory : ∀ c ∈ calls, ∀ n x, c = .memory n x → UniqueKeys x
  layers : firsts (offers b fm calls) = lower ++ (name, .file (textHandler cd) path) :: upper
  places : ∀ e ∈ lower ++ upper, ∀ h q, e.2 = .file h q → w.locate q ≠ w.locate path
  unique : UniqueKeys v
  depth : DepthBelow v limit
  ok : (Layer.file (textHandler cd) path).writeValue w v = (.ok (), w')
  readable : ∀ bs code wr, w.disk (w.locate path) ≠ .file bs (some code) wr
  before : ∀ old, (Layer.file (textHandler cd) path).readValue w = .ok old → ∀ p, ¬ NullEntry old p

end Verif.Spec
