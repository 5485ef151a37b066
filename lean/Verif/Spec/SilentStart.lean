import Verif.Spec.MacroLog
/-!
# A program that starts without a warning
-/
namespace Verif.Spec

/-- `v` is put together from the values `xs`, the later the stronger: at every path it shows what the last of the maps among them that speaks of the path shows there, and nothing where none does
(at the root, a map). -/
def MadeOf (v : Value) (xs : List Value) : Prop :=
  ∀ p : Path,
    (∀ before x after, xs = before ++ x :: after → x.isMap = true → ¬ Silent x p → (∀ y ∈ after, y.isMap = true → Silent y p) → view v p = view x p) ∧
    ((∀ x ∈ xs, x.isMap = true → Silent x p) → view v p = if p = [] then some .map else none)

/-- What a file says in the format: nothing if it is not there; else it can be read, and its text stands for the value. -/
inductive FileSays (cd : Codec) (w : World) (p : OsStr) : Value → Prop
  | missing (h : w.pathExists p = false) : FileSays cd w p (.map [])
  | content (text : String) (doc : Doc) (writeErr : Option Nat) (x : Value) (h : w.disk (w.locate p) = .file (utf8 text) none writeErr)
      (hp : cd.parse text = .ok doc) (hv : visit doc = .ok x) : FileSays cd w p x

/-- What the environment says under a prefix, which must not be blank: at each key the text of the last variable that lands on it, and nothing else. -/
def EnvSays (w : World) (pre : String) (x : Value) : Prop :=
  ∃ P, Trimmed pre P ∧ P ≠ "" ∧ x.isMap = true ∧
    (∀ k before var after s, w.env = before ++ var :: after → Lands P var k → HasText var s →
      (∀ a ∈ after, ¬ (Lands P a k ∧ ∃ t, HasText a t)) → view x [.key k] = some (.string s)) ∧
    (∀ k, (∀ a ∈ w.env, ¬ (Lands P a k ∧ ∃ t, HasText a t)) → view x [.key k] = none)

/-- The file of a layer: one of its candidates, in the format that its extension names. It is there at the end if it was to be initialised, or if any candidate was there at the beginning. -/
inductive LayerSays (b : Build) (fm : Formats) (fileName : String) (w w' : World) (l : LayerSpec) : Value → Prop
  | mk (p : OsStr) (hp : p ∈ layerCandidates b w fileName l) (f : FileExtension) (cd : Codec) (hf : FormatNamed b fm p f cd)
      (hi : l.init = some true → w'.pathExists p = true) (he : ∀ q ∈ layerCandidates b w fileName l, w.pathExists q = true → w'.pathExists p = true)
      (x : Value) (hx : FileSays cd w' p x) : LayerSays b fm fileName w w' l x

end Verif.Spec
