import Verif.Spec.Config
import Verif.Spec.Doc
import Verif.Spec.Env
import Verif.Spec.Finder
/-!
# What `create_config!` looks at
-/
namespace Verif.Spec

/-- The extensions of the enabled formats. -/
def enabled (b : Build) : List String := (if b.toml then ["toml"] else []) ++ (if b.json then ["json"] else [])

/-- The candidates of one layer: each of its directories that resolves, with each enabled extension. -/
def layerCandidates (b : Build) (w : World) (fileName : String) (l : LayerSpec) : List OsStr :=
  (l.dirs.filterMap (OSDirectory.toPathBuf w)).flatMap fun folder => (enabled b).map fun ext => candidate folder fileName ext

/-- The candidate that is taken: the first that exists, else the first. -/
def chosen (w : World) (cs : List OsStr) : Option OsStr := (cs.find? fun p => w.pathExists p).or cs.head?

/-- From `w` to `w'` files have only been created, at places where there was nothing, and only with places and contents
as described by `made`. -/
def Created (made : Nat → List UInt8 → Prop) (w w' : World) : Prop :=
  w' = { w with disk := w'.disk } ∧
  ∀ s, w'.disk s = w.disk s ∨ (w.disk s = .absent none ∧ ∃ bytes, made s bytes ∧ w'.disk s = .file bytes none none)

/-- What `create_config!` may create: for a layer marked `init: true` its first candidate, with the text of the defaults
(all of it, unless the OS stops half-way) in the format that the extension names. -/
def Initialises (b : Build) (fm : Formats) (w : World) (args : MacroArgs) (dv : Value) (s : Nat) (bytes : List UInt8) : Prop :=
  ∃ l ∈ args.layers, l.init = some true ∧ ∃ p, (layerCandidates b w args.fileName l).head? = some p ∧ s = w.locate p ∧
    ∃ fmt text, ((pathExtension p = some (os "toml") ∧ b.toml = true ∧ fmt = fm.toml) ∨
        (pathExtension p = some (os "json") ∧ b.json = true ∧ fmt = fm.json)) ∧
      fmt.print dv.toData = .ok text ∧ bytes <+: utf8 text ∧ (w.room s = none → bytes = utf8 text)

/-- The run number `n` (from 0) of a program that calls `create_config!` with these arguments, each run in the world the one
before left. -/
def nthRun (b : Build) (fm : Formats) (w : World) (args : MacroArgs) : Nat → Outcome BakuninError (Config × World)
  | 0 => createConfig b fm w args
  | n + 1 => nthRun b fm w args n >>= fun st => createConfig b fm st.2 args

/-- A clean start: none of the candidate files exists and no variable lands on a key; whatever is written is written whole;
candidates that name one place have one extension. -/
structure CleanStart (b : Build) (w : World) (args : MacroArgs) : Prop where
  names : (args.layers.map LayerSpec.name).Nodup
  uniqueKeys : ∀ e ∈ args.default, UniqueKeys e.2
  absent : ∀ l ∈ args.layers, ∀ p ∈ layerCandidates b w args.fileName l, w.pathExists p = false
  room : ∀ s, w.room s = none
  places : ∀ l ∈ args.layers, ∀ l' ∈ args.layers, ∀ p ∈ layerCandidates b w args.fileName l,
      ∀ q ∈ layerCandidates b w args.fileName l', w.locate p = w.locate q → pathExtension p = pathExtension q
  env : ∀ pre, args.env = some pre → ∃ P, Trimmed pre P ∧ P ≠ "" ∧ ∀ a ∈ w.env, ¬ ∃ k s, Lands P a k ∧ HasText a s

/-- Whatever text the formats print for the value, they read it back as a faithful presentation of the value. -/
def FaithfulOn (fm : Formats) (v : Value) : Prop :=
  ∀ fmt, (fmt = fm.toml ∨ fmt = fm.json) → ∀ text, fmt.print v.toData = .ok text → ∃ doc, fmt.parse text = .ok doc ∧ Presents v doc

end Verif.Spec
