import Verif.Model.MacroCrash
import Verif.Spec.Macro
import Verif.Spec.Writing
import Verif.Spec.Saving
import Verif.Spec.Toml
/-!
# Starts of a program that are killed, or run out of disk space
-/
namespace Verif.Spec

/-- At this place a program that calls `create_config!` may have begun to write these bytes: a beginning (or all) of the text of the defaults, at the first
candidate of a layer marked `init: true`, in the format its extension names. -/
def Begun (b : Build) (fm : Formats) (w : World) (args : MacroArgs) (dv : Value) (s : Nat) (bytes : List UInt8) : Prop :=
  ∃ l ∈ args.layers, l.init = some true ∧ ∃ p, (layerCandidates b w args.fileName l).head? = some p ∧ s = w.locate p ∧
    ∃ cd text, FormatOf b fm p cd ∧ cd.print dv.toData = .ok text ∧ bytes <+: utf8 text

/-- From `w` to `w'` the program was started any number of times; each start was finished or killed at some point. -/
inductive Starts (b : Build) (fm : Formats) (args : MacroArgs) (w : World) : World → Prop
  | none : Starts b fm args w w
  | killed {w1 w2} : Starts b fm args w w1 → StartDies b fm w1 args w2 → Starts b fm args w w2
  | finished {w1 w2 c} : Starts b fm args w w1 → createConfig b fm w1 args = .ok (c, w2) → Starts b fm args w w2

/-- A machine on which the program has never been started: none of its candidate files exists and no variable lands on a key; candidates that name one place
have one extension. (As `CleanStart`, but the disk may be nearly full.) -/
structure NeverStarted (b : Build) (w : World) (args : MacroArgs) : Prop where
  names : (args.layers.map LayerSpec.name).Nodup
  uniqueKeys : ∀ e ∈ args.default, UniqueKeys e.2
  absent : ∀ l ∈ args.layers, ∀ p ∈ layerCandidates b w args.fileName l, w.pathExists p = false
  places : ∀ l ∈ args.layers, ∀ l' ∈ args.layers, ∀ p ∈ layerCandidates b w args.fileName l,
      ∀ q ∈ layerCandidates b w args.fileName l', w.locate p = w.locate q → pathExtension p = pathExtension q
  env : ∀ pre, args.env = some pre → ∃ P, Trimmed pre P ∧ P ≠ "" ∧ ∀ a ∈ w.env, ¬ ∃ k s, Lands P a k ∧ HasText a s

/-- In `w'` there is a file with only a beginning of the text of the defaults, at the first candidate of a layer marked `init: true`; `res` is what its layer
reads from it (a value or an error). -/
def Leftover (b : Build) (fm : Formats) (w : World) (args : MacroArgs) (dv : Value) (w' : World) (res : Except BakuninError Value) : Prop :=
  ∃ l ∈ args.layers, l.init = some true ∧ ∃ p, (layerCandidates b w args.fileName l).head? = some p ∧
    ∃ cd text bytes, FormatOf b fm p cd ∧ cd.print dv.toData = .ok text ∧ bytes <+: utf8 text ∧ bytes ≠ utf8 text ∧
      w'.disk (w.locate p) = .file bytes none none ∧ res = fileSays cd bytes

/-- `AlikeBelowLists` at one path: `r` has there what `v` has, up to the kind of integers; only a map entry that is `None` may be missing, and only below a
list. -/
def AlikeBelowListsAt (v r : Value) (p : Path) : Prop :=
  (NullEntry v p → view r p = some .none ∨ (view r p = none ∧ ∃ i, Step.idx i ∈ p)) ∧
  (¬ NullEntry v p → (view v p = none ∧ view r p = none) ∨ ∃ h h', view v p = some h ∧ view r p = some h' ∧ HeadAlike h h')

end Verif.Spec
