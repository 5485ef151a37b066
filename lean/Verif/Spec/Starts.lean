import Verif.Model.Starts
import Verif.Spec.Macro
import Verif.Spec.MacroRace
import Verif.Spec.Writing
/-!
# Histories in which several processes start a program at once
-/
namespace Verif.Spec

/-- What one layer of one process sees is what the history offers: the directories are resolved, then the search looks, then the path is
checked, each at some moment of the history, in this order. -/
def Witnessed {α : Type} (s : Nat → α × World) (m : LayerMoments) : Prop :=
  ∃ (td : Nat) (tk : Nat → Nat) (tc : Nat), m.dirs = (s td).2 ∧ (∀ k, m.search k = (s (tk k)).2) ∧ m.check = (s tc).2 ∧
    ∀ k, td ≤ tk k ∧ tk k ≤ tc

/-- The program of process `i`: the same as all others, but the `HashMap` of its defaults may have its own order (or even other entries). -/
def programOf {ι : Type} (prog : MacroArgs) (defaults : ι → List (String × Value)) (i : ι) : MacroArgs := { prog with default := defaults i }

/-- A history: the processes `ι` all run `create_config!` of one program, beginning in the world `w`. At each moment at most one of them
takes one step of one of its writes. `c i` and `writes i` are what the `i`-th gets and writes. (How the moments of different layers of one
process, and its checks and writes, lie relative to each other is left open: more can happen here than in reality.) -/
structure Together {ι : Type} [DecidableEq ι] (b : Build) (fm : Formats) (prog : MacroArgs) (defaults : ι → List (String × Value)) (w : World)
    (s : Nat → (ι × Nat → Writer) × World) (c : ι → Config) (writes : ι → List Wrote) : Prop where
  start : s 0 = (fun _ => .start, w)
  step : ∀ t, s (t + 1) = s t ∨ StartsStep writes (s t) (s (t + 1))
  runs : ∀ i, ∃ ms : List LayerMoments, ms.length = prog.layers.length ∧
    createConfigR b fm (programOf prog defaults i) ms = .ok (c i, writes i) ∧ ∀ m ∈ ms, Witnessed s m

/-- Every write that was issued is over: all bytes are written, or the OS refuses to open the file, or the value could not be printed. -/
def AllDone {ι : Type} (writes : ι → List Wrote) (s : (ι × Nat → Writer) × World) : Prop :=
  ∀ i k o cd path text, (writes i)[k]? = some o → o.through = .file (textHandler cd) path → cd.print o.value.toData = .ok text →
    (∃ off, s.1 (i, k) = .writing off []) ∨ (s.1 (i, k) = .start ∧ ∃ e, s.2.openTrunc path = .error e)

/-- The enabled formats print the same for the defaults of all processes. -/
def SameTexts {ι : Type} (b : Build) (fm : Formats) (defaults : ι → List (String × Value)) : Prop :=
  ∀ i j dv dv', valueMapMacro (defaults i) = some dv → valueMapMacro (defaults j) = some dv' → ∀ p cd, FormatOf b fm p cd →
    cd.print dv.toData = cd.print dv'.toData

/-- Some process would write this text at this place: the text of its defaults, at the first candidate of a layer marked `init: true`. -/
def WouldWrite {ι : Type} (b : Build) (fm : Formats) (prog : MacroArgs) (defaults : ι → List (String × Value)) (w : World) (slot : Nat)
    (text : String) : Prop :=
  ∃ i dv, valueMapMacro (defaults i) = some dv ∧ ∃ l ∈ prog.layers, l.init = some true ∧
    ∃ p, (layerCandidates b w prog.fileName l).head? = some p ∧ w.locate p = slot ∧
      ∃ cd, FormatOf b fm p cd ∧ cd.print dv.toData = .ok text

end Verif.Spec
