import Verif.Spec.Macro
import Verif.Spec.Saving
/-!
# Versions of a program: the same `create_config!` with other defaults
-/
namespace Verif.Spec

/-- The version of the program with these defaults (one layer list, one file name, one prefix). -/
def version (prog : MacroArgs) (defaults : List (String × Value)) : MacroArgs := { prog with default := defaults }

/-- The world after some versions have run one after the other (upgrades, downgrades, the same again). -/
def afterVersions (b : Build) (fm : Formats) (prog : MacroArgs) (w : World) : List (List (String × Value)) → Outcome BakuninError World
  | [] => .ok w
  | d :: ds => createConfig b fm w (version prog d) >>= fun st => afterVersions b fm prog st.2 ds

/-- The world after some programs that call `create_config!`, whatever their arguments, have run one after the other. -/
def afterPrograms (b : Build) (fm : Formats) (w : World) : List MacroArgs → Outcome BakuninError World
  | [] => .ok w
  | args :: more => createConfig b fm w args >>= fun st => afterPrograms b fm st.2 more

/-- The program finds a settings file: one of the candidates of one of its layers exists. (A layer called `default` is never used: the name
is taken by the defaults.) -/
def FindsFile (b : Build) (prog : MacroArgs) (w : World) : Prop :=
  ∃ l ∈ prog.layers, l.name ≠ "default" ∧ ∃ p ∈ layerCandidates b w prog.fileName l, w.pathExists p = true

/-- The enabled formats can print the value. -/
def Printable (b : Build) (fm : Formats) (v : Value) : Prop :=
  ∀ fmt, (b.toml = true ∧ fmt = fm.toml) ∨ (b.json = true ∧ fmt = fm.json) → ∃ text, fmt.print v.toData = .ok text

end Verif.Spec
