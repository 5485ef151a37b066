import Verif.Model.MacroRace
import Verif.Spec.Macro
/-!
# What `create_config!` may see and do among other processes
-/
namespace Verif.Spec

/-- What a search that takes the first existing of these paths, else the first, may answer while the world changes: a path that
it saw, having seen that none before it was there; or the first, having seen that none was there. -/
def Seen (ws : Moments) (cs : List OsStr) (p : OsStr) : Prop :=
  (∃ i : Nat, cs[i]? = some p ∧ (∃ t, (ws t).pathExists p = true) ∧ ∀ (j : Nat) q, j < i → cs[j]? = some q → ∃ t, (ws t).pathExists q = false) ∨
  (cs.head? = some p ∧ ∀ q ∈ cs, ∃ t, (ws t).pathExists q = false)

/-- The worlds of a layer during which nobody else does anything. -/
def still (w : World) : LayerMoments := ⟨w, fun _ => w, w, w⟩

/-- The macro alone in the world: between two layers nothing happens but the macro's own writes. From `w` to `w'`. -/
inductive Alone : World → List LayerMoments → List Wrote → World → Prop
  | done (w : World) : Alone w [] [] w
  | idle {w w' : World} {ms : List LayerMoments} {os' : List Wrote} : Alone w ms os' w' → Alone w (still w :: ms) os' w'
  | wrote {w w' : World} {ms : List LayerMoments} {os' : List Wrote} (o : Wrote) (h : o.at' = w) : Alone o.result.2 ms os' w' →
      Alone w (still w :: ms) (o :: os') w'

end Verif.Spec
