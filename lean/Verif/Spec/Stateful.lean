import Verif.Model.Stateful
import Verif.Spec.Config
/-!
# Calling layers one after the other
-/
namespace Verif.Spec
variable {σ : Type}

/-- The configuration after these layers were pushed, in this order. -/
def pushAll (es : List (String × DynLayer σ)) : DynConfig σ := es.foldl (fun c e => c.pushLayer e.1 e.2) DynConfig.new

/-- Somebody calls `read_value` of each of these layers once, in order, whatever the answers: the answers, and the state afterwards. -/
def readEach : List (DynLayer σ) → σ → List (Outcome BakuninError Value) × σ
  | [], s => ([], s)
  | l :: ls, s => ((l.readValue s).1 :: (readEach ls (l.readValue s).2).1, (readEach ls (l.readValue s).2).2)

/-- The values among the answers, in order. -/
def values (rs : List (Outcome BakuninError Value)) : List Value :=
  rs.filterMap fun | .ok v => some v | _ => none

/-- The answer does not end `build_value(skip)`: no panic, and no error unless errors are skipped. -/
def Goes (skip : Bool) (r : Outcome BakuninError Value) : Prop := r ≠ .panic ∧ (skip = false → ∀ e, r ≠ .err e)

/-- The methods of `ConfigLayer`. -/
inductive Method where
  | getName | hasValue | readValue | canWrite | writeValue
  deriving DecidableEq, Repr

/-- The layer, with a record of every call of one of its methods. -/
def recorded (name : String) (l : DynLayer σ) : DynLayer (σ × List (String × Method)) where
  getName s := ((l.getName s.1).1, (l.getName s.1).2, s.2 ++ [(name, .getName)])
  hasValue s := ((l.hasValue s.1).1, (l.hasValue s.1).2, s.2 ++ [(name, .hasValue)])
  readValue s := ((l.readValue s.1).1, (l.readValue s.1).2, s.2 ++ [(name, .readValue)])
  canWrite s := ((l.canWrite s.1).1, (l.canWrite s.1).2, s.2 ++ [(name, .canWrite)])
  writeValue v s := ((l.writeValue v s.1).1, (l.writeValue v s.1).2, s.2 ++ [(name, .writeValue)])

end Verif.Spec
