import Verif.Model.Cost
import Verif.Spec.Config
import Verif.Spec.Layering
import Verif.Spec.Serde
/-!
# The work of merging
-/
namespace Verif.Spec

mutual
/-- How many values a value consists of, itself included. -/
def count : Value → Nat
  | .array xs => 1 + countList xs
  | .map m => 1 + countMap m
  | _ => 1
/-- `count`, summed over a list. -/
def countList : List Value → Nat
  | [] => 0
  | x :: r => count x + countList r
/-- `count`, summed over a map's entries. -/
def countMap : List (String × Value) → Nat
  | [] => 0
  | e :: r => countEntry e + countMap r
/-- `count` of an entry's value. -/
def countEntry : String × Value → Nat
  | (_, v) => count v
end

/-- One unit of work for a lookup; for an insertion one, and one for each value cloned. -/
def MergeEvent.work : MergeEvent → Nat
  | .lookup _ => 1
  | .insert _ cloned => 1 + count cloned

/-- What the overlay speaks about in the receiver is nested less than `n` deep. -/
def SpokenBelow (receiver overlay : Value) (n : Nat) : Prop := ∀ p, view receiver p ≠ none → ¬ Silent overlay p → p.length < n

end Verif.Spec
