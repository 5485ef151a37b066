import Verif.Model.Protocol
import Verif.Spec.View
/-!
# What a history of serializer calls means

Read off the list of calls alone: which key is pending after them, and which call wrote what.
-/
namespace Verif.Spec

/-- The call hands over a key that has a text form. -/
def NamesKey (c : MapCall) (k : String) : Prop := ∃ v, c = .key (.ok v) ∧ v.tryIntoMethod .string = .ok k

/-- The call asks to store a value under the pending key. -/
def StoresValue (c : MapCall) : Prop := ∃ a, c = .value a

/-- After these calls the key `k` waits for its value: a call named it, and since then no call named a key or
stored a value. -/
def Pending (cs : List MapCall) (k : String) : Prop :=
  ∃ (j : Nat) (c : MapCall), cs[j]? = some c ∧ NamesKey c k ∧ ∀ (i : Nat) (c' : MapCall), j < i → cs[i]? = some c' → (∀ k', ¬ NamesKey c' k') ∧ ¬ StoresValue c'

/-- The `i`-th call stores `x` under `k`. -/
def Writes (cs : List MapCall) (i : Nat) (k : String) (x : Value) : Prop :=
  (cs[i]? = some (.value (.ok x)) ∧ Pending (cs.take i) k) ∨ cs[i]? = some (.field k (.ok x))

/-- `x` is what the last of the calls that stored something under `k` stored. -/
def LastWritten (cs : List MapCall) (k : String) (x : Value) : Prop :=
  ∃ i, Writes cs i k x ∧ ∀ j y, i < j → ¬ Writes cs j k y

/-- The `i`-th call cannot be served: a value without a pending key, or an argument whose own serialization
panics. -/
def Unservable (cs : List MapCall) (i : Nat) : Prop :=
  ((∃ a, cs[i]? = some (.value a)) ∧ ∀ k, ¬ Pending (cs.take i) k) ∨
  cs[i]? = some (.key .panic) ∨ cs[i]? = some (.value .panic) ∨ ∃ n, cs[i]? = some (.field n .panic)

end Verif.Spec
