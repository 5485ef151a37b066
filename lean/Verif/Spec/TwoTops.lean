import Verif.Spec.OnTop
/-!
# Which settings several layers on top can bring about
-/
namespace Verif.Spec

/-- Of the settings `ds` of a struct with these fields: each is what the layers below, which say `v`, make it; or can be said at all. -/
def KeptOrSaid (nulls : Bool) (structs : Nat → List (String × Ty)) (fs : List (String × Ty)) (v : Value) (ds : List (String × Data)) : Prop :=
  ds.map Prod.fst = fs.map Prod.fst ∧
  ∀ (i : Nat) f d, fs[i]? = some f → ds[i]? = some d → Stays structs f.2 (child v (.key f.1)) d.2 ∨ Sayable nulls structs f.2 d.2

end Verif.Spec
