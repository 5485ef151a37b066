import Verif.Model.Checked
import Verif.Spec.Attrs
/-!
# What has passed its checks
-/
namespace Verif.Spec

/-- Everything in the data that has a type with a check was made by that type's conversion, from something whose own parts were made so. -/
inductive Passed : CTy → Data → Prop
  | plain (dec d) : Passed (.plain dec) d
  | none (t) : Passed (.option t) .none
  | some {t d} : Passed t d → Passed (.option t) (.some d)
  | newtype {t d} : Passed t d → Passed (.newtype t) (.newtypeStruct d)
  | seq {t ds} : (∀ d ∈ ds, Passed t d) → Passed (.seq t) (.seq ds)
  | tuple {ts ds} : ds.length = ts.length → (∀ (i : Nat) t d, ts[i]? = Option.some t → ds[i]? = Option.some d → Passed t d) → Passed (.tuple ts) (.tuple ds)
  | map {kt t es} : (∀ e ∈ es, Passed t (Prod.snd e)) → Passed (.map kt t) (.map es)
  | struct {deny fs ds} : ds.length = fs.length → (∀ (i : Nat) f (nd : String × Data), fs[i]? = Option.some f → ds[i]? = Option.some nd → nd.1 = f.1.name) →
      (∀ (i : Nat) f (nd : String × Data), fs[i]? = Option.some f → ds[i]? = Option.some nd → Passed f.2 nd.2) → Passed (.struct deny fs) (.struct ds)
  | tryFrom {conv t raw d} : Passed t raw → conv raw = .ok d → Passed (.tryFrom conv t) d

/-- The keys a field is read from. -/
def fieldKeys (f : CField) : List String := if f.skip then [] else f.name :: f.aliases

/-- The program compiles, and its constructors are honest: no key of a struct is claimed twice, and what a field gets by `#[serde(default)]` has itself passed
the checks (it is a value of the type, made by the program). -/
inductive Honest : CTy → Prop
  | plain (dec) : Honest (.plain dec)
  | option {t} : Honest t → Honest (.option t)
  | newtype {t} : Honest t → Honest (.newtype t)
  | seq {t} : Honest t → Honest (.seq t)
  | tuple {ts} : (∀ t ∈ ts, Honest t) → Honest (.tuple ts)
  | map {kt t} : Honest t → Honest (.map kt t)
  | struct {deny fs} : (fs.map fun f => f.1.name).Nodup → (fs.flatMap fun f => fieldKeys f.1).Nodup →
      (∀ f ∈ fs, ∀ d, (Prod.fst f).default = some d → Passed (Prod.snd f) d) → (∀ f ∈ fs, Honest (Prod.snd f)) → Honest (.struct deny fs)
  | tryFrom {conv t} : Honest t → Honest (.tryFrom conv t)

end Verif.Spec
