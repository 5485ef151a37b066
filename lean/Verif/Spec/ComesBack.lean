import Verif.Spec.OnTop
import Verif.Spec.Toml
/-!
# When something of the layers below comes back
-/
namespace Verif.Spec

/-- The maps of the settings type have text keys (except in lists, and in the structs that are referred to by a number). -/
inductive TextMaps : Ty → Prop
  | leaf {t} : (∀ kt u, t ≠ .map kt u) → (∀ u, t ≠ .option u) → (∀ u, t ≠ .newtype u) → (∀ fs, t ≠ .struct fs) → TextMaps t
  | option {t} : TextMaps t → TextMaps (.option t)
  | newtype {t} : TextMaps t → TextMaps (.newtype t)
  | struct {fs} : (∀ f ∈ fs, TextMaps (Prod.snd f)) → TextMaps (.struct fs)
  | map {t} : TextMaps t → TextMaps (.map .string t)

/-- `below` is what the layers below have at a place, `d` the settings that the layer on top alone gives there. Something that is not in `d` comes back from below: a setting that is unset (`None`)
in `d` has a value below (other than `None`), or a map with text keys (or a `Value` that is a map) in `d` lacks an entry that the map below has; or this happens further inside — in a `Some` or a newtype, in a field of a section
that is a section below too, or in an entry that both maps have. Lists are replaced as a whole: nothing comes back in them. -/
inductive ComesBack : Value → Data → Prop
  | unset {below} : below ≠ .none → ComesBack below .none
  | entry {below x es k} : child below (.key k) = some x → dchild (.map es) (.key (.str k)) = none → ComesBack below (.map es)
  | inner {below d d'} : dchild d .inner = some d' → ComesBack below d' → ComesBack below d
  | field {below d x d' name} : child below (.key name) = some x → dchild d (.field name) = some d' → ComesBack x d' → ComesBack below d
  | within {below d x d' k} : child below (.key k) = some x → dchild d (.key (.str k)) = some d' → ComesBack x d' → ComesBack below d

end Verif.Spec
