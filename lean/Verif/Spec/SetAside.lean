import Verif.Spec.ComesBack
/-!
# When something of the layers below shows through a layer on top
-/
namespace Verif.Spec

/-- `below` is what the layers below have at a place, `top` what the layer on top has there, `d` the settings that the layer on top alone gives. Something of the layers below shows through: the layer on top
leaves out a setting of a section (it is then unset in `d`) that has a value other than `None` below, or a map with text keys (or a `Value` that is a map) in `d` lacks an entry that the map below has; or this happens further inside — in a
`Some` or a newtype, in a field of a section that both have, or in an entry of a map that both have. Lists are replaced as a whole: nothing shows through them. A setting that the layer on top
says is `None` is not left out. -/
inductive ShowsThrough : Value → Value → Data → Prop
  | left {below top d d' y name} : child below (.key name) = some y → y ≠ .none → dchild d (.field name) = some d' → child top (.key name) = none → ShowsThrough below top d
  | entry {below top y es k} : child below (.key k) = some y → dchild (.map es) (.key (.str k)) = none → ShowsThrough below top (.map es)
  | inner {below top d d'} : dchild d .inner = some d' → ShowsThrough below top d' → ShowsThrough below top d
  | field {below top d y x d' name} : child below (.key name) = some y → child top (.key name) = some x → dchild d (.field name) = some d' → ShowsThrough y x d' → ShowsThrough below top d
  | within {below top d y x d' k} : child below (.key k) = some y → child top (.key k) = some x → dchild d (.key (.str k)) = some d' → ShowsThrough y x d' → ShowsThrough below top d

/-- `below` is what the layers below have at a place, `d` the settings. A map with text keys (or a `Value` that is a map) in `d` lacks an entry that the map below has — here, or further inside: in a `Some` or a newtype, in a
field of a section that is a section below too, or in an entry that both maps have. -/
inductive EntryBack : Value → Data → Prop
  | entry {below y es k} : child below (.key k) = some y → dchild (.map es) (.key (.str k)) = none → EntryBack below (.map es)
  | inner {below d d'} : dchild d .inner = some d' → EntryBack below d' → EntryBack below d
  | field {below d y d' name} : child below (.key name) = some y → dchild d (.field name) = some d' → EntryBack y d' → EntryBack below d
  | within {below d y d' k} : child below (.key k) = some y → dchild d (.key (.str k)) = some d' → EntryBack y d' → EntryBack below d

end Verif.Spec
