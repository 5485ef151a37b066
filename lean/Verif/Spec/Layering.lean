import Verif.Spec.View
/-!
# Layering

Which paths an overlay has something to say about. Stated with `view` only.
-/
namespace Verif.Spec

/-- The overlay `b` has nothing to say about path `p`: following `p`, it is a map all the way to some key,
and has no entry for that key. (Otherwise `b` *speaks* about `p`: it has something at `p`, or it holds a
non-map somewhere on the way, which hides whatever the lower layers have below.) -/
def Silent (b : Value) (p : Path) : Prop :=
  ∃ q k r, p = q ++ Step.key k :: r ∧ (∀ q', q' <+: q → view b q' = some .map) ∧
    view b (q ++ [Step.key k]) = none

/-- The path `.get(k1).get(k2)…`. -/
def keys (q : List String) : Path := q.map Step.key

/-- At some key path the overlay `c` puts a map where `b` holds a non-map. -/
def Clobbers (b c : Value) : Prop :=
  ∃ q : List String, view c (keys q) = some .map ∧ ∃ h, view b (keys q) = some h ∧ h ≠ .map

/-- `k` is one of the keys of `v` (seen from outside: looking it up leads somewhere). -/
def HasKey (v : Value) (k : String) : Prop := view v [.key k] ≠ none

end Verif.Spec
