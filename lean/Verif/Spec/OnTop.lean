import Verif.Spec.Sayable
/-!
# Which settings a layer on top can bring about

A layer is put on top of layers that are given. What the settings can become.
-/
namespace Verif.Spec

/-- Types read from a section: a struct or a map, perhaps optional, perhaps in a newtype. -/
def IsSection : Ty → Bool
  | .struct _ | .map _ _ | .ref _ => true
  | .option t | .newtype t => IsSection t
  | _ => false

/-- No field of a section or of its sections is a `Value`, and maps in sections have text keys (numbers as keys can be written in several ways); in lists and tuples, which are replaced as a
whole, there may be anything. -/
inductive PlainSections : Ty → Prop
  | leaf {t} : (∀ kt u, t ≠ .map kt u) → t ≠ .value → (∀ u, t ≠ .option u) → (∀ u, t ≠ .newtype u) → (∀ fs, t ≠ .struct fs) → PlainSections t
  | option {t} : PlainSections t → PlainSections (.option t)
  | newtype {t} : PlainSections t → PlainSections (.newtype t)
  | struct {fs} : (∀ f ∈ fs, PlainSections (Prod.snd f)) → PlainSections (.struct fs)
  | map {t} : PlainSections t → PlainSections (.map .string t)

/-- The setting is what the layers below say: it is read from what is there, or is optional and nothing is there. -/
def Stays (structs : Nat → List (String × Ty)) (T : Ty) (below : Option Value) (d : Data) : Prop :=
  (∃ z k, below = some z ∧ deAt structs k T z = .ok d) ∨ (below = none ∧ d = .none ∧ ∃ t, T = .option t)

/-- `below`: what the layers below have at the place of a setting, if anything. The data a layer on top can make of the setting: whatever can be said (`Sayable`), except that of a
section that the layers below have too each field is either left as it is or made something in the same way; and a map that the layers below have too keeps its keys (they come first; the order
of a map has no meaning), its entries are either left as they are or made something in the same way, and others may be added. (`nulls`: whether `None` can be written.) -/
inductive OnTop (nulls : Bool) (structs : Nat → List (String × Ty)) : Ty → Option Value → Data → Prop
  | said {T below d} : Sayable nulls structs T d → (IsSection T = true → ∀ m, below ≠ some (.map m)) → OnTop nulls structs T below d
  | none {t below} : nulls = true → OnTop nulls structs (.option t) below .none
  | some {t below d} : OnTop nulls structs t below d → ¬ Nothing d → OnTop nulls structs (.option t) below (.some d)
  | newtype {t below d} : OnTop nulls structs t below d → OnTop nulls structs (.newtype t) below (.newtypeStruct d)
  | struct {fs : List (String × Ty)} {m : Entries} {ds : List (String × Data)} : ds.map Prod.fst = fs.map Prod.fst →
      (∀ (i : Nat) f d, fs[i]? = Option.some f → ds[i]? = Option.some d →
        ¬ Stays structs f.2 (child (.map m) (.key f.1)) d.2 → OnTop nulls structs f.2 (child (.map m) (.key f.1)) d.2) →
      OnTop nulls structs (.struct fs) (Option.some (.map m)) (.struct ds)
  | map {t : Ty} {m : Entries} {es : List (String × Data)} : (es.map Prod.fst).Nodup → (∃ new, es.map Prod.fst = m.map Prod.fst ++ new) →
      (∀ e ∈ es, ¬ (∃ z k, child (.map m) (.key (Prod.fst e)) = Option.some z ∧ deAt structs k t z = .ok e.2) → OnTop nulls structs t (child (.map m) (.key e.1)) e.2) →
      OnTop nulls structs (.map .string t) (Option.some (.map m)) (.map (es.map fun e => (.str e.1, e.2)))
  | ref {n below d} : OnTop nulls structs (.struct (structs n)) below d → OnTop nulls structs (.ref n) below d

/-- What is set in the first settings is set in the second: an optional field that is `Some` is not `None`, in the sections too, and an entry that a map has it still has (in maps with text keys,
likewise for what is in the entry; numbers as keys can be written in several ways, and then either entry may win). Only in a `Value` a map can give way to something that is no map. -/
inductive KeepsSet : Data → Data → Prop
  | same (d) : KeepsSet d d
  | none (d) : KeepsSet .none d
  | some {d d'} : KeepsSet d d' → KeepsSet (.some d) (.some d')
  | newtype {d d'} : KeepsSet d d' → KeepsSet (.newtypeStruct d) (.newtypeStruct d')
  | struct {ds ds' : List (String × Data)} : ds'.map Prod.fst = ds.map Prod.fst →
      (∀ (i : Nat) d d', ds[i]? = Option.some d → ds'[i]? = Option.some d' → KeepsSet d.2 d'.2) → KeepsSet (.struct ds) (.struct ds')
  | map {es es' : List (Data × Data)} : (∀ e ∈ es, ∃ e' ∈ es', e'.1 = e.1) →
      (∀ e ∈ es, ∀ e' ∈ es', ∀ s, e.1 = .str s → e'.1 = .str s → KeepsSet (Prod.snd e) (Prod.snd e')) → KeepsSet (.map es) (.map es')
  | replaced {es d'} : (∀ es', d' ≠ .map es') → KeepsSet (.map es) d'
  | other {d d'} : (∀ x, d ≠ .some x) → (∀ x, d ≠ .newtypeStruct x) → (∀ ds, d ≠ .struct ds) → (∀ es, d ≠ .map es) → KeepsSet d d'

end Verif.Spec
