import Verif.Model.FlatOption
import Verif.Spec.Buffer
/-!
# Optional flattened sections
-/
namespace Verif.Spec

/-- An entry of the section that cannot be read. -/
def BadEntry (gs : List RField) (e : String × Value) : Prop := ∃ g ∈ gs, g.name = e.1 ∧ ∀ d, g.reader.buffered true e.2 ≠ .ok d

/-- The section can be read from these entries, as `ds`. -/
def SectionReads (gs : List RField) (left : List (String × Value)) (ds : List (String × Data)) : Prop :=
  List.Forall₂ (fun f nd => nd.1 = f.name ∧ FieldReads true (.map left) f nd.2) gs ds

/-- What an optional section leaves of the entries to the flattened fields after it: everything but its own, if none of those is bad; otherwise its own that come after the first bad one
are left as well. -/
def Leaves (gs : List RField) (left left' : List (String × Value)) : Prop :=
  ((∀ e ∈ left, ¬ BadEntry gs e) ∧ left' = without (.map left) (gs.map RField.name)) ∨
  ∃ pre e post, left = pre ++ e :: post ∧ BadEntry gs e ∧ (∀ a ∈ pre, ¬ BadEntry gs a) ∧ left' = without (.map pre) (gs.map RField.name) ++ post

/-- The key is the name of a variant. -/
def NamesVariant (vs : List Variant) (k : String) : Prop := ∃ va ∈ vs, va.name = k

/-- The variant is read from the content `x` under its name: nothing (or an empty map) for one without content. -/
inductive VariantReads (va : Variant) (x : Value) : Data → Prop
  | unit (hs : va.shape = .unit) (hx : x = .none ∨ x = .map []) : VariantReads va x (.unitVariant va.name)
  | newtype (r : Reader) (d : Data) (hs : va.shape = .newtype r) (h : r.buffered true x = .ok d) : VariantReads va x (.newtypeVariant va.name d)
  | tuple (rs : List Reader) (xs : List Value) (ds : List Data) (hs : va.shape = .tuple rs) (hx : x = .array xs) (h : EachReads true rs xs ds) :
      VariantReads va x (.tupleVariant va.name ds)
  | struct (fs : List RField) (ds : List (String × Data)) (hs : va.shape = .struct fs) (h : FieldsRead true fs x ds) : VariantReads va x (.structVariant va.name ds)

/-- The entry chooses a variant, which is read as `d`. -/
def Chosen (vs : List Variant) (e : String × Value) (d : Data) : Prop := ∃ va ∈ vs, va.name = e.1 ∧ VariantReads va e.2 d

/-- The first of the entries that names a variant, and the others. -/
def FirstNamed (vs : List Variant) (left : List (String × Value)) (e : String × Value) (left' : List (String × Value)) : Prop :=
  ∃ pre post, left = pre ++ e :: post ∧ NamesVariant vs e.1 ∧ (∀ a ∈ pre, ¬ NamesVariant vs a.1) ∧ left' = pre ++ post

/-- The variant's name. -/
def chosenName : Data → Option String
  | .unitVariant n => some n
  | .newtypeVariant n _ => some n
  | .tupleVariant n _ => some n
  | .structVariant n _ => some n
  | _ => none

/-- What the flattened fields get, in order, from the entries that are left. -/
inductive FlatGet : List (String × Value) → List (String × FlatPart) → List (String × Data) → Prop
  | nil (left) : FlatGet left [] []
  | struct {left name gs ds parts ps} : SectionReads gs left ds → FlatGet (without (.map left) (gs.map RField.name)) parts ps →
      FlatGet left ((name, .struct gs) :: parts) ((name, .struct ds) :: ps)
  | some {left name gs ds parts ps} : SectionReads gs left ds → FlatGet (without (.map left) (gs.map RField.name)) parts ps →
      FlatGet left ((name, .optional gs) :: parts) ((name, .some (.struct ds)) :: ps)
  | none {left left' name gs parts ps} : (∀ ds, ¬ SectionReads gs left ds) → Leaves gs left left' → FlatGet left' parts ps →
      FlatGet left ((name, .optional gs) :: parts) ((name, .none) :: ps)
  | rest {left name r es parts ps} : List.Forall₂ (fun e (x : Data × Data) => x.1 = .str e.1 ∧ r.buffered false e.2 = .ok x.2) left es → FlatGet left parts ps →
      FlatGet left ((name, .rest r) :: parts) ((name, .map es) :: ps)
  | choice {left left' name vs e d parts ps} : FirstNamed vs left e left' → Chosen vs e d → FlatGet left' parts ps → FlatGet left ((name, .choice vs) :: parts) ((name, d) :: ps)
  | chosen {left left' name vs e d parts ps} : FirstNamed vs left e left' → Chosen vs e d → FlatGet left' parts ps →
      FlatGet left ((name, .optChoice vs) :: parts) ((name, .some d) :: ps)
  | unread {left left' name vs e parts ps} : FirstNamed vs left e left' → (∀ d, ¬ Chosen vs e d) → FlatGet left' parts ps →
      FlatGet left ((name, .optChoice vs) :: parts) ((name, .none) :: ps)
  | unnamed {left name vs parts ps} : (∀ e ∈ left, ¬ NamesVariant vs e.1) → FlatGet left parts ps → FlatGet left ((name, .optChoice vs) :: parts) ((name, .none) :: ps)
  | view {left name r d parts ps} : r.buffered false (.map left) = .ok d → FlatGet left parts ps → FlatGet left ((name, .view r) :: parts) ((name, d) :: ps)

/-- The fields of a flattened section. -/
def sectionFields : FlatPart → List RField
  | .struct gs | .optional gs => gs
  | _ => []

/-- What a section gets from the whole map. -/
inductive SectionGets (m : List (String × Value)) : FlatPart → Data → Prop
  | struct {gs ds} : SectionReads gs m ds → SectionGets m (.struct gs) (.struct ds)
  | some {gs ds} : SectionReads gs m ds → SectionGets m (.optional gs) (.some (.struct ds))
  | none {gs} : (∀ ds, ¬ SectionReads gs m ds) → SectionGets m (.optional gs) .none

/-- Field names (names of variants) are used once, and nothing in an optional section (in the enum) panics. -/
def FlatFine : FlatPart → Prop
  | .struct gs => (gs.map RField.name).Nodup
  | .optional gs => (gs.map RField.name).Nodup ∧ ∀ f ∈ gs, Calm f.reader ∧ f.missing ≠ .panic
  | .choice vs | .optChoice vs => (vs.map Variant.name).Nodup ∧ ∀ va ∈ vs, ShapeFine va.shape
  | .rest _ | .view _ => True

/-- The own fields of the struct are read directly from the map. -/
def OwnReads (fs : List RField) (v : Value) (ds : List (String × Data)) : Prop :=
  List.Forall₂ (fun f nd => nd.1 = f.name ∧ (∀ x, child v (.key f.name) = some x → f.reader.direct x = .ok nd.2) ∧
    (child v (.key f.name) = none → f.missing = .ok nd.2)) fs ds

end Verif.Spec
