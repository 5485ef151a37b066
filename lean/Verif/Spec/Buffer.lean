import Verif.Model.Buffer
import Verif.Spec.Config
import Verif.Spec.Serde
/-!
# Reading from a buffer
-/
namespace Verif.Spec

/-- What a field gets from a buffered map. -/
def FieldReads (owned : Bool) (v : Value) (f : RField) (d : Data) : Prop :=
  (∀ x, child v (.key f.name) = some x → f.reader.buffered owned x = .ok d) ∧ (child v (.key f.name) = none → f.missing = .ok d)

/-- The elements are as many as the readers, and each is read by its own. -/
def EachReads (owned : Bool) (rs : List Reader) (xs : List Value) (ds : List Data) : Prop :=
  xs.length = rs.length ∧ ds.length = rs.length ∧
    ∀ (j : Nat) r x d, rs[j]? = some r → xs[j]? = some x → ds[j]? = some d → r.buffered owned x = .ok d

/-- The fields of a struct or struct variant are read from the buffer: from a map by name, from a sequence by position. -/
inductive FieldsRead (owned : Bool) (fs : List RField) (v : Value) : List (String × Data) → Prop
  | map (ds : List (String × Data)) (hm : v.isMap = true)
      (h : List.Forall₂ (fun f nd => nd.1 = f.name ∧ FieldReads owned v f nd.2) fs ds) : FieldsRead owned fs v ds
  | seq (xs : List Value) (ds : List Data) (hv : v = .array xs) (h : EachReads owned (fs.map RField.reader) xs ds) :
      FieldsRead owned fs v ((fs.map RField.name).zip ds)

/-- The variant of an untagged enum fits the data, as `d`. -/
inductive Fits (va : Variant) (v : Value) : Data → Prop
  | unit (hs : va.shape = .unit) (hv : v = .none) : Fits va v (.unitVariant va.name)
  | newtype (r : Reader) (d : Data) (hs : va.shape = .newtype r) (h : r.buffered false v = .ok d) : Fits va v (.newtypeVariant va.name d)
  | tuple (rs : List Reader) (xs : List Value) (ds : List Data) (hs : va.shape = .tuple rs) (hv : v = .array xs)
      (h : EachReads false rs xs ds) : Fits va v (.tupleVariant va.name ds)
  | struct (fs : List RField) (ds : List (String × Data)) (hs : va.shape = .struct fs) (h : FieldsRead false fs v ds) :
      Fits va v (.structVariant va.name ds)

/-- The variant of an internally tagged enum is read from what is left without the tag. -/
inductive RestReads (va : Variant) (rest : Value) : Data → Prop
  | unit (hs : va.shape = .unit) : RestReads va rest (.unitVariant va.name)
  | newtype (r : Reader) (d : Data) (hs : va.shape = .newtype r) (h : r.buffered true rest = .ok d) : RestReads va rest (.newtypeVariant va.name d)
  | struct (fs : List RField) (ds : List (String × Data)) (hs : va.shape = .struct fs) (h : FieldsRead true fs rest ds) :
      RestReads va rest (.structVariant va.name ds)

/-- The variant a tag found in a buffer stands for: the one of that name, or the one at that place, counted from zero, if it is a `u64`. -/
inductive TagNames (vs : List Variant) : Value → Variant → Prop
  | name (s : String) (va : Variant) (h : vs.find? (fun a => a.name == s) = some va) : TagNames vs (.string s) va
  | place (n : IntOf .u64) (va : Variant) (h : vs[n.1.toNat]? = some va) : TagNames vs (.uInteger n) va

/-- The entries of the map other than under the given keys. -/
def without (v : Value) (ks : List String) : List (String × Value) :=
  match v with
  | .map m => m.filter fun e => !ks.contains e.1
  | _ => []

/-- What the flattened fields get, in order, from what the keys in `taken` have left: a struct reads its own keys and takes them, a map reads every key that is left. -/
inductive PartsGet (v : Value) : List String → List (String × Part) → List (String × Data) → Prop
  | nil (taken : List String) : PartsGet v taken [] []
  | struct (taken : List String) (name : String) (fs : List RField) (ds : List (String × Data)) (parts : List (String × Part))
      (ps : List (String × Data)) (h : List.Forall₂ (fun f nd => nd.1 = f.name ∧ FieldReads true (.map (without v taken)) f nd.2) fs ds)
      (hr : PartsGet v (taken ++ fs.map RField.name) parts ps) : PartsGet v taken ((name, .struct fs) :: parts) ((name, .struct ds) :: ps)
  | rest (taken : List String) (name : String) (r : Reader) (es : List (Data × Data)) (parts : List (String × Part))
      (ps : List (String × Data)) (h : List.Forall₂ (fun e x => x.1 = .str e.1 ∧ r.buffered false e.2 = .ok x.2) (without v taken) es)
      (hr : PartsGet v taken parts ps) : PartsGet v taken ((name, .rest r) :: parts) ((name, .map es) :: ps)

/-- Reading the type from a buffer never panics. -/
def Calm (r : Reader) : Prop := ∀ owned v, r.buffered owned v ≠ .panic

/-- Nothing in the shape panics, and no field name is used twice. -/
def ShapeFine : Shape → Prop
  | .unit => True
  | .newtype r => Calm r
  | .tuple rs => ∀ r ∈ rs, Calm r
  | .struct fs => (fs.map RField.name).Nodup ∧ ∀ f ∈ fs, Calm f.reader ∧ f.missing ≠ .panic

/-- For values of the kind `P`: whatever is read from the buffer would be read directly, with the same result. -/
def Agrees (P : Value → Prop) (r : Reader) : Prop :=
  ∀ owned v d, UniqueKeys v → P v → r.buffered owned v = .ok d → r.direct v = .ok d

/-- Parts of such values are such values. -/
def Hereditary (P : Value → Prop) : Prop := ∀ v s x, P v → child v s = some x → P x

end Verif.Spec
