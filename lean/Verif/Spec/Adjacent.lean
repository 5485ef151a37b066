import Verif.Model.Adjacent
import Verif.Spec.Buffer
/-!
# Adjacently tagged enums
-/
namespace Verif.Spec

/-- The content `v`, in an owned or borrowed buffer, is the variant's, as `d`. -/
inductive ContentReads (owned : Bool) (va : Variant) (v : Value) : Data → Prop
  | unit (hs : va.shape = .unit) (hv : v = .none) : ContentReads owned va v (.unitVariant va.name)
  | newtype (r : Reader) (d : Data) (hs : va.shape = .newtype r) (h : r.buffered owned v = .ok d) : ContentReads owned va v (.newtypeVariant va.name d)
  | tuple (rs : List Reader) (xs : List Value) (ds : List Data) (hs : va.shape = .tuple rs) (hv : v = .array xs)
      (h : EachReads owned rs xs ds) : ContentReads owned va v (.tupleVariant va.name ds)
  | struct (fs : List RField) (ds : List (String × Data)) (hs : va.shape = .struct fs) (h : FieldsRead owned fs v ds) :
      ContentReads owned va v (.structVariant va.name ds)

/-- The variant can do without content, and is `d` then. -/
inductive WithoutContent (va : AVariant) : Data → Prop
  | unit (hs : va.variant.shape = .unit) : WithoutContent va (.unitVariant va.variant.name)
  | newtype (r : Reader) (d : Data) (hs : va.variant.shape = .newtype r) (h : va.absent = .ok d) : WithoutContent va (.newtypeVariant va.variant.name d)

/-- The tag's value names the variant: as a text, or as a map with the name as its only key and nothing as its value (in an owned buffer also an empty map). -/
def Names (owned : Bool) (vs : List AVariant) (x : Value) (va : AVariant) : Prop :=
  ∃ name, vs.find? (fun a => a.variant.name == name) = some va ∧
    (x = .string name ∨ x = .map [(name, .none)] ∨ owned = true ∧ x = .map [(name, .map [])])

/-- The first element of a list names the variant: by its name, or by its number, counted from 0. -/
def Numbers (vs : List AVariant) (x : Value) (va : AVariant) : Prop :=
  (∃ name, x = .string name ∧ vs.find? (fun a => a.variant.name == name) = some va) ∨ ∃ before after, vs = before ++ va :: after ∧ ∃ n, x = .uInteger n ∧ n.1 = before.length

/-- What serde writes for an adjacently tagged enum: a struct of the tag, as a unit variant, and the content, if any. -/
def adjCalls (tag content name : String) (payload : Option Data) : Data :=
  .struct ((tag, .unitVariant name) :: match payload with
    | none => []
    | some d => [(content, d)])

end Verif.Spec
