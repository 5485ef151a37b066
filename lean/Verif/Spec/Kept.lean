import Verif.Spec.Adjacent
/-!
# What is written is read back, through serde's buffer too

The calls serde's derived `Serialize` makes for types with `tag`, `untagged`, `flatten` are written as `Data`, like all calls to /repo/src/model/ser.rs.
-/
namespace Verif.Spec

/-- How a type is read: from a value, or from serde's buffer, owned or borrowed. -/
inductive How where
  | direct
  | buffered (owned : Bool)

/-- Read this way. -/
def readBy (r : Reader) : How → Value → Outcome ModelError Data
  | .direct => r.direct
  | .buffered owned => r.buffered owned

/-- The calls `c` are accepted, and what they write is read as `d`. -/
def Kept (how : How) (r : Reader) (c d : Data) : Prop := ∃ x, ser c = .ok x ∧ readBy r how x = .ok d

/-- The calls `c` write something other than nothing (so that an `Option` can tell). -/
def Present (c : Data) : Prop := ser c ≠ .ok .none

/-- Fields with the calls they make and the data they hold. -/
abbrev Held := RField × Data × Data

/-- Every field is kept. -/
def AllKept (how : How) (ts : List Held) : Prop := ∀ t ∈ ts, Kept how t.1.reader t.2.1 t.2.2
/-- The calls of the fields. -/
def callsOf (ts : List Held) : List (String × Data) := ts.map fun t => (t.1.name, t.2.1)
/-- The data of the fields. -/
def dataOf (ts : List Held) : List (String × Data) := ts.map fun t => (t.1.name, t.2.2)
/-- The fields. -/
def fieldsOf (ts : List Held) : List RField := ts.map fun t => t.1

/-- What a variant carries: the calls its payload makes on its own, and the data of the variant. Payloads are read this way. -/
inductive Carries (how : How) (va : Variant) : Data → Data → Prop
  | unit (hs : va.shape = .unit) : Carries how va .unit (.unitVariant va.name)
  | newtype (r : Reader) (c d : Data) (hs : va.shape = .newtype r) (h : Kept how r c d) : Carries how va c (.newtypeVariant va.name d)
  | tuple (ts : List (Reader × Data × Data)) (hs : va.shape = .tuple (ts.map fun t => t.1)) (h : ∀ t ∈ ts, Kept how t.1 t.2.1 t.2.2) :
      Carries how va (.tuple (ts.map fun t => t.2.1)) (.tupleVariant va.name (ts.map fun t => t.2.2))
  | struct (ts : List Held) (hs : va.shape = .struct (fieldsOf ts)) (h : AllKept how ts) :
      Carries how va (.struct (callsOf ts)) (.structVariant va.name (dataOf ts))

/-- The calls serde makes for a variant with its tag inside, given those of its payload: it must be a struct or a map, or the variant has none. -/
inductive TaggedCalls (tag : String) (va : Variant) : Data → Data → Prop
  | unit (hs : va.shape = .unit) : TaggedCalls tag va .unit (.struct [(tag, .str va.name)])
  | struct (fs : List (String × Data)) (hf : tag ∉ fs.map Prod.fst) : TaggedCalls tag va (.struct fs) (.struct ((tag, .str va.name) :: fs))
  | map (es : List (String × Data)) (hf : tag ∉ es.map Prod.fst) :
      TaggedCalls tag va (.map (es.map fun e => (.str e.1, e.2))) (.map ((.str tag, .str va.name) :: es.map fun e => (.str e.1, e.2)))
  | newtype (c c' : Data) (h : TaggedCalls tag va c c') (hs : va.shape ≠ .unit) : TaggedCalls tag va (.newtypeStruct c) c'

/-- The calls serde makes for a variant of a plain enum. -/
inductive OuterCalls (va : Variant) : Data → Data → Prop
  | unit (hs : va.shape = .unit) : OuterCalls va .unit (.unitVariant va.name)
  | newtype (r : Reader) (c : Data) (hs : va.shape = .newtype r) : OuterCalls va c (.newtypeVariant va.name c)
  | tuple (rs : List Reader) (cs : List Data) (hs : va.shape = .tuple rs) : OuterCalls va (.tuple cs) (.tupleVariant va.name cs)
  | struct (gs : List RField) (fs : List (String × Data)) (hs : va.shape = .struct gs) : OuterCalls va (.struct fs) (.structVariant va.name fs)

/-- A flattened field with what it holds. -/
inductive HeldPart where
  | struct (name : String) (ts : List Held)
  | rest (name : String) (r : Reader) (es : List (String × Data × Data))

/-- The field. -/
def HeldPart.part : HeldPart → String × Part
  | .struct n ts => (n, .struct (fieldsOf ts))
  | .rest n r _ => (n, .rest r)
/-- The entries it writes. -/
def HeldPart.calls : HeldPart → List (String × Data)
  | .struct _ ts => callsOf ts
  | .rest _ _ es => es.map fun e => (e.1, e.2.1)
/-- The data it holds. -/
def HeldPart.data : HeldPart → String × Data
  | .struct n ts => (n, .struct (dataOf ts))
  | .rest n _ es => (n, .map (es.map fun e => (.str e.1, e.2.2)))
/-- It is kept: structs own their part of the buffer, maps borrow. -/
def HeldPart.Fine : HeldPart → Prop
  | .struct _ ts => AllKept (.buffered true) ts
  | .rest _ r es => ∀ e ∈ es, Kept (.buffered false) r e.2.1 e.2.2

/-- A map that is flattened comes last (it would see the entries of the fields after it), and there is one at most. -/
def RestLast : List HeldPart → Prop
  | [] => True
  | .struct _ _ :: r => RestLast r
  | .rest _ _ _ :: r => r = []

end Verif.Spec
