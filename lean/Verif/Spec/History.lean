import Verif.Spec.Config
import Verif.Model.Protocol
/-!
# Values a program can hold

All the ways in which the public API hands out a `Value`, in any order and number.
-/
namespace Verif.Spec

/-- A value that some history of API calls produces. -/
inductive Obtained : Value → Prop
  | new : Obtained Value.new
  | newMap : Obtained Value.newMap
  | newArray : Obtained Value.newArray
  | withCapacity (n : Nat) : Obtained (Value.withArrayCapacity n)
  | fromInt (t : IntTy) (n : IntOf t) : Obtained (Value.ofInt t n)
  | fromF32 (x : F32) : Obtained (Value.ofF32 x)
  | fromF64 (x : F64) : Obtained (Value.ofF64 x)
  | fromBool (b : Bool) : Obtained (Value.ofBool b)
  | fromString (s : String) : Obtained (Value.ofString s)
  | fromOption {α : Type} (f : α → Value) (o : Option α) : (∀ a, o = some a → Obtained (f a)) → Obtained (Value.ofOption f o)
  | fromVec {α : Type} (f : α → Value) (xs : List α) : (∀ a ∈ xs, Obtained (f a)) → Obtained (Value.ofVec f xs)
  | fromHashMap {α : Type} (f : α → Value) (m : List (String × α)) : (∀ e ∈ m, Obtained (f e.2)) → Obtained (Value.ofHashMap f m)
  | get {v : Value} (k : String) : Obtained v → Obtained (v.get k)
  | at' {v : Value} (i : Nat) : Obtained v → Obtained (v.at' i)
  | set {v x : Value} (k : String) : Obtained v → Obtained x → Obtained (v.set k x).2
  | push {v x : Value} : Obtained v → Obtained x → Obtained (v.push x).2
  | merge {v x : Value} : Obtained v → Obtained x → Obtained (v.merge x)
  | cloneMerge {v x : Value} : Obtained v → Obtained x → Obtained (v.cloneMerge x)
  | valueMap {v : Value} (args : List (String × Value)) : (∀ e ∈ args, Obtained e.2) → valueMapMacro args = some v → Obtained v
  | valueVec {v : Value} (args : List Value) : (∀ x ∈ args, Obtained x) → valueVecMacro args = some v → Obtained v
  | iterated {v x : Value} (n : Nat) : Obtained v → some x ∈ ValueIter.take n v.iter → Obtained x
  | serialized {v : Value} (d : Data) : ser d = .ok v → Obtained v
  | handSerializedMap (cs : List MapCall) (st : SerMap) : SerMap.new.calls cs = some st →
      (∀ x, .value (.ok x) ∈ cs → Obtained x) → (∀ n x, .field n (.ok x) ∈ cs → Obtained x) → Obtained st.finish
  | handSerializedSeq {v : Value} (size : Nat) (cs : List (Outcome ModelError Value)) :
      serSeqCalls (serSeqNew size) cs = some v → (∀ x, .ok x ∈ cs → Obtained x) → Obtained v
  | deserialized {v x : Value} : Obtained v → deValue v = .ok x → Obtained x
  | parsed {v : Value} (d : Doc) : visit d = .ok v → Obtained v
  | built {v : Value} (b : Build) (fm : Formats) (calls : List RegCall) (w : World) (skip : Bool) :
      (∀ n x, .memory n x ∈ calls → Obtained x) → (∀ n l, .layer n l ∈ calls → ∀ w x, l.readValue w = .ok x → Obtained x) →
      (register b fm calls).buildValue w skip = .ok v → Obtained v

end Verif.Spec
