import Verif.Model.CatchAll
import Verif.Spec.FlatOption
import Verif.Spec.Kept
import Verif.Spec.Toml
import Verif.Model.Layer
/-!
# Keeping unknown keys
-/
namespace Verif.Spec

/-- The entries as data: keys as strings, values as `Value` shows itself. -/
def asData (m : List (String × Value)) : List (Data × Data) := m.map fun e => (.str e.1, e.2.toData)

/-- A program (or a version of one): its own fields, and where it keeps the rest. -/
structure Keeper where
  fields : List RField
  name : String
  kind : CatchAll

/-- The keys it knows. -/
def Keeper.keys (k : Keeper) : List String := k.fields.map RField.name

/-- It reads settings from a value. -/
def Keeper.read (k : Keeper) (v : Value) : Outcome ModelError Data := readFlat k.fields [(k.name, k.kind.part)] v

/-- A session: it reads `v`, changes its own fields in any way (they now make the calls `own`; skipped ones are absent), leaves the rest alone, and serializes: this gives `w`. -/
def Session (k : Keeper) (own : List (String × Data)) (v w : Value) : Prop :=
  (k.fields.map RField.name).Nodup ∧ (∀ c ∈ own, c.1 ∈ k.keys) ∧ (own.map Prod.fst).Nodup ∧
  ∃ ds others calls, k.read v = .ok (.struct (ds ++ [(k.name, .map others)])) ∧ FlatCalls own others calls ∧ ser (.map calls) = .ok w

/-- What the calls write under a key. -/
def writes (own : List (String × Data)) (k : String) : Option Value :=
  match hmGet own k with
  | none => none
  | some c => match ser c with
    | .ok x => some x
    | _ => none

/-- One session after the other, each on what the one before left. -/
inductive Sessions : Value → List (Keeper × List (String × Data)) → Value → Prop
  | nil (v : Value) : Sessions v [] v
  | cons {v u w : Value} {k : Keeper} {own : List (String × Data)} {r : List (Keeper × List (String × Data))} : Session k own v u → Sessions u r w → Sessions v ((k, own) :: r) w

/-- Under this key `r` has what `v` has, up to the kind of integers, except the map entries that are `None`, which it lacks. -/
def AlikeUnder (key : String) (v r : Value) : Prop := ∀ p,
  (NullEntry v (.key key :: p) → view r (.key key :: p) = none) ∧
  (¬ NullEntry v (.key key :: p) → (view v (.key key :: p) = none ∧ view r (.key key :: p) = none) ∨
    ∃ h h', view v (.key key :: p) = some h ∧ view r (.key key :: p) = some h' ∧ HeadAlike h h')

/-- The same through a file: each program loads the file layer, changes its own fields, and saves through the layer; one after the other. What is saved is nested less deep than the
parser's limit, and the file may be read. -/
inductive FileSessions (limit : Nat) (cd : Codec) (path : OsStr) : World → List (Keeper × List (String × Data)) → World → Prop
  | nil (world : World) : FileSessions limit cd path world [] world
  | cons {world world' world'' : World} {v w : Value} {k : Keeper} {own : List (String × Data)} {r : List (Keeper × List (String × Data))} :
      (Layer.newFile (textHandler cd) path).readValue world = .ok v → Session k own v w → DepthBelow w limit →
      (∀ bs code wr, world.disk (world.locate path) ≠ .file bs (some code) wr) →
      (Layer.newFile (textHandler cd) path).writeValue world w = (.ok (), world') → FileSessions limit cd path world' r world'' →
      FileSessions limit cd path world ((k, own) :: r) world''

/-- What programs that share a value may do, in any order: program `i` loads, or saves with these own fields. -/
inductive Turn where
  | load (i : Nat)
  | save (i : Nat) (own : List (String × Data))

/-- Programs sharing a value: `file` is what they share, `held i` what program `i` has loaded last. Saving uses what was loaded, however long ago, and does not load again. -/
inductive Shared (ks : Nat → Keeper) : Value → (Nat → Option Value) → List Turn → Value → (Nat → Option Value) → Prop
  | nil (file : Value) (held) : Shared ks file held [] file held
  | load {file held ts file' held'} (i : Nat) : (∃ d, (ks i).read file = .ok d) → Shared ks file (fun j => if j = i then some file else held j) ts file' held' →
      Shared ks file held (.load i :: ts) file' held'
  | save {file held ts file' held' v w} (i : Nat) (own : List (String × Data)) : held i = some v → Session (ks i) own v w → Shared ks w held ts file' held' →
      Shared ks file held (.save i own :: ts) file' held'

end Verif.Spec
