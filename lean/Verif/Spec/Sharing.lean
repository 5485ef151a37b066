import Verif.Spec.Toml
import Mathlib.Logic.Function.Basic
/-!
# Several programs, each with a settings type of its own, share one settings file

Every program (or version of a program) has a struct for its settings. It starts from some settings of its own or loads the file layer and deserializes
it, changes fields, and saves: serializes the struct and writes the value to the file layer. The calls of different programs are interleaved in any way.
-/
namespace Verif.Spec

/-- What one of the programs `ι` does. -/
inductive Act (ι : Type) where
  | start (i : ι) (ds : List (String × Data))
  | load (i : ι)
  | edit (i : ι) (name : String) (x : Data)
  | save (i : ι)

/-- The settings with one field changed. -/
def withField (ds : List (String × Data)) (name : String) (x : Data) : List (String × Data) :=
  ds.map fun e => if e.1 = name then (e.1, x) else e

/-- One successful call. `mem i` are the settings that the `i`-th program holds, if any; `fields i` is its struct. (A call that fails without having had
an effect is no step.) What is saved is not nested too deep for the format. -/
inductive ActStep {ι : Type} [DecidableEq ι] (cd : Codec) (path : OsStr) (limit : Nat) (structs : Nat → List (String × Ty)) (fields : ι → List (String × Ty)) :
    (ι → Option (List (String × Data))) × World → Act ι → (ι → Option (List (String × Data))) × World → Prop
  | start {mem : ι → Option (List (String × Data))} {w : World} (i : ι) {ds} : HasType structs (.struct (fields i)) (.struct ds) →
      ActStep cd path limit structs fields (mem, w) (.start i ds) (Function.update mem i (some ds), w)
  | load {mem : ι → Option (List (String × Data))} {w : World} {v : Value} {k : Nat} (i : ι) {ds} : (Layer.newFile (textHandler cd) path).readValue w = .ok v →
      deAt structs k (.struct (fields i)) v = .ok (.struct ds) →
      ActStep cd path limit structs fields (mem, w) (.load i) (Function.update mem i (some ds), w)
  | edit {mem : ι → Option (List (String × Data))} {w : World} (i : ι) {ds} {name : String} {t : Ty} {x : Data} : mem i = some ds →
      (name, t) ∈ fields i → HasType structs t x →
      ActStep cd path limit structs fields (mem, w) (.edit i name x) (Function.update mem i (some (withField ds name x)), w)
  | save {mem : ι → Option (List (String × Data))} {w w' : World} {v : Value} (i : ι) {ds} : mem i = some ds → ser (.struct ds) = .ok v →
      DepthBelow v limit → (Layer.newFile (textHandler cd) path).writeValue w v = (.ok (), w') →
      ActStep cd path limit structs fields (mem, w) (.save i) (mem, w')

/-- Any number of calls of any of the programs, in any order. -/
inductive ActRun {ι : Type} [DecidableEq ι] (cd : Codec) (path : OsStr) (limit : Nat) (structs : Nat → List (String × Ty)) (fields : ι → List (String × Ty)) :
    (ι → Option (List (String × Data))) × World → List (Act ι) → (ι → Option (List (String × Data))) × World → Prop
  | nil (s) : ActRun cd path limit structs fields s [] s
  | cons {s s' s'' a as} : ActStep cd path limit structs fields s a s' → ActRun cd path limit structs fields s' as s'' →
      ActRun cd path limit structs fields s (a :: as) s''

/-- A table of settings by name; `None` where there is nothing. -/
abbrev Table := String → Data

/-- The log: the table in the file, and the table in the memory of each program that has one. -/
structure Tables (ι : Type) where
  file : Table
  mem : ι → Option Table

/-- The table of a struct. -/
def fieldTable (ds : List (String × Data)) : Table := fun name => ((ds.find? fun e => e.1 == name).map Prod.snd).getD .none

/-- Loading takes over the table in the file; saving puts one's own table in its place, with nothing under the names one does not know. -/
def Tables.after {ι : Type} [DecidableEq ι] (fields : ι → List (String × Ty)) (s : Tables ι) : Act ι → Tables ι
  | .start i ds => { s with mem := Function.update s.mem i (some (fieldTable ds)) }
  | .load i => { s with mem := Function.update s.mem i (some s.file) }
  | .edit i name x => { s with mem := Function.update s.mem i ((s.mem i).map fun t => Function.update t name x) }
  | .save i => { s with file := fun name => if name ∈ (fields i).map Prod.fst then ((s.mem i).getD s.file) name else .none }

/-- The programs fit together: a name that two of them have is of the same type in both, and a name that one of them does not have is an `Option` in the
others. -/
structure FitTogether {ι : Type} (fields : ι → List (String × Ty)) : Prop where
  same : ∀ i j name t t', (name, t) ∈ fields i → (name, t') ∈ fields j → t = t'
  optional : ∀ i j name t, (name, t) ∈ fields i → name ∉ (fields j).map Prod.fst → ∃ u, t = .option u

/-- These are the fields of the struct, each with what the table has. -/
def Fills (fs : List (String × Ty)) (table : Table) (ds : List (String × Data)) : Prop :=
  ds.map Prod.fst = fs.map Prod.fst ∧ ∀ name x, (name, x) ∈ ds → DSame (table name) x

/-- Every program that loads the file finds the table there: given the stack for it the load succeeds, and each field is what the table has. -/
def FileHolds {ι : Type} (cd : Codec) (path : OsStr) (structs : Nat → List (String × Ty)) (fields : ι → List (String × Ty)) (w : World) (table : Table) : Prop :=
  ∃ v, (Layer.newFile (textHandler cd) path).readValue w = .ok v ∧ ∀ j,
    (∃ k₀, ∀ k, k₀ ≤ k → ∃ ds, deAt structs k (.struct (fields j)) v = .ok (.struct ds)) ∧
    ∀ k d, deAt structs k (.struct (fields j)) v = .ok d → ∃ ds, d = .struct ds ∧ Fills (fields j) table ds

/-- One program loads, changes some fields and saves. -/
def turn {ι : Type} (i : ι) (edits : List (String × Data)) : List (Act ι) := .load i :: (edits.map fun e => Act.edit i e.1 e.2) ++ [.save i]

/-- The last change of the field. -/
def lastEdit (edits : List (String × Data)) (name : String) : Option Data := (edits.reverse.find? fun e => e.1 == name).map Prod.snd

end Verif.Spec
