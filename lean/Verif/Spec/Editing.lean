import Verif.Spec.Saving
import Verif.Spec.Toml
import Mathlib.Logic.Function.Basic
/-!
# Several programs that edit one settings file

Every program loads the file layer (`read_value`), sets keys in the value it holds in memory (`set`), and saves what it holds (`write_value`), as
often as it likes. The calls of different programs are interleaved in any way. (Each load and each save is taken as a whole: what happens when the reads and
writes inside them are interleaved is C72 and C73.)
-/
namespace Verif.Spec

/-- What one of the programs `ι` does. -/
inductive Edit (ι : Type) where
  | load (i : ι)
  | set (i : ι) (k : String) (x : Value)
  | save (i : ι)

/-- One successful call. `mem i` is what the `i`-th program holds, if it has loaded. (A call that fails without having had an effect is no step.) `G`
are values that may be saved. -/
inductive EditStep {ι : Type} [DecidableEq ι] (cd : Codec) (path : OsStr) (G : Value → Prop) : (ι → Option Value) × World → Edit ι → (ι → Option Value) × World → Prop
  | load {mem : ι → Option Value} {w : World} {v : Value} (i : ι) : (Layer.file (textHandler cd) path).readValue w = .ok v → v.isMap = true →
      EditStep cd path G (mem, w) (.load i) (Function.update mem i (some v), w)
  | set {mem : ι → Option Value} {w : World} {v v' : Value} (i : ι) {k : String} {x : Value} : mem i = some v → UniqueKeys x → v.set k x = (.ok (), v') →
      EditStep cd path G (mem, w) (.set i k x) (Function.update mem i (some v'), w)
  | save {mem : ι → Option Value} {w w' : World} {v : Value} (i : ι) : mem i = some v → (Layer.file (textHandler cd) path).writeValue w v = (.ok (), w') →
      G v → EditStep cd path G (mem, w) (.save i) (mem, w')

/-- Any number of calls of any of the programs, in any order. -/
inductive EditRun {ι : Type} [DecidableEq ι] (cd : Codec) (path : OsStr) (G : Value → Prop) : (ι → Option Value) × World → List (Edit ι) → (ι → Option Value) × World → Prop
  | nil (s : (ι → Option Value) × World) : EditRun cd path G s [] s
  | cons {s s' s'' : (ι → Option Value) × World} {a : Edit ι} {as : List (Edit ι)} : EditStep cd path G s a s' → EditRun cd path G s' as s'' →
      EditRun cd path G s (a :: as) s''

/-- The settings that are in the file, and those in the memory of each program that has loaded, in the order in which they were made. -/
structure Settings (ι : Type) where
  file : List (String × Value)
  mem : ι → Option (List (String × Value))

/-- No setting made, nothing loaded. -/
def Settings.start {ι : Type} : Settings ι := ⟨[], fun _ => none⟩

/-- Loading takes over the settings that are in the file, setting adds one, saving puts one's settings in the place of all that are in the file. -/
def Settings.after {ι : Type} [DecidableEq ι] (s : Settings ι) : Edit ι → Settings ι
  | .load i => { s with mem := Function.update s.mem i (some s.file) }
  | .set i k x => { s with mem := Function.update s.mem i ((s.mem i).map (· ++ [(k, x)])) }
  | .save i => { s with file := (s.mem i).getD s.file }

/-- The last setting of the key. -/
def lastSetting (settings : List (String × Value)) (k : String) : Option Value := (settings.reverse.find? fun e => e.1 == k).map Prod.snd

/-- The same is shown in two places, up to the kind of integers. -/
def ShownAlike (h h' : Option Head) : Prop := (h = none ∧ h' = none) ∨ ∃ a a', h = some a ∧ h' = some a' ∧ HeadAlike a a'

/-- How the format treats what it printed for one of these values: it parses it to a faithful presentation of the value (`omits = false`), or of the value
without the map entries that are `None` (`omits = true`). -/
def Keeps (omits : Bool) (cd : Codec) (G : Value → Prop) : Prop :=
  ∀ v text, G v → UniqueKeys v → cd.print v.toData = .ok text →
    ∃ doc s, cd.parse text = .ok doc ∧ Presents s doc ∧ UniqueKeys s ∧ if omits then Omitting v s else s = v

/-- What is expected at the path of the map entry `k` when `k` was set to `x`: what `x` shows; nothing if the path ends in a `None` entry and the format
omits these. -/
def expected (omits : Bool) (k : String) (x : Value) (p : Path) : Option Head :=
  match omits, (Step.key k :: p).getLast?, view x p with
  | true, some (.key _), some .none => none
  | _, _, h => h

/-- The map `v` is the map `v₀` with these settings made: under each key the value last set there, and what `v₀` has under keys that were not set. -/
structure Has (omits : Bool) (v₀ : Value) (settings : List (String × Value)) (v : Value) : Prop where
  map : v.isMap = true
  set : ∀ k x, lastSetting settings k = some x → ∀ p, ShownAlike (expected omits k x p) (view v (.key k :: p))
  other : ∀ k, lastSetting settings k = none → ∀ p, ShownAlike (view v₀ (.key k :: p)) (view v (.key k :: p))

/-- What a program with these settings holds in memory: the same, but what a format that omits `None` entries would leave out may still be there. -/
structure HasInMemory (omits : Bool) (v₀ : Value) (settings : List (String × Value)) (v : Value) : Prop where
  map : v.isMap = true
  set : ∀ k x, lastSetting settings k = some x → ∀ p, ShownAlike (expected omits k x p) (view v (.key k :: p)) ∨ ShownAlike (view x p) (view v (.key k :: p))
  other : ∀ k, lastSetting settings k = none → ∀ p, ShownAlike (view v₀ (.key k :: p)) (view v (.key k :: p))

/-- What program `i` set in the course of these calls. -/
def madeBy {ι : Type} [DecidableEq ι] (i : ι) (acts : List (Edit ι)) : List (String × Value) :=
  acts.filterMap fun
    | .set j k x => if j = i then some (k, x) else none
    | _ => none

/-- A program loads, makes some settings and saves. -/
def session {ι : Type} (i : ι) (settings : List (String × Value)) : List (Edit ι) :=
  .load i :: (settings.map fun e => Edit.set i e.1 e.2) ++ [.save i]

end Verif.Spec
