import Verif.Model.Crash
import Verif.Spec.Editing
/-!
# Programs that edit one settings file while things go wrong

Like `Spec/Editing.lean`, but between the calls anything may happen to the file: a save that fails half-way or whose program is killed, a user who edits the file by
hand or deletes it; and programs end (and others start in their place).
-/
namespace Verif.Spec

/-- What happens: a program's successful call, something from outside, or the end of a program. -/
inductive Happening (ι : Type) where
  | call (e : Edit ι)
  | outside
  | quit (i : ι)

/-- The OS does not refuse to open the file for reading (if there is one). -/
def Readable (path : OsStr) (w : World) : Prop := ∀ bs code wr, w.disk (w.locate path) ≠ .file bs (some code) wr

/-- Anything may have changed, except which place a path names and the permission to read the file. -/
def Outside (path : OsStr) (w w' : World) : Prop := w'.locate = w.locate ∧ (Readable path w → Readable path w')

/-- A map, and the settings made since. -/
structure Origin where
  base : Value
  settings : List (String × Value)

/-- Where what the file has comes from, and what each program holds. The file's is `none` while the file cannot be read as a map. -/
structure Origins (ι : Type) where
  file : Option Origin
  mem : ι → Option Origin

/-- What the file is from now on, after something happened to it: the map that it reads as, if it does. -/
def found (cd : Codec) (path : OsStr) (w : World) : Option Origin :=
  match (Layer.file (textHandler cd) path).readValue w with
  | .ok v => if v.isMap then some ⟨v, []⟩ else none
  | .error _ => none

/-- Loading takes over what the file has, setting adds a setting, saving puts what one holds in the place of what the file has; after something from outside the file
is what it is found to be (in the world afterwards, `w`). -/
def Origins.after {ι : Type} [DecidableEq ι] (cd : Codec) (path : OsStr) (w : World) (o : Origins ι) : Happening ι → Origins ι
  | .call (.load i) => { o with mem := Function.update o.mem i o.file }
  | .call (.set i k x) => { o with mem := Function.update o.mem i ((o.mem i).map fun s => ⟨s.base, s.settings ++ [(k, x)]⟩) }
  | .call (.save i) => { o with file := o.mem i }
  | .outside => { o with file := found cd path w }
  | .quit i => { o with mem := Function.update o.mem i none }

/-- One event, with the origins kept along. -/
inductive HappeningStep {ι : Type} [DecidableEq ι] (cd : Codec) (path : OsStr) (G : Value → Prop) :
    (ι → Option Value) × World → Happening ι → (ι → Option Value) × World → Prop
  | call {s s' : (ι → Option Value) × World} {e : Edit ι} : EditStep cd path G s e s' → HappeningStep cd path G s (.call e) s'
  | outside {mem : ι → Option Value} {w w' : World} : Outside path w w' → HappeningStep cd path G (mem, w) .outside (mem, w')
  | quit {mem : ι → Option Value} {w : World} (i : ι) : HappeningStep cd path G (mem, w) (.quit i) (Function.update mem i none, w)

/-- Any number of events, with the origins kept along. -/
inductive HappeningRun {ι : Type} [DecidableEq ι] (cd : Codec) (path : OsStr) (G : Value → Prop) :
    ((ι → Option Value) × World) × Origins ι → List (Happening ι) → ((ι → Option Value) × World) × Origins ι → Prop
  | nil (s : ((ι → Option Value) × World) × Origins ι) : HappeningRun cd path G s [] s
  | cons {s s' : (ι → Option Value) × World} {o : Origins ι} {t : ((ι → Option Value) × World) × Origins ι} {a : Happening ι} {as : List (Happening ι)} :
      HappeningStep cd path G s a s' → HappeningRun cd path G (s', o.after cd path s'.2 a) as t → HappeningRun cd path G (s, o) (a :: as) t

/-- Nothing loaded yet; the file is what it is found to be. -/
def Origins.start {ι : Type} (cd : Codec) (path : OsStr) (w : World) : Origins ι := ⟨found cd path w, fun _ => none⟩

/-- What program `i` set in the course of these events. -/
def settingsOf {ι : Type} [DecidableEq ι] (i : ι) (events : List (Happening ι)) : List (String × Value) :=
  events.filterMap fun
    | .call (.set j k x) => if j = i then some (k, x) else none
    | _ => none

/-- If the format has no null, nothing that it parses has a `None` entry. -/
def NoNulls (omits : Bool) (cd : Codec) : Prop :=
  omits = true → ∀ text doc v, cd.parse text = .ok doc → visit doc = .ok v → ∀ p, ¬ NullEntry v p

end Verif.Spec
