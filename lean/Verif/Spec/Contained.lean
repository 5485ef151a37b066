import Verif.Spec.Macro
/-!
# Staying inside the given directories
-/
namespace Verif.Spec

/-- `p` names something directly in the folder: the folder, a separator (unless the folder is empty or ends with one), and a name: not empty,
without separator, not `.` and not `..`. -/
def DirectlyIn (folder p : OsStr) : Prop :=
  ∃ name : OsStr, (name ≠ [] ∧ sep ∉ name ∧ name ≠ os "." ∧ name ≠ os "..") ∧
    ((folder = [] ∧ p = name) ∨ (folder.getLast? = some sep ∧ p = folder ++ name) ∨
      (folder ≠ [] ∧ folder.getLast? ≠ some sep ∧ p = folder ++ os "/" ++ name))

/-- `p` names something directly in one of the directories written in the macro call (as far as they resolve). -/
def Inside (w : World) (args : MacroArgs) (p : OsStr) : Prop :=
  ∃ l ∈ args.layers, ∃ d ∈ l.dirs, ∃ folder, d.toPathBuf w = some folder ∧ DirectlyIn folder p

/-- The place of the disk is that of a file directly in one of the directories. -/
def PlaceInside (w : World) (args : MacroArgs) (s : Nat) : Prop := ∃ p, Inside w args p ∧ w.locate p = s

/-- From `w` to `w'` nothing has changed but files directly in the directories. -/
def ChangedInside (args : MacroArgs) (w w' : World) : Prop :=
  w' = { w with disk := w'.disk } ∧ ∀ s, ¬ PlaceInside w args s → w'.disk s = w.disk s

/-- Two worlds with the same directories that hold the same files directly in them (and accept the same writes there). Everything else on the
disk, and the environment, may differ. -/
structure SameInside (args : MacroArgs) (w u : World) : Prop where
  locate : u.locate = w.locate
  baseDirs : u.baseDirs = w.baseDirs
  cwd : u.cwd = w.cwd
  disk : ∀ p, Inside w args p → u.disk (w.locate p) = w.disk (w.locate p)
  room : ∀ p, Inside w args p → u.room (w.locate p) = w.room (w.locate p)

/-- A layer that holds its value, reads the environment, or keeps its value in a file directly in one of the directories. -/
inductive KeptInside (w : World) (args : MacroArgs) : Layer → Prop
  | memory (v : Value) : KeptInside w args (.memory v)
  | environment (pre : String) : KeptInside w args (.environment pre)
  | file (cd : Codec) (p : OsStr) (h : Inside w args p) : KeptInside w args (.file (textHandler cd) p)

/-- Saving values through layers of the configuration, one after the other (a name without layer is passed over; failed saves too). -/
def saves (c : Config) (w : World) : List (String × Value) → World
  | [] => w
  | x :: xs => saves c (match c.getLayer x.1 with | some l => (l.writeValue w x.2).2 | none => w) xs

end Verif.Spec
