import Verif.Model.WinPath
import Verif.Spec.Finder
import Verif.Spec.Macro
/-!
# Windows paths, as a user writes them
-/
namespace Verif.Spec

/-- A separator of Windows paths: `\` or `/`. -/
def Separator (c : OsChar) : Prop := c = .chr '\\' ∨ c = .chr '/'

/-- A plain file name on Windows: not empty, not `.` or `..`, without separators, and not beginning with a drive such as `c:`. -/
structure WinPlain (name : String) : Prop where
  ne : name ≠ ""
  notDot : name ≠ "."
  notDots : name ≠ ".."
  noBackslash : '\\' ∉ name.toList
  noSlash : '/' ∉ name.toList
  noDrive : ∀ c r, name.toList = c :: ':' :: r → c.isAlpha = false

/-- An extension can be used on Windows: it has neither separator. -/
def WinExt (ext : String) : Prop := '\\' ∉ ext.toList ∧ '/' ∉ ext.toList

/-- Nothing has to be put between the folder and a name: the folder is empty, ends with a separator, or is just a drive. -/
def Open (folder : OsStr) : Prop :=
  folder = [] ∨ (∃ d c, Separator c ∧ folder = d ++ [c]) ∨ ∃ c : Char, c.isAlpha = true ∧ folder = [.chr c, .chr ':']

/-- The entry of the folder with that name. -/
def WinInside (folder : OsStr) (name : String) (p : OsStr) : Prop :=
  (Open folder → p = folder ++ os name) ∧ (¬ Open folder → p = folder ++ os "\\" ++ os name)

/-- The folder is not an unfinished network path: it does not begin with two separators, or a server and a share follow them. -/
def Finished (folder : OsStr) : Prop :=
  (∀ a b r, folder = a :: b :: r → ¬ (Separator a ∧ Separator b)) ∨
  ∃ a b c server share rest, folder = a :: b :: server ++ c :: share ++ rest ∧ Separator a ∧ Separator b ∧ Separator c ∧
    server ≠ [] ∧ share ≠ [] ∧ (∀ x ∈ server ++ share, ¬ Separator x) ∧ ∀ x, rest.head? = some x → Separator x

/-- The candidate for one folder and one extension on Windows. (C128_plain and the like say what this path looks like.) -/
def winCandidate (folder : OsStr) (name ext : String) : OsStr := (winWithExtension (winJoin folder (os name)) (os ext)).getD []

/-- All candidates of a finder with their extensions: for each folder in order, each extension in order. -/
def winCandidates (f : FileFinder) : List (OsStr × String) :=
  f.folders.flatMap fun folder => f.extensions.map fun ext => (winCandidate folder f.fileName ext, ext)

/-- Folders and extensions were given, and the extensions can be used. -/
structure WinReady (f : FileFinder) : Prop where
  folders : f.folders ≠ []
  extensions : f.extensions ≠ []
  exts : ∀ e ∈ f.extensions, WinExt e

/-- The world of a Windows machine whose known folders Profile, RoamingAppData and LocalAppData are these. -/
def WindowsDirs (w : World) (profile roaming localData : Option OsStr) : Prop := w.baseDirs = windowsBaseDirs profile roaming localData

/-- The candidates of a layer of `create_config!` on Windows: each of its directories that resolves, with each enabled extension. -/
def winLayer (b : Build) (w : World) (fileName : String) (dirs : List OSDirectory) : List OsStr :=
  (dirs.filterMap (windowsPaths.toPathBuf w)).flatMap fun folder => (enabled b).map fun ext => winCandidate folder fileName ext

end Verif.Spec
