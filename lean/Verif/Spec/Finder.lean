import Verif.Model.Finder
/-!
# What a search looks at
-/
namespace Verif.Spec

/-- The candidate file for one folder and one extension: the folder joined with the name, with that extension.
(Property C50 says what this path looks like.) -/
def candidate (folder : OsStr) (name ext : String) : OsStr := replaceExtension (pathJoin folder (os name)) (os ext)

/-- All candidates of a finder with their extensions: for each folder in order, each extension in order. -/
def candidates (f : FileFinder) : List (OsStr × String) :=
  f.folders.flatMap fun folder => f.extensions.map fun ext => (candidate folder f.fileName ext, ext)

/-- Folders and extensions were given, and no extension contains a path separator (std panics on one). -/
structure Ready (f : FileFinder) : Prop where
  folders : f.folders ≠ []
  extensions : f.extensions ≠ []
  noSep : ∀ e ∈ f.extensions, '/' ∉ e.toList

/-- The result says the truth about candidate `c` and has the given index. -/
def Reports (b : Build) (w : World) (c : OsStr × String) (i : Nat) (r : FindResult) : Prop :=
  r.path = c.1 ∧ r.exists' = w.pathExists c.1 ∧ r.index = i ∧ r.extension = FileExtension.ofStr b c.2

/-- A plain file name: not empty, without separator, not `.` or `..`. -/
structure PlainName (name : String) : Prop where
  ne : name ≠ ""
  notDot : name ≠ "."
  notDots : name ≠ ".."
  noSep : '/' ∉ name.toList

end Verif.Spec
