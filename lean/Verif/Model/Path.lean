import Verif.Model.Prelude
/-!
# OS strings and Unix paths

Rust std's `OsStr`, `Path` and `PathBuf` on Unix, as used by /repo/src/file_finder and /repo/src/config.rs.
std is not in /repo; its documented behaviour is modelled. Windows paths are in Model/WinPath.lean.
-/
namespace Verif

/-- One element of an OS string: a Unicode scalar value, or a byte that is not part of valid UTF-8. Needed for /repo/src/config_layer/layer_env.rs:55-56. -/
inductive OsChar where
  | chr (c : Char)
  | raw (b : Nat)
  deriving DecidableEq, Repr

/-- `OsString` / `PathBuf`: what std's lossless decoding of the bytes gives. (The crate only ever puts OS strings
next to each other with an ASCII character between, so that undecodable bytes never combine.) Needed for /repo/src/file_finder/finder.rs:7, /repo/src/config_layer/layer_env.rs:55. -/
abbrev OsStr := List OsChar

/-- `OsStr::new(s)` / `PathBuf::from(s)` for a `str`. Needed for /repo/src/file_finder/alg_find_first.rs:20. -/
def os (s : String) : OsStr := s.toList.map .chr

/-- The character, if the element is one. Needed for /repo/src/config_layer/layer_env.rs:56,70. -/
def OsChar.char? : OsChar → Option Char
  | .chr c => some c
  | .raw _ => none

/-- All characters, if every element is one. Needed for /repo/src/config_layer/layer_env.rs:56,70. -/
def osChars : OsStr → Option (List Char)
  | [] => some []
  | x :: r => x.char?.bind fun c => (osChars r).map (c :: ·)

/-- `OsStr::to_str` / `OsString::into_string`: /repo/src/file_finder/file_extension.rs:41,
/repo/src/config.rs:76, /repo/src/config_layer/layer_env.rs:57, 71. -/
def osToStr (s : OsStr) : Option String := (osChars s).map String.ofList

/-- The path separator. Needed for /repo/src/file_finder/alg_find_first.rs:20. -/
def sep : OsChar := .chr '/'
/-- The dot. Needed for /repo/src/file_finder/alg_find_first.rs:22. -/
def dot : OsChar := .chr '.'

/-- `Path::join` (`PathBuf::push`) on Unix: an absolute right side replaces the left; a separator is put between
unless the left side is empty or ends with one. /repo/src/file_finder/alg_find_first.rs:20 (and the other three
searches), /repo/src/file_finder/os_directory.rs:54, 56. -/
def pathJoin (base p : OsStr) : OsStr :=
  if p.head? = some sep then p
  else if base = [] ∨ base.getLast? = some sep then base ++ p
  else base ++ sep :: p

/-- Removes what std's component iterator skips at the end of a path (`/`, `/.`), from the reversed path. Needed for /repo/src/file_finder/alg_find_first.rs:22. -/
def trimRev : OsStr → OsStr
  | .chr '/' :: r => trimRev r
  | .chr '.' :: .chr '/' :: r => trimRev r
  | r => r

/-- `Path::file_name`: the last component, if it is a normal one (not `/`, `.` or `..`), with what stands before
it in the path. Needed for /repo/src/file_finder/alg_find_first.rs:22. -/
def splitFileName (p : OsStr) : Option (OsStr × OsStr) :=
  let r := trimRev p.reverse
  let name := (r.takeWhile (· ≠ sep)).reverse
  if name = [] ∨ name = [dot] ∨ name = [dot, dot] then none
  else some ((r.dropWhile (· ≠ sep)).reverse, name)

/-- std `rsplit_file_at_dot`: stem and extension of a file name. A name without dot, or whose only dot is the
first character, has no extension. Needed for /repo/src/file_finder/alg_find_first.rs:22. -/
def splitDot (name : OsStr) : OsStr × Option OsStr :=
  let r := name.reverse
  let after := (r.takeWhile (· ≠ dot)).reverse
  match r.dropWhile (· ≠ dot) with
  | [] => (name, none)              -- no dot
  | _ :: before =>
    if before = [] then (name, none)        -- the only dot is the first character
    else (before.reverse, some after)

/-- `Path::extension`: /repo/src/file_finder/file_extension.rs:41, /repo/src/config.rs:76. -/
def pathExtension (p : OsStr) : Option OsStr :=
  (splitFileName p).bind fun dn => (splitDot dn.2).2

/-- `Path::with_extension` for an extension without separator: the file name's extension (if any) is replaced; a
path without file name is left alone; an empty extension removes it. (Simplified: for a name `..x` without further dot recent
versions of std give `..`.) Needed for /repo/src/file_finder/alg_find_first.rs:22. -/
def replaceExtension (p ext : OsStr) : OsStr :=
  match splitFileName p with
  | none => p
  | some (dir, name) => dir ++ (splitDot name).1 ++ (if ext = [] then [] else dot :: ext)

/-- `Path::with_extension`; `none` is std's panic on an extension that contains a separator.
/repo/src/file_finder/alg_find_first.rs:22 and the other three searches. -/
def pathWithExtension (p ext : OsStr) : Option OsStr :=
  if sep ∈ ext then none else some (replaceExtension p ext)

end Verif
