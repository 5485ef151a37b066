import Verif.Model.Path
/-!
# The outside world

The filesystem, the environment variables and the user's directories, as far as the crate looks at them.
-/
namespace Verif

/-- What is at one place of the disk. Needed for /repo/src/config_layer/handlers/toml.rs:9,18. -/
inductive Node where
  /-- nothing that `exists()` can see; `refuse` is the error of an attempt to create a file here, if the OS
  refuses it (missing parent directory, permissions, …) -/
  | absent (refuse : Option Nat)
  /-- a regular file: its bytes, and the error with which the OS refuses to open it for reading or writing, if any -/
  | file (bytes : List UInt8) (readErr writeErr : Option Nat)
  /-- something else that exists (a directory, …): reading and writing are refused -/
  | other (code : Nat)
  deriving DecidableEq, Repr

/-- std dirs of `directories::BaseDirs` used by /repo/src/file_finder/os_directory.rs:48-52. -/
structure BaseDirs where
  home : OsStr
  config : OsStr
  preference : OsStr

/-- The state of the outside world. Needed for /repo/src/config_layer/layer_env.rs:55, /repo/src/config_layer/layer_file.rs:57. -/
structure World where
  /-- Which place of the disk a path names. Arbitrary: two spellings (`a//b`, `./a/b`, symbolic links) can name
  one place. It does not change while the modelled code runs. -/
  locate : OsStr → Nat
  disk : Nat → Node
  /-- How many bytes the OS accepts when a file at this place is written, and the error after that; `none`: all. -/
  room : Nat → Option (Nat × Nat)
  /-- `std::env::vars_os()`, in its order -/
  env : List (OsStr × OsStr)
  /-- `directories::BaseDirs::new()` -/
  baseDirs : Option BaseDirs
  /-- `std::env::current_dir()` -/
  cwd : Option OsStr

/-- The UTF-8 bytes of a text. Needed for /repo/src/config_layer/handlers/toml.rs:18. -/
def utf8 (s : String) : List UInt8 := s.toByteArray.data.toList

/-- The text of which these are the UTF-8 bytes, if there is one. Needed for /repo/src/config_layer/handlers/toml.rs:9. -/
def ofUtf8 (bs : List UInt8) : Option String := String.fromUTF8? ⟨bs.toArray⟩

namespace World

/-- `Path::exists`: /repo/src/config_layer/layer_file.rs:33, 46, 58, /repo/src/file_finder/find_result.rs:25,
/repo/src/config_macro.rs:33 and the four searches. -/
def pathExists (w : World) (p : OsStr) : Bool :=
  match w.disk (w.locate p) with
  | .absent _ => false
  | _ => true

/-- `std::fs::read_to_string`: /repo/src/config_layer/handlers/toml.rs:9, json.rs:8. -/
def readToString (w : World) (p : OsStr) : Except IoError String :=
  match w.disk (w.locate p) with
  | .absent _ => .error (.refused 2)
  | .other code => .error (.refused code)
  | .file _ (some code) _ => .error (.refused code)
  | .file bs none _ => match ofUtf8 bs with
    | some s => .ok s
    | none => .error .invalidData

/-- The world with another node at one place. Needed for /repo/src/config_layer/handlers/toml.rs:18. -/
def put (w : World) (slot : Nat) (n : Node) : World :=
  { w with disk := fun s => if s = slot then n else w.disk s }

/-- Opening a file with create and truncate (the first half of `std::fs::write`): the error, or the world with
the file emptied or created. Needed for /repo/src/config_layer/handlers/toml.rs:18. -/
def openTrunc (w : World) (p : OsStr) : Except IoError World :=
  match w.disk (w.locate p) with
  | .absent (some code) => .error (.refused code)
  | .absent none => .ok (w.put (w.locate p) (.file [] none none))
  | .other code => .error (.refused code)
  | .file _ _ (some code) => .error (.refused code)
  | .file _ r none => .ok (w.put (w.locate p) (.file [] r none))

/-- Appending bytes to an open file (one `write(2)`). Needed for /repo/src/config_layer/handlers/toml.rs:18. -/
def appendBytes (w : World) (slot : Nat) (more : List UInt8) : World :=
  match w.disk slot with
  | .file bs r wr => w.put slot (.file (bs ++ more) r wr)
  | _ => w

/-- `std::fs::write(path, content)`: /repo/src/config_layer/handlers/toml.rs:18, json.rs:16. Opens (create,
truncate), then writes all bytes; the OS may stop accepting bytes half-way (`room`). -/
def fsWrite (w : World) (p : OsStr) (content : String) : Except IoError Unit × World :=
  match w.openTrunc p with
  | .error e => (.error e, w)
  | .ok w1 =>
    match w.room (w.locate p) with
    | some (n, code) =>
      if n < (utf8 content).length then
        (.error (.refused code), w1.appendBytes (w.locate p) ((utf8 content).take n))
      else (.ok (), w1.appendBytes (w.locate p) (utf8 content))
    | none => (.ok (), w1.appendBytes (w.locate p) (utf8 content))

end World
end Verif
