import Verif.Model.Finder
/-!
# The user's directories

What `directories::BaseDirs::new()` (/repo/src/file_finder/os_directory.rs:48) gives on Linux and macOS: the directories that the documentation
comments of /repo/src/file_finder/os_directory.rs:8-43 name. The `directories` crate is not in /repo; its documented behaviour (and that of the XDG
specification, which ignores relative paths) is modelled. Windows is in Model/WinPath.lean.
-/
namespace Verif

/-- The platforms whose directories are modelled: /repo/src/file_finder/os_directory.rs:14-15, 20-21, 26-27. -/
inductive Platform where
  | linux
  | macos
  deriving DecidableEq, Repr

/-- `std::env::var_os`: the value of the first variable of that name. Needed for /repo/src/file_finder/os_directory.rs:48. -/
def varOs (env : List (OsStr × OsStr)) (name : String) : Option OsStr :=
  (env.find? fun e => e.1 = os name).map Prod.snd

/-- The home directory: `$HOME` unless empty, else the one of the user database, if it has one. /repo/src/file_finder/os_directory.rs:14-15, 48. -/
def homeDir (env : List (OsStr × OsStr)) (passwd : Option OsStr) : Option OsStr :=
  match varOs env "HOME" with
  | some h => if h = [] then passwd else some h
  | none => passwd

/-- `directories::BaseDirs::new()`: /repo/src/file_finder/os_directory.rs:48, with the directories of lines 14-15, 20-21, 26-27. -/
def baseDirsOf (pl : Platform) (env : List (OsStr × OsStr)) (passwd : Option OsStr) : Option BaseDirs :=
  (homeDir env passwd).map fun home =>
    match pl with
    | .linux =>
      let config := match varOs env "XDG_CONFIG_HOME" with
        | some x => if x.head? = some sep then x else pathJoin home (os ".config")
        | none => pathJoin home (os ".config")
      { home := home, config := config, preference := config }
    | .macos =>
      { home := home, config := pathJoin home (os "Library/Application Support"), preference := pathJoin home (os "Library/Preferences") }

end Verif
