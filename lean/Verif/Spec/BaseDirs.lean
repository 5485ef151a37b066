import Verif.Model.BaseDirs
import Verif.Spec.Macro
/-!
# The user's directories, as documented
-/
namespace Verif.Spec

/-- The variable has this value: it is set, and set first to this (`environ` may hold a name twice). -/
def VarIs (env : List (OsStr × OsStr)) (name : String) (val : OsStr) : Prop :=
  ∃ before after, env = before ++ (os name, val) :: after ∧ ∀ e ∈ before, e.1 ≠ os name

/-- The variable is not set. -/
def VarUnset (env : List (OsStr × OsStr)) (name : String) : Prop := ∀ e ∈ env, e.1 ≠ os name

/-- `d/n`: the entry `n` of the directory `d`. -/
def inside (d : OsStr) (n : String) : OsStr := d ++ os "/" ++ os n

/-- The home directory is `h`: `$HOME`, or what the user database says if that is empty or not set. -/
def HomeIs (env : List (OsStr × OsStr)) (passwd : Option OsStr) (h : OsStr) : Prop :=
  (VarIs env "HOME" h ∧ h ≠ []) ∨ ((VarUnset env "HOME" ∨ VarIs env "HOME" []) ∧ passwd = some h)

/-- There is no home directory. -/
def NoHome (env : List (OsStr × OsStr)) (passwd : Option OsStr) : Prop :=
  (VarUnset env "HOME" ∨ VarIs env "HOME" []) ∧ passwd = none

/-- The world's directories are those of this platform. -/
def DirsOf (pl : Platform) (passwd : Option OsStr) (w : World) : Prop := w.baseDirs = baseDirsOf pl w.env passwd

end Verif.Spec
