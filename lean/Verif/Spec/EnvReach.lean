import Verif.Spec.EnvSettings
/-!
# Which settings the environment can bring about

Environments an operating system can have, and the data a variable can give.
-/
namespace Verif.Spec

/-- The environment of a process: no two variables of one name; no name is empty or has a `=` in it; neither names nor values have a NUL in them. -/
def LegalEnv (env : List (OsStr × OsStr)) : Prop :=
  (env.map Prod.fst).Nodup ∧ ∀ a ∈ env, a.1 ≠ [] ∧ OsChar.chr '=' ∉ a.1 ∧ OsChar.chr '\x00' ∉ a.1 ∧ OsChar.chr '\x00' ∉ a.2

/-- The text may be in the name of a variable. -/
def Nameable (s : String) : Prop := '=' ∉ s.toList ∧ '\x00' ∉ s.toList

/-- The data a variable can give to a setting of the type: every boolean, number of up to 64 bits, character and text, but no NUL; these in newtypes, and `Some` of these. -/
inductive TextSayable : Ty → Data → Prop
  | bool (b) : TextSayable .bool (.bool b)
  | int {t} (n) : Upto64 t → TextSayable (.int t) (.int t n)
  | f32 (x) : TextSayable .f32 (.f32 x)
  | f64 (x) : TextSayable .f64 (.f64 x)
  | char {c} : c ≠ '\x00' → TextSayable .char (.char c)
  | string {s : String} : '\x00' ∉ s.toList → TextSayable .string (.str s)
  | value {s : String} : '\x00' ∉ s.toList → TextSayable .value (.str s)
  | some {t d} : TextSayable t d → TextSayable (.option t) (.some d)
  | newtype {t d} : TextSayable t d → TextSayable (.newtype t) (.newtypeStruct d)

end Verif.Spec
