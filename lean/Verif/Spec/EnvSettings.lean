import Verif.Model.Serde
import Verif.Spec.Env
import Verif.Spec.Serde
import Verif.Spec.Numbers
import Verif.Spec.FloatText
/-!
# What the environment can do to typed settings

A variable gives a text; which texts can be read as which type, and what is read.
-/
namespace Verif.Spec

/-- Among the variables `env`, the last one with a text that lands on `k` has the text `s`. -/
def EnvGives (env : List (OsStr × OsStr)) (P k s : String) : Prop :=
  ∃ before var after, env = before ++ var :: after ∧ Lands P var k ∧ HasText var s ∧ ∀ a ∈ after, ¬ (Lands P a k ∧ ∃ t, HasText a t)

/-- What is read from the text `s` by each type that can be read from a text at all. (For floats: what the direct conversion gives, see C81
and C82.) -/
inductive TextReads : Ty → String → Data → Prop
  | string (s : String) : TextReads .string s (.str s)
  | value (s : String) : TextReads .value s (.str s)
  | char (s : String) (c : Char) (r : List Char) (h : s.toList = c :: r) : TextReads .char s (.char c)
  | true (s : String) (h : EqIgnoreAsciiCase s "true") : TextReads .bool s (.bool Bool.true)
  | false (s : String) (h : EqIgnoreAsciiCase s "false") : TextReads .bool s (.bool Bool.false)
  | int (t : IntTy) (s : String) (n : IntOf t) (ht : Upto64 t) (h : Spells t s n.1) : TextReads (.int t) s (.int t n)
  | f64 (s : String) (x : F64) (h : (Value.string s).tryInto .f64 = .ok x) : TextReads .f64 s (.f64 x)
  | f32 (s : String) (x : F64) (h : (Value.string s).tryInto .f64 = .ok x) : TextReads .f32 s (.f32 (F32.ofF64 x))
  | option (T : Ty) (s : String) (d : Data) (h : TextReads T s d) : TextReads (.option T) s (.some d)
  | newtype (T : Ty) (s : String) (d : Data) (h : TextReads T s d) : TextReads (.newtype T) s (.newtypeStruct d)

/-- A text that stands for a float: a numeral or one of the words, with an optional sign. -/
def SpellsFloat (s : String) : Prop :=
  ∃ neg body, Signed s neg body ∧ ((∃ q, Numeral body q) ∨ EqIgnoreAsciiCase (String.ofList body) "nan" ∨
    EqIgnoreAsciiCase (String.ofList body) "inf" ∨ EqIgnoreAsciiCase (String.ofList body) "infinity")

/-- Which texts can be read as which type. -/
inductive TextFits : Ty → String → Prop
  | string (s : String) : TextFits .string s
  | value (s : String) : TextFits .value s
  | char (s : String) (h : s ≠ "") : TextFits .char s
  | bool (s : String) (h : EqIgnoreAsciiCase s "true" ∨ EqIgnoreAsciiCase s "false") : TextFits .bool s
  | int (t : IntTy) (s : String) (n : Int) (ht : Upto64 t) (h : Spells t s n) (hr : InRange t n) : TextFits (.int t) s
  | f64 (s : String) (h : SpellsFloat s) : TextFits .f64 s
  | f32 (s : String) (h : SpellsFloat s) : TextFits .f32 s
  | option (T : Ty) (s : String) (h : TextFits T s) : TextFits (.option T) s
  | newtype (T : Ty) (s : String) (h : TextFits T s) : TextFits (.newtype T) s

/-- The types that can be read from every text: `String`, `Value`, and these in `Option` or a newtype. -/
inductive TakesAnyText : Ty → Prop
  | string : TakesAnyText .string
  | value : TakesAnyText .value
  | option (T : Ty) (h : TakesAnyText T) : TakesAnyText (.option T)
  | newtype (T : Ty) (h : TakesAnyText T) : TakesAnyText (.newtype T)

/-- Some variable can land on the key: it does not begin with the prefix, and does not end in a blank. -/
def Reachable (P k : String) : Prop := ¬ P.toList <+: k.toList ∧ ∀ c, k.toList.getLast? = some c → c.toNat ∉ whiteSpace

end Verif.Spec
