import Verif.Spec.Toml
import Verif.Spec.Reload
/-!
# What a TOML parser can deliver, and copies of settings files
-/
namespace Verif.Spec

/-- Documents a TOML parser delivers to serde: booleans, 64-bit signed integers, 64-bit floats, text, lists, and tables with text keys. (The `toml`
crate presents a date-time as a table with one text entry.) No null, no optional values, no other widths. -/
inductive TomlDoc : Doc → Prop
  | bool (b) : TomlDoc (.bool b)
  | int (n) : TomlDoc (.int .i64 n)
  | f64 (x) : TomlDoc (.f64 x)
  | str (s) : TomlDoc (.str s)
  | seq {ds} : (∀ d ∈ ds, TomlDoc d) → TomlDoc (.seq ds)
  | map {es} : (∀ e ∈ es, ∃ s, Prod.fst e = .str s) → (∀ e ∈ es, TomlDoc (Prod.snd e)) → TomlDoc (.map es)

/-- Whatever text the codec accepts, it makes a TOML table of it. -/
def TomlReads (c : Codec) : Prop := ∀ text doc, c.parse text = .ok doc → TomlDoc doc ∧ ∃ es, doc = .map es

/-- The value came from `v` by any number of copies: written, at any time, to some file through a layer of the format, and read back from there
right away. (The write succeeded, the file is not one that can be written but not read.) -/
inductive CopyOf (c : Codec) (v : Value) : Value → Prop
  | refl : CopyOf c v v
  | step {u r : Value} {w w' : World} {path : OsStr} : CopyOf c v u → (Layer.newFile (textHandler c) path).writeValue w u = (.ok (), w') →
      (∀ bs code wr, w.disk (w.locate path) ≠ .file bs (some code) wr) →
      (Layer.newFile (textHandler c) path).readValue w' = .ok r → CopyOf c v r

end Verif.Spec
