import Verif.Model.MacroRace
import Verif.Model.Writers
/-!
# Several processes in `create_config!` at once

Every process runs the macro (`createConfigR`); what the processes write is interleaved piece by piece, as in Model/Writers.lean, but at
several files.
-/
namespace Verif

/-- One step of one of the processes `ι` inside `std::fs::write` (/repo/src/config_layer/handlers/toml.rs:18, json.rs:16), reached from
the `init` part of the macro (/repo/src/config_macro.rs:34-36). `writes i` are the writes that the `i`-th process issues; the writer `(i, k)` is the
`k`-th of them. The text is printed before the file is opened (toml.rs:16-18); if it cannot be printed, nothing is opened. -/
inductive StartsStep {ι : Type} [DecidableEq ι] (writes : ι → List Wrote) :
    (ι × Nat → Writer) × World → (ι × Nat → Writer) × World → Prop
  | opens {ph w w1} (i : ι) (k : Nat) {o : Wrote} {cd : Codec} {path : OsStr} {text : String} :
      (writes i)[k]? = some o → o.through = .file (textHandler cd) path → cd.print o.value.toData = .ok text →
      ph (i, k) = .start → w.openTrunc path = .ok w1 →
      StartsStep writes (ph, w) (Function.update ph (i, k) (.writing 0 (utf8 text)), w1)
  | writes {ph w} (i : ι) (k : Nat) {o : Wrote} {cd : Codec} {path : OsStr} {off : Nat} {piece rest : List UInt8} :
      (writes i)[k]? = some o → o.through = .file (textHandler cd) path → ph (i, k) = .writing off (piece ++ rest) →
      StartsStep writes (ph, w) (Function.update ph (i, k) (.writing (off + piece.length) rest), w.writeAt (w.locate path) off piece)

end Verif
