import Verif.Model.Crash
/-!
# Several processes at one file

`std::fs::read_to_string` (/repo/src/config_layer/handlers/toml.rs:9) and `std::fs::write` (toml.rs:18) work in pieces. Here the
pieces of a reader and of writers in other processes (running the same code) are interleaved. Every open file has
its own position. Nobody removes or renames the file (the crate never does).
-/
namespace Verif

/-- `std::fs::read_to_string` after the file was opened: `cs t` are the bytes in the file at the moment of the `t`-th
`read(2)`; each one yields at least one byte from the position on, and the end is where one has nothing to yield.
`got` are the bytes so far; the result is all bytes. Needed for /repo/src/config_layer/handlers/toml.rs:9, json.rs:8. -/
inductive ReadRun (cs : Nat → List UInt8) : Nat → List UInt8 → List UInt8 → Prop
  | eof {t got} : (cs t).length ≤ got.length → ReadRun cs t got got
  | piece {t got bytes} (n : Nat) : 0 < n → got.length < (cs t).length →
      ReadRun cs (t + 1) (got ++ ((cs t).drop got.length).take n) bytes → ReadRun cs t got bytes

/-- What `read_value` (/repo/src/config_layer/layer_file.rs:56-62, handlers/toml.rs:8-13, json.rs:7-12) makes of the bytes it has
got from a file. -/
def valueOfBytes (c : Codec) (bytes : List UInt8) : Except BakuninError Value :=
  match ofUtf8 bytes with
  | none => .error (.ioError .invalidData)
  | some content =>
    match c.parse content with
    | .error msg => .error (.configLayerError (.parseError msg))
    | .ok doc => match visit doc with
      | .error msg => .error (.configLayerError (.parseError msg))
      | .ok v => .ok v

/-- The bytes at one place. Needed for /repo/src/config_layer/handlers/toml.rs:9. -/
def World.bytesAt (w : World) (slot : Nat) : List UInt8 :=
  match w.disk slot with
  | .file bs _ _ => bs
  | _ => []

/-- `write(2)` at a position: overwrites, extends, fills a gap with zeros. Needed for /repo/src/config_layer/handlers/toml.rs:18. -/
def overwrite (bs : List UInt8) (off : Nat) (piece : List UInt8) : List UInt8 :=
  if piece.isEmpty then bs
  else bs.take off ++ List.replicate (off - bs.length) 0 ++ piece ++ bs.drop (off + piece.length)

/-- Writing a piece at a position of the file at one place. Needed for /repo/src/config_layer/handlers/toml.rs:18. -/
def World.writeAt (w : World) (slot off : Nat) (piece : List UInt8) : World :=
  match w.disk slot with
  | .file bs r wr => w.put slot (.file (overwrite bs off piece) r wr)
  | _ => w

/-- How far a writer is: not begun, or its position and the bytes still to write. Needed for /repo/src/config_layer/handlers/toml.rs:18. -/
inductive Writer where
  | start
  | writing (off : Nat) (rest : List UInt8)

/-- What one of the writers does. Needed for /repo/src/config_layer/handlers/toml.rs:18. -/
inductive Act (ι : Type) where
  | opens (i : ι)
  | writes (i : ι)

/-- One step of one of the writers `ι`, the `i`-th of which is in `std::fs::write(path, texts i)`. Needed for
/repo/src/config_layer/handlers/toml.rs:18, json.rs:16. -/
inductive WritersStep {ι : Type} [DecidableEq ι] (path : OsStr) (texts : ι → String) :
    (ι → Writer) × World → Act ι → (ι → Writer) × World → Prop
  | opens {ph w w1} (i : ι) : ph i = .start → w.openTrunc path = .ok w1 →
      WritersStep path texts (ph, w) (.opens i) (Function.update ph i (.writing 0 (utf8 (texts i))), w1)
  | writes {ph w} (i : ι) {off : Nat} {piece rest : List UInt8} : ph i = .writing off (piece ++ rest) →
      WritersStep path texts (ph, w) (.writes i)
        (Function.update ph i (.writing (off + piece.length) rest), w.writeAt (w.locate path) off piece)

/-- Any interleaving of their steps. Needed for /repo/src/config_layer/handlers/toml.rs:18. -/
inductive WritersRun {ι : Type} [DecidableEq ι] (path : OsStr) (texts : ι → String) :
    (ι → Writer) × World → List (Act ι) → (ι → Writer) × World → Prop
  | nil {s} : WritersRun path texts s [] s
  | snoc {s s' s'' acts a} : WritersRun path texts s acts s' → WritersStep path texts s' a s'' →
      WritersRun path texts s (acts ++ [a]) s''

end Verif
