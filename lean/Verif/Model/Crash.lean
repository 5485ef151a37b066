import Verif.Model.Layer
/-!
# Writing a file step by step

`std::fs::write` (/repo/src/config_layer/handlers/toml.rs:18, json.rs:16) is not one step for the outside world: it opens the
file (create, truncate), then hands its bytes to the OS in pieces. A process that dies leaves the world as it is
after some of the steps.
-/
namespace Verif

/-- How far a `std::fs::write` has come: not begun, or the bytes that are still to be written. Needed for /repo/src/config_layer/handlers/toml.rs:18. -/
inductive Phase where
  | start
  | writing (rest : List UInt8)

/-- One step of `std::fs::write(path, content)`. A piece can have any length (the standard library does not promise
one, and the OS may take less than it is given). Needed for /repo/src/config_layer/handlers/toml.rs:18, /repo/src/config_layer/handlers/json.rs:17. -/
inductive WriteStep (path : OsStr) (content : String) : Phase × World → Phase × World → Prop
  | opened {w w1} : w.openTrunc path = .ok w1 → WriteStep path content (.start, w) (.writing (utf8 content), w1)
  | piece {w} {piece rest : List UInt8} :
      WriteStep path content (.writing (piece ++ rest), w) (.writing rest, w.appendBytes (w.locate path) piece)

/-- Any number of steps. Needed for /repo/src/config_layer/handlers/toml.rs:18. -/
inductive WriteSteps (path : OsStr) (content : String) : Phase × World → Phase × World → Prop
  | refl {a} : WriteSteps path content a a
  | step {a b c} : WriteSteps path content a b → WriteStep path content b c → WriteSteps path content a c

/-- The worlds in which a process can die during `write_value` of a file layer with a text format
(/repo/src/config_layer/layer_file.rs:52-54, handlers/toml.rs:15-21, json.rs:14-19): printing the value touches nothing; then
`std::fs::write` takes its steps. -/
def CrashWorld (c : Codec) (path : OsStr) (v : Value) (w w' : World) : Prop :=
  w' = w ∨ ∃ content ph, c.print v.toData = .ok content ∧ WriteSteps path content (.start, w) (ph, w')

end Verif
