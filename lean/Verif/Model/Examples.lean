import Verif.Model.Config
/-!
# The example program of the repository: models /repo/examples/create_config.rs
-/
namespace Verif.Examples

/-- The value `value_map! { sub_key1: "sub_value1", sub_key2: true }` that `value_map!` yields: /repo/examples/create_config.rs:15-18. -/
def key3 : Value := .map [("sub_key1", .string "sub_value1"), ("sub_key2", .boolean true)]

/-- The arguments of `create_config!`: /repo/examples/create_config.rs:11-23. -/
def args : MacroArgs :=
  { fileName := ".bakunin",
    default := [("key1", .string "value1"), ("key2", .integer ⟨42, by decide⟩), ("key3", key3)],
    env := some "BAK_",
    layers := [⟨"global", [.userHome, .userConfig], some true⟩, ⟨"local", [.workingDirectory], none⟩] }

/-- `main`: /repo/examples/create_config.rs:8-28. The value it prints, and the world afterwards (`unwrap` panics on an error). -/
def main (b : Build) (fm : Formats) (w : World) : Outcome BakuninError (Value × World) :=
  createConfig b fm w args >>= fun (c, w') =>
    match c.buildValue w' true with
    | .ok v => .ok (v, w')
    | .error _ => .panic

end Verif.Examples
