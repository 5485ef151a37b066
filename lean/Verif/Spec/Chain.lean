import Verif.Spec.Config
/-!
# Chains of `with_*` calls
-/
namespace Verif.Spec

/-- The chaining form of the call: `with_layer`, `with_file_layer`, `with_environment_layer`, `with_memory_layer`. -/
def RegCall.chain (b : Build) (fm : Formats) (c : Config) : RegCall → Except BakuninError Config
  | .layer name l => .ok (c.withLayer name l)
  | .file name path => c.withFileLayer b fm name path
  | .environment name pre => .ok (c.withEnvironmentLayer name pre)
  | .memory name v => .ok (c.withMemoryLayer name v)

/-- `c.with_…(…)?.with_…(…)?…`: the program gives up at the first error. -/
def chained (b : Build) (fm : Formats) (c : Config) : List RegCall → Except BakuninError Config
  | [] => .ok c
  | call :: calls => match call.chain b fm c with
    | .ok c => chained b fm c calls
    | .error e => .error e

/-- Everything but a file whose extension names no enabled format. -/
def Supported (b : Build) : RegCall → Prop
  | .file _ path => (b.toml = true ∧ pathExtension path = some (os "toml")) ∨ (b.json = true ∧ pathExtension path = some (os "json"))
  | _ => True

instance (b : Build) (call : RegCall) : Decidable (Supported b call) := by cases call <;> unfold Supported <;> infer_instance

/-- The extension as an error shows it: empty if there is none or it is not text. -/
def ShownExtension (path : OsStr) (ext : String) : Prop :=
  (∀ e, pathExtension path = some (os e) → ext = e) ∧ ((∀ e, pathExtension path ≠ some (os e)) → ext = "")

end Verif.Spec
