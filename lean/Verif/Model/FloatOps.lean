import Verif.Lemmas.FloatRound
/-!
# Operations on `f64` and `f32`, packaged with their canonicity proofs

(The proofs are in `Verif/Lemmas/FloatRound.lean`; the algorithms are in `Verif/Model/Float.lean`.)
-/
namespace Verif

/-- `n as f64`: /repo/src/model/into.rs:282-286. -/
def F64.ofInt (n : Int) : F64 :=
  ⟨fmt64.ofInt n, round_canon fmt64 fmt64_ok _ _ 1 (by decide)⟩

theorem convert_canon (f : Fmt) (hf : f.Ok) (x : FpRaw) : f.Canon (f.convert x) := by
  cases x with
  | nan => trivial
  | inf => trivial
  | fin s m e => exact round_canon f hf _ _ _ (Nat.pow_pos (by decide))

/-- `x as f64` from `f32`: /repo/src/model/from.rs:85, /repo/src/model/visitor.rs:115. -/
def F64.ofF32 (x : F32) : F64 := ⟨fmt64.convert x.1, convert_canon fmt64 fmt64_ok x.1⟩

/-- `x as f32` from `f64`: /repo/src/model/de.rs:98. -/
def F32.ofF64 (x : F64) : F32 := ⟨fmt32.convert x.1, convert_canon fmt32 fmt32_ok x.1⟩

end Verif
