import Verif.Model.Num
/-!
# IEEE-754 binary floats (`f64`, `f32`)

A canonical (sign, mantissa, exponent) representation. NaN payloads and signs are not modelled: all NaNs
are one value (the crate never looks at float bits).
-/
namespace Verif

/-- A binary interchange format: precision and the range of the exponent of the *integer* mantissa. Needed for /repo/src/model/value.rs:14. -/
structure Fmt where
  p : Nat
  emin : Int
  emax : Int

/-- IEEE binary64, Rust `f64`. Needed for /repo/src/model/value.rs:14. -/
def fmt64 : Fmt := ⟨53, -1074, 971⟩
/-- IEEE binary32, Rust `f32`. Needed for /repo/src/model/de.rs:93-99. -/
def fmt32 : Fmt := ⟨24, -149, 104⟩

/-- A float datum: `fin neg m e` denotes `(-1)^neg * m * 2^e`. Needed for /repo/src/model/value.rs:14. -/
inductive FpRaw where
  | nan
  | inf (neg : Bool)
  | fin (neg : Bool) (m : Nat) (e : Int)
  deriving DecidableEq, Repr

/-- Canonical data of a format: normal numbers have a full-width mantissa, subnormals (and zero) have the
least exponent. Every bit pattern of the format (up to NaN payload) is one canonical datum. Needed for /repo/src/model/value.rs:14. -/
def Fmt.Canon (f : Fmt) : FpRaw → Prop
  | .nan => True
  | .inf _ => True
  | .fin _ m e => m < 2 ^ f.p ∧ f.emin ≤ e ∧ e ≤ f.emax ∧ (2 ^ (f.p - 1) ≤ m ∨ e = f.emin)

instance (f : Fmt) (x : FpRaw) : Decidable (f.Canon x) := by
  cases x <;> simp only [Fmt.Canon] <;> infer_instance

/-- The floats of a format. Needed for /repo/src/model/value.rs:14. -/
def Fp (f : Fmt) : Type := { x : FpRaw // f.Canon x }

/-- Rust `f64`: /repo/src/model/value.rs:14. -/
abbrev F64 := Fp fmt64
/-- Rust `f32`: /repo/src/model/from.rs:83, de.rs:93-99. -/
abbrev F32 := Fp fmt32

instance (f : Fmt) : DecidableEq (Fp f) := inferInstanceAs (DecidableEq { _x : FpRaw // _ })
instance (f : Fmt) : Repr (Fp f) := ⟨fun x p => reprPrec x.1 p⟩

/-- IEEE `==` (Rust `f64: PartialEq`): NaN differs from everything, `0 == -0`, otherwise same datum. Needed for /repo/src/model/value.rs:6 (derived `PartialEq`). -/
def FpRaw.ieeeEq : FpRaw → FpRaw → Bool
  | .nan, _ => false
  | _, .nan => false
  | .inf a, .inf b => a == b
  | .fin a m e, .fin b n k => (m == 0 && n == 0) || (a == b && m == n && e == k)
  | _, _ => false

/-- `x != 0.0`, as used at /repo/src/model/into.rs:15. -/
def FpRaw.neZero : FpRaw → Bool
  | .fin _ m _ => m != 0
  | _ => true

/-- The integer part (truncation toward zero) of a finite datum. Needed for /repo/src/model/into.rs:45. -/
def truncFin (neg : Bool) (m : Nat) (e : Int) : Int :=
  let mag : Nat := if 0 ≤ e then m * 2 ^ e.toNat else m / 2 ^ (-e).toNat
  if neg then -(mag : Int) else mag

/-- `x as T` from float to integer: truncate, saturate, NaN to 0 (Rust reference, "float to integer").
Used at /repo/src/model/into.rs:45, 70, 95, 119, 141, 164, 189, 214, 238, 261. -/
def FpRaw.castTo (t : IntTy) : FpRaw → IntOf t
  | .nan => IntOf.zero t
  | .inf true => ⟨t.lo, by cases t <;> decide⟩
  | .inf false => ⟨t.hi, by cases t <;> decide⟩
  | .fin neg m e => t.clamp (truncFin neg m e)

/-- Position of the leading bit of the positive fraction `num/den`: `2^L ≤ num/den < 2^(L+1)`. Needed for /repo/src/model/into.rs:282-285. -/
def fracLog2 (num den : Nat) : Int :=
  let l0 : Int := (num.log2 : Int) - (den.log2 : Int)
  -- does 2^l0 ≤ num/den hold?
  if den * 2 ^ l0.toNat ≤ num * 2 ^ (-l0).toNat then l0 else l0 - 1

/-- Round half to even of `n / d`. Needed for /repo/src/model/into.rs:282-285. -/
def divHalfEven (n d : Nat) : Nat :=
  let q := n / d
  let r := n % d
  if 2 * r > d ∨ (2 * r = d ∧ q % 2 = 1) then q + 1 else q

/-- Round the non-negative fraction `num/den` to the format, to nearest, ties to even, overflow to infinity
(IEEE-754 roundTiesToEven; Rust `int as f64`, `f64 as f32`, and correctly rounded `parse::<f64>`). Needed for /repo/src/model/into.rs:282-285,287, /repo/src/model/de.rs:98. -/
def Fmt.round (f : Fmt) (neg : Bool) (num den : Nat) : FpRaw :=
  if num = 0 then .fin neg 0 f.emin
  else
    let e := max f.emin (fracLog2 num den - ((f.p : Int) - 1))
    let q := divHalfEven (num * 2 ^ (-e).toNat) (den * 2 ^ e.toNat)
    -- rounding up may carry into the next binade
    let (m, e) := if q = 2 ^ f.p then (2 ^ (f.p - 1), e + 1) else (q, e)
    if e > f.emax then .inf neg else .fin neg m e

/-- `n as f64` for an integer (Rust reference: round to nearest, ties to even).
Used at /repo/src/model/into.rs:282-286. -/
def Fmt.ofInt (f : Fmt) (n : Int) : FpRaw := f.round (n < 0) n.natAbs 1

/-- `x as f32` / `x as f64`: re-round the datum to the target format.
Used at /repo/src/model/from.rs:85 (widening), /repo/src/model/de.rs:98 (narrowing), visitor.rs:115. -/
def Fmt.convert (f : Fmt) : FpRaw → FpRaw
  | .nan => .nan
  | .inf s => .inf s
  | .fin s m e => f.round s (m * 2 ^ e.toNat) (2 ^ (-e).toNat)

end Verif
