import Verif.Model.FloatOps
/-!
# Numbers as text

Rust std's integer and float printing and parsing, as used by `to_string()` / `parse::<T>()` at
/repo/src/model/into.rs:49-290, 338-343, /repo/src/model/value.rs:27-31 and /repo/src/model/ser.rs (map keys).
-/
namespace Verif

/-- The character of a decimal digit. Needed for /repo/src/model/into.rs:338-342. -/
def digitChar (d : Nat) : Char := Char.ofNat (48 + d)

/-- The number of a decimal digit character, if it is one (`(c as char).to_digit(10)`). Needed for /repo/src/model/into.rs:49. -/
def charDigit (c : Char) : Option Nat :=
  if 48 ≤ c.toNat ∧ c.toNat ≤ 57 then some (c.toNat - 48) else none

/-- Decimal digits of `n`, most significant first, no leading zeros; `fuel` bounds the number of digits. Needed for /repo/src/model/into.rs:338-342. -/
def decAux : Nat → Nat → List Char
  | 0, _ => []
  | fuel + 1, n => if n < 10 then [digitChar n] else decAux fuel (n / 10) ++ [digitChar (n % 10)]

/-- std `impl Display for u64/u128`: decimal digits. Needed for /repo/src/model/into.rs:341-342. -/
def decNat (n : Nat) : List Char := decAux (n + 1) n

/-- std `impl Display for i64/i128`: minus sign, then the digits of the magnitude. Needed for /repo/src/model/into.rs:338-339. -/
def decInt (n : Int) : List Char := if n < 0 then '-' :: decNat n.natAbs else decNat n.natAbs

/-- `n.to_string()` for every integer type: /repo/src/model/into.rs:338-342. -/
def IntOf.toText {t : IntTy} (n : IntOf t) : String := String.ofList (decInt n.1)

/-- The digit loop of std `from_str_radix`: multiply and add (subtract, for negative numbers) with overflow
checks at each step. Needed for /repo/src/model/into.rs:49. -/
def parseDigits (t : IntTy) (neg : Bool) : List Char → Int → Option Int
  | [], acc => some acc
  | c :: r, acc => do
    let d ← charDigit c
    let m ← t.checked (acc * 10)
    let a ← t.checked (if neg then m - d else m + d)
    parseDigits t neg r a

/-- std `<T as FromStr>::from_str` for the integer types: `+` is always allowed, `-` only for signed types; an
empty text or a lone sign is an error. /repo/src/model/into.rs:49, 74, 99, 121, 143, 168, 193, 218, 240, 265. -/
def parseInt (t : IntTy) (s : String) : Option (IntOf t) :=
  match s.toList with
  | [] => none
  | c :: r =>
    let res : Option Int :=
      if (c = '+' ∨ c = '-') ∧ r = [] then none
      else if c = '+' then parseDigits t false r 0
      else if c = '-' ∧ t.signed = true then parseDigits t true r 0
      else parseDigits t false (c :: r) 0
    res.bind t.tryFrom

/-! ## Floats -/

/-- The number spelled by a list of digit characters (most significant first). Needed for /repo/src/model/into.rs:287. -/
def digitsVal (l : List Char) : Nat := l.foldl (fun acc c => acc * 10 + (charDigit c).getD 0) 0

/-- Whether the character is a decimal digit. Needed for /repo/src/model/into.rs:287. -/
def isDec (c : Char) : Bool := (charDigit c).isSome

/-- std `dec2flt`, `parse_scientific`: the digits of an exponent are accumulated only while the number is below 65536 (`0x10000`); the further
digits are skipped. Needed for /repo/src/model/into.rs:287. -/
def expVal (l : List Char) : Nat :=
  l.foldl (fun e c => if e < 65536 then e * 10 + (charDigit c).getD 0 else e) 0

/-- std `dec2flt`: the optional exponent, which must extend to the end of the text. Needed for /repo/src/model/into.rs:287. -/
def parseExp : List Char → Option Int
  | [] => some 0
  | c :: r =>
    if c = 'e' ∨ c = 'E' then
      match r with
      | '-' :: ds => if ds ≠ [] ∧ ds.all isDec = true then some (-(expVal ds : Int)) else none
      | '+' :: ds => if ds ≠ [] ∧ ds.all isDec = true then some (expVal ds) else none
      | ds => if ds ≠ [] ∧ ds.all isDec = true then some (expVal ds) else none
    else none

/-- std `dec2flt`: `digits [. digits] [exponent]` with at least one digit, as (mantissa digits, power of ten). Needed for /repo/src/model/into.rs:287. -/
def parseDecimal (l : List Char) : Option (Nat × Int) :=
  let ip := l.takeWhile isDec
  match l.dropWhile isDec with
  | '.' :: r =>
    let fp := r.takeWhile isDec
    if ip = [] ∧ fp = [] then none
    else (parseExp (r.dropWhile isDec)).map fun e => (digitsVal (ip ++ fp), e - fp.length)
  | r => if ip = [] then none else (parseExp r).map fun e => (digitsVal ip, e)

/-- ASCII lower case. Needed for /repo/src/model/into.rs:16. -/
def asciiLower (c : Char) : Char := if 65 ≤ c.toNat ∧ c.toNat ≤ 90 then Char.ofNat (c.toNat + 32) else c

/-- `d * 10^k`, correctly rounded to `f64`. Needed for /repo/src/model/into.rs:287. -/
def F64.ofDecimal (neg : Bool) (d : Nat) (k : Int) : F64 :=
  ⟨fmt64.round neg (d * 10 ^ k.toNat) (10 ^ (-k).toNat), round_canon fmt64 fmt64_ok _ _ _ (Nat.pow_pos (by decide))⟩

/-- std `<f64 as FromStr>::from_str`: optional sign, then a decimal number (correctly rounded) or `inf`,
`infinity`, `nan` in any ASCII case. /repo/src/model/into.rs:287. -/
def parseF64 (s : String) : Option F64 :=
  match s.toList with
  | [] => none
  | c :: r =>
    let neg := c == '-'
    let body := if c = '-' ∨ c = '+' then r else c :: r
    match parseDecimal body with
    | some (d, k) => some (F64.ofDecimal neg d k)
    | none =>
      let w := String.ofList (body.map asciiLower)
      if w = "nan" then some ⟨.nan, trivial⟩
      else if w = "inf" ∨ w = "infinity" then some ⟨.inf neg, trivial⟩
      else none

/-- `d * 10^k` in positional notation (no exponent). Needed for /repo/src/model/into.rs:340. -/
def positional (d : Nat) (k : Int) : List Char :=
  let s := decNat d
  if 0 ≤ k then s ++ List.replicate k.toNat '0'
  else
    let f := (-k).toNat
    if f < s.length then s.take (s.length - f) ++ '.' :: s.drop (s.length - f)
    else '0' :: '.' :: (List.replicate (f - s.length) '0' ++ s)

/-- `⌊log10 (num/den)⌋` of a positive fraction. Needed for /repo/src/model/into.rs:340. -/
def fracLog10 (num den : Nat) : Int :=
  let l0 : Int := ((decNat num).length : Int) - ((decNat den).length : Int)
  if den * 10 ^ l0.toNat ≤ num * 10 ^ (-l0).toNat then l0 else l0 - 1

/-- `10^n` as an `n`-digit decimal. Needed for /repo/src/model/into.rs:340. -/
def carryDec (n : Nat) (d : Nat) (k : Int) : Nat × Int := if d = 10 ^ n then (10 ^ (n - 1), k + 1) else (d, k)

/-- The two `n`-digit decimals around the fraction, nearest first (ties: the even one first). Needed for /repo/src/model/into.rs:340. -/
def decCandidates (num den n : Nat) : List (Nat × Int) :=
  let k := fracLog10 num den - (n - 1 : Nat)
  let a := num * 10 ^ (-k).toNat
  let b := den * 10 ^ k.toNat
  let q := a / b
  if 2 * (a % b) < b ∨ (2 * (a % b) = b ∧ q % 2 = 0) then [(q, k), carryDec n (q + 1) k]
  else [carryDec n (q + 1) k, (q, k)]

/-- The shortest decimal that reads back as the datum (std `flt2dec` shortest mode), nearest among the
shortest. If none of at most 17 digits did (which is impossible for `f64`), the exact decimal expansion. Needed for /repo/src/model/into.rs:340. -/
def shortestDec (neg : Bool) (m : Nat) (e : Int) : Nat × Int :=
  let num := m * 2 ^ e.toNat
  let den := 2 ^ (-e).toNat
  let cands := (List.range 17).flatMap fun i => decCandidates num den (i + 1)
  match cands.find? (fun c => decide ((F64.ofDecimal neg c.1 c.2).1 = .fin neg m e)) with
  | some c => c
  | none => if 0 ≤ e then (m * 2 ^ e.toNat, 0) else (m * 5 ^ (-e).toNat, e)

/-- std `impl Display for f64`: `NaN`, `inf`, `-inf`, else the shortest decimal that reads back, without
exponent. /repo/src/model/into.rs:340, /repo/src/model/value.rs:31. -/
def F64.toText (x : F64) : String :=
  match x.1 with
  | .nan => "NaN"
  | .inf false => "inf"
  | .inf true => "-inf"
  | .fin neg m e =>
    let body := if m = 0 then ['0'] else
      let c := shortestDec neg m e
      positional c.1 c.2
    String.ofList (if neg then '-' :: body else body)

/-! ## Booleans -/

/-- Unicode lower case of a character (std `str::to_lowercase`). Simplified: of the non-ASCII characters only
the two whose lower case contains an ASCII character (KELVIN SIGN, LATIN CAPITAL I WITH DOT ABOVE) are mapped;
all others lower to non-ASCII text, and are left alone. The result is only compared with `true` and `false`. Needed for /repo/src/model/into.rs:16. -/
def lowerChar (c : Char) : List Char :=
  if c.toNat = 0x212A then ['k']
  else if c.toNat = 0x130 then ['i', Char.ofNat 0x307]
  else [asciiLower c]

/-- std `str::to_lowercase`: /repo/src/model/into.rs:16. -/
def toLowercase (s : String) : String := String.ofList (s.toList.flatMap lowerChar)

end Verif
