import Verif.Spec.Config
import Verif.Spec.Toml
/-!
# Typed layers

What "layering" means for a program that thinks in structs rather than in maps: settings all of whose fields are optional are overlaid field
by field, sections recursively.
-/
namespace Verif.Spec

/-- Types read from one piece of configuration, which a layer gives as a whole: scalars, lists, tuples (of anything), and newtypes of these. -/
inductive OnePiece : Ty → Prop
  | bool : OnePiece .bool
  | int (t) : OnePiece (.int t)
  | f32 : OnePiece .f32
  | f64 : OnePiece .f64
  | char : OnePiece .char
  | string : OnePiece .string
  | seq (t) : OnePiece (.seq t)
  | tuple (ts) : OnePiece (.tuple ts)
  | tupleStruct (ts) : OnePiece (.tupleStruct ts)
  | newtype {t} : OnePiece t → OnePiece (.newtype t)

/-- The fields of settings that may be given in part: distinct names, each field an `Option` of one piece, of a section of the same kind, or of a
table (a `HashMap` with text keys) of pieces. -/
inductive InParts : List (String × Ty) → Prop
  | nil : InParts []
  | piece {n t fs} : OnePiece t → InParts fs → n ∉ fs.map Prod.fst → InParts ((n, .option t) :: fs)
  | part {n gs fs} : InParts gs → InParts fs → n ∉ fs.map Prod.fst → InParts ((n, .option (.struct gs)) :: fs)
  | table {n t fs} : OnePiece t → InParts fs → n ∉ fs.map Prod.fst → InParts ((n, .option (.map .string t)) :: fs)

/-- A table in which an entry is set. -/
def setEntry : List (Data × Data) → Data × Data → List (Data × Data)
  | [], y => [y]
  | x :: xs, y => if keyOf x.1 == keyOf y.1 then (x.1, y.2) :: xs else x :: setEntry xs y

/-- A table in which the entries of another are set. -/
def overlaidTable (xs ys : List (Data × Data)) : List (Data × Data) := ys.foldl setEntry xs

mutual
/-- One optional field overlaid with another: what the second gives, else what the first gives; two sections are overlaid field by field, two
tables entry by entry. -/
def overlaidWith (x y : Data) : Data :=
  match y with
  | .none => x
  | .some d => overlaidSome x d
  | y => y
  termination_by structural y
/-- The second gives `d`. -/
def overlaidSome (x d : Data) : Data :=
  match d with
  | .struct ys => match x with
    | .some (.struct xs) => .some (.struct (overlaidFields xs ys))
    | _ => .some (.struct ys)
  | .map ys => match x with
    | .some (.map xs) => .some (.map (overlaidTable xs ys))
    | _ => .some (.map ys)
  | d => .some d
  termination_by structural d
/-- Field by field. -/
def overlaidFields (xs : List (String × Data)) (ys : List (String × Data)) : List (String × Data) :=
  match ys with
  | [] => []
  | y :: ys => match xs with
    | x :: xs => overlaidField x y :: overlaidFields xs ys
    | [] => []
  termination_by structural ys
/-- One field. -/
def overlaidField (x : String × Data) (y : String × Data) : String × Data :=
  match y with
  | (n, y) => (n, overlaidWith x.2 y)
  termination_by structural y
end

/-- Settings that give nothing. -/
def nothingGiven (fs : List (String × Ty)) : List (String × Data) := fs.map fun f => (f.1, .none)

/-- `gs` are the fields `fs` without the `Option`s, in all sections. -/
inductive Required : List (String × Ty) → List (String × Ty) → Prop
  | nil : Required [] []
  | piece {n t fs gs} : OnePiece t → Required fs gs → Required ((n, .option t) :: fs) ((n, t) :: gs)
  | part {n hs ks fs gs} : Required hs ks → Required fs gs → Required ((n, .option (.struct hs)) :: fs) ((n, .struct ks) :: gs)
  | table {n t fs gs} : OnePiece t → Required fs gs → Required ((n, .option (.map .string t)) :: fs) ((n, .map .string t) :: gs)

/-- The settings `xs` give everything that the fields ask for, namely `ys`. -/
inductive Complete : List (String × Ty) → List (String × Data) → List (String × Data) → Prop
  | nil : Complete [] [] []
  | piece {n t fs d xs ys} : OnePiece t → Complete fs xs ys → Complete ((n, .option t) :: fs) ((n, .some d) :: xs) ((n, d) :: ys)
  | part {n gs fs as bs xs ys} : Complete gs as bs → Complete fs xs ys →
      Complete ((n, .option (.struct gs)) :: fs) ((n, .some (.struct as)) :: xs) ((n, .struct bs) :: ys)
  | table {n t fs d xs ys} : OnePiece t → Complete fs xs ys → Complete ((n, .option (.map .string t)) :: fs) ((n, .some d) :: xs) ((n, d) :: ys)

/-- The names lead through sections to a field of one piece, or to an entry of a table. -/
inductive PieceAt : List (String × Ty) → List String → Prop
  | here {n t fs} : (n, .option t) ∈ fs → OnePiece t → PieceAt fs [n]
  | inside {n gs fs p} : (n, .option (.struct gs)) ∈ fs → PieceAt gs p → PieceAt fs (n :: p)
  | entry {n t fs} (k) : (n, .option (.map .string t)) ∈ fs → PieceAt fs [n, k]

/-- What the field of that name holds, if it is given. -/
def given (xs : List (String × Data)) (n : String) : Option Data :=
  match xs.find? fun x => x.1 == n with
  | some (_, .some d) => some d
  | _ => none

/-- What settings give for the field or entry to which the names lead, if anything. -/
def gives (xs : List (String × Data)) : List String → Option Data
  | [] => none
  | [n] => given xs n
  | n :: m :: p => match given xs n with
    | some (.struct ys) => gives ys (m :: p)
    | some (.map es) => match p with
      | [] => dchild (.map es) (.key (.str m))
      | _ => none
    | _ => none

end Verif.Spec
