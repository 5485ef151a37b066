import Verif.Spec.Contained
import Mathlib.Logic.Function.Basic
/-!
# A configuration that is moved: other directories, other file names, other layer names
-/
namespace Verif.Spec

/-- `M s t`: the place `s` of the disk of `w` corresponds to the place `t` of the disk of `u`. The correspondence is one to one, and what is at
corresponding places is the same, with the same room to write. Anything elsewhere is arbitrary. -/
structure SamePlaces (M : Nat → Nat → Prop) (w u : World) : Prop where
  oneToOne : ∀ s t s' t', M s t → M s' t' → (s = s' ↔ t = t')
  disk : ∀ s t, M s t → u.disk t = w.disk s
  room : ∀ s t, M s t → u.room t = w.room s

/-- Two paths of files that correspond, with the same extension (or both without). -/
def Counterpart (M : Nat → Nat → Prop) (w u : World) (p q : OsStr) : Prop :=
  M (w.locate p) (u.locate q) ∧ pathExtension q = pathExtension p

/-- Registrations that correspond; `rename` says which layer name stands for which. -/
inductive CallTwin (rename : String → String) (M : Nat → Nat → Prop) (w u : World) : RegCall → RegCall → Prop
  | memory (n : String) (v : Value) : CallTwin rename M w u (.memory n v) (.memory (rename n) v)
  | environment (n pre : String) : w.env.filter (Prefixed pre) = u.env.filter (Prefixed pre) →
      CallTwin rename M w u (.environment n pre) (.environment (rename n) pre)
  | file (n : String) (p q : OsStr) : Counterpart M w u p q → CallTwin rename M w u (.file n p) (.file (rename n) q)

/-- The saves under the other names. -/
def renamed (rename : String → String) (xs : List (String × Value)) : List (String × Value) := xs.map fun x => (rename x.1, x.2)

/-- A layer of the macro and its counterpart: the name that stands for it, the flag `init` set in both or in neither, and the candidates corresponding
one by one. -/
structure LayerMoved (rename : String → String) (M : Nat → Nat → Prop) (b : Build) (w u : World) (file file' : String) (l l' : LayerSpec) : Prop where
  name : l'.name = rename l.name
  init : l'.init = some true ↔ l.init = some true
  candidates : List.Forall₂ (Counterpart M w u) (layerCandidates b w file l) (layerCandidates b u file' l')

/-- Two calls of the macro, each in its world, that correspond: the same defaults, the same environment prefix (and the same variables with it), layers that
correspond one by one, and the same files at corresponding places. The layers `default` and `environment` that the macro makes keep their names. -/
structure MovedTo (rename : String → String) (M : Nat → Nat → Prop) (b : Build) (args args' : MacroArgs) (w u : World) : Prop where
  injective : Function.Injective rename
  fixed : rename "default" = "default" ∧ rename "environment" = "environment"
  default : args'.default = args.default
  env : args'.env = args.env
  settings : ∀ pre, args.env = some pre → w.env.filter (Prefixed pre) = u.env.filter (Prefixed pre)
  layers : List.Forall₂ (LayerMoved rename M b w u args.fileName args'.fileName) args.layers args'.layers
  twins : SamePlaces M w u

/-- Two configurations, each in its world, that cannot be told apart but for the names of the layers: the same names in the same order, the same layers
present, the same built value or error, and the same answer to any read or save. -/
structure Alike2 (rename : String → String) (c c' : Config) (w u : World) : Prop where
  names : c'.names = c.names.map rename
  build : ∀ skip, c'.buildValue u skip = c.buildValue w skip
  reads : ∀ n, (c'.getLayer (rename n)).map (fun l => l.readValue u) = (c.getLayer n).map (fun l => l.readValue w)
  writes : ∀ n v, (c'.getLayer (rename n)).map (fun l => (l.writeValue u v).1) = (c.getLayer n).map (fun l => (l.writeValue w v).1)

end Verif.Spec
