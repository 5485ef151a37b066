import Verif.Model.Config
import Verif.Spec.Layering
/-!
# Histories of registrations
-/
namespace Verif.Spec

/-- A call that registers a layer: `push_layer`/`with_layer`, `add_file_layer`/`with_file_layer`,
`add_environment_layer`/`with_environment_layer`, `add_memory_layer`/`with_memory_layer`. -/
inductive RegCall where
  | layer (name : String) (l : Layer)
  | file (name : String) (path : OsStr)
  | environment (name pre : String)
  | memory (name : String) (v : Value)

/-- Making the call. -/
def RegCall.apply (b : Build) (fm : Formats) (c : Config) : RegCall → Config
  | .layer name l => c.pushLayer name l
  | .file name path => (c.addFileLayer b fm name path).2
  | .environment name pre => c.addEnvironmentLayer name pre
  | .memory name v => c.addMemoryLayer name v

/-- The configuration after a history of calls. -/
def register (b : Build) (fm : Formats) (calls : List RegCall) : Config := calls.foldl (RegCall.apply b fm) Config.new

/-- The name and layer a call offers. A file is offered with the format its extension names, and not at all if
that is neither `toml` nor `json` or the feature is off. -/
def RegCall.offer (b : Build) (fm : Formats) : RegCall → Option (String × Layer)
  | .layer name l => some (name, l)
  | .file name path =>
    if b.toml = true ∧ pathExtension path = some (os "toml") then some (name, .file (textHandler fm.toml) path)
    else if b.json = true ∧ pathExtension path = some (os "json") then some (name, .file (textHandler fm.json) path)
    else none
  | .environment name pre => some (name, .environment (trimStr pre))
  | .memory name v => some (name, .memory v)

/-- Everything offered, in order. -/
def offers (b : Build) (fm : Formats) (calls : List RegCall) : List (String × Layer) :=
  calls.filterMap (RegCall.offer b fm)

/-- The first entry for each name, in order. -/
def firsts {α : Type} : List (String × α) → List (String × α)
  | [] => []
  | (k, v) :: r => (k, v) :: (firsts r).filter fun e => e.1 ≠ k

/-- Every value the layer yields has unique keys. For a Rust layer this is a matter of course: values are made of
`HashMap`s. (Proved for all built-in layers.) -/
def Proper (l : Layer) : Prop := ∀ w v, l.readValue w = .ok v → UniqueKeys v

/-- The layer can be read, yields a map, and this map has something to say about the path. -/
def Speaks (w : World) (l : Layer) (p : Path) : Prop :=
  ∃ x, l.readValue w = .ok x ∧ x.isMap = true ∧ ¬ Silent x p

/-- What the layers hold under the key, in order; layers that cannot be read or lack the key contribute nothing. -/
def entriesAt (w : World) (ls : List (String × Layer)) (k : String) : List Value :=
  ls.filterMap fun e => match e.2.readValue w with
    | .ok x => child x (.key k)
    | .error _ => none

/-- The call registers one of the crate's own layers. -/
def RegCall.BuiltIn : RegCall → Prop
  | .layer _ _ => False
  | _ => True

/-- The variable's name is text that, trimmed, starts with the trimmed prefix. -/
def Prefixed (pre : String) (var : OsStr × OsStr) : Bool :=
  match osToStr var.1 with
  | some k => (trimStr pre).toList.isPrefixOf (trimStr k).toList
  | none => false

/-- Two worlds that a call's layer cannot tell apart: the same prefixed variables in the same order; a file
that exists in both or in neither and reads the same. -/
def RegCall.Agree (w w' : World) : RegCall → Prop
  | .environment _ pre => w.env.filter (Prefixed pre) = w'.env.filter (Prefixed pre)
  | .file _ path => w.pathExists path = w'.pathExists path ∧ w.readToString path = w'.readToString path
  | _ => True

end Verif.Spec
