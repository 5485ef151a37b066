import Verif.Model.Log
import Verif.Spec.Config
import Verif.Spec.Env
import Verif.Spec.Macro
/-!
# What a log should contain
-/
namespace Verif.Spec

/-- A call that registers a layer, with the handler of file layers known. -/
inductive LogCall where
  | layer (name : String) (l : LogLayer)
  | file (name : String) (path : OsStr)
  | environment (name pre : String)
  | memory (name : String) (v : Value)

/-- The same call without regard to logging. -/
def LogCall.plain : LogCall → RegCall
  | .layer name l => .layer name l.toLayer
  | .file name path => .file name path
  | .environment name pre => .environment name pre
  | .memory name v => .memory name v

/-- Making the call: the configuration, and the records. -/
def LogCall.apply (b : Build) (fm : Formats) (c : LogConfig) : LogCall → LogConfig × List LogRecord
  | .layer name l => c.pushLayer name l
  | .file name path => ((c.addFileLayer b fm name path).1.2, (c.addFileLayer b fm name path).2)
  | .environment name pre => c.addEnvironmentLayer name pre
  | .memory name v => c.addMemoryLayer name v

/-- The configuration after a history of calls, and everything they wrote. -/
def registerLog (b : Build) (fm : Formats) (calls : List LogCall) : LogConfig × List LogRecord :=
  calls.foldl (fun st call => ((call.apply b fm st.1).1, st.2 ++ (call.apply b fm st.1).2)) (LogConfig.new, [])

/-- What the call offers: a file with the format its extension names, if that is enabled. -/
def LogCall.offer (b : Build) (fm : Formats) : LogCall → Option (String × LogLayer)
  | .layer name l => some (name, l)
  | .file name path =>
    if b.toml = true ∧ pathExtension path = some (os "toml") then some (name, .file .toml fm.toml path)
    else if b.json = true ∧ pathExtension path = some (os "json") then some (name, .file .json fm.json path)
    else none
  | .environment name pre => some (name, .environment (trimStr pre))
  | .memory name v => some (name, .memory v)

/-- The layers registered: the first offered under each name. -/
def registered (b : Build) (fm : Formats) (calls : List LogCall) : List (String × LogLayer) := firsts (calls.filterMap (LogCall.offer b fm))

/-- Those who see warnings only see these. -/
def warnings (log : List LogRecord) : List LogRecord := log.filter fun r => r.level = .warn

/-- What an environment layer with the (trimmed) prefix `P` writes about a variable: its name, if that is not text; its key and its value, if the name is text with the
prefix and the value is not text; nothing otherwise. -/
inductive VarRecord (P : String) (var : OsStr × OsStr) : List LogRecord → Prop
  | badName (h : ∀ s, var.1 ≠ os s) : VarRecord P var [.envBadName var.1]
  | badValue (k : String) (hk : Lands P var k) (h : ∀ s, ¬ HasText var s) : VarRecord P var [.envBadValue k var.2]
  | taken (k s : String) (hk : Lands P var k) (h : HasText var s) : VarRecord P var []
  | other (s : String) (hs : var.1 = os s) (h : ∀ k, ¬ Lands P var k) : VarRecord P var []

/-- What reading the layer writes. -/
inductive ReadRecords (w : World) : LogLayer → List LogRecord → Prop
  | memory (v : Value) : ReadRecords w (.memory v) []
  | blank : ReadRecords w (.environment "") []
  | environment (P : String) (hP : P ≠ "") (rs : List (List LogRecord)) (h : List.Forall₂ (VarRecord P) w.env rs) :
      ReadRecords w (.environment P) (.envLoading P :: rs.flatten)
  | file (f : FileExtension) (c : Codec) (p : OsStr) (h : w.pathExists p = true) : ReadRecords w (.file f c p) [.reading f p]
  | missing (f : FileExtension) (c : Codec) (p : OsStr) (h : w.pathExists p = false) : ReadRecords w (.file f c p) []
  | foreign (h : FileHandler) (p : OsStr) : ReadRecords w (.foreign h p) []
  | user (l : UserLayer) : ReadRecords w (.user l) []

/-- What building writes, layer by layer: what reading the layer writes, then, if that failed, a warning with the name and the error (and the build goes on) if errors are skipped,
or the end. -/
inductive BuildRecords (w : World) (skip : Bool) : List (String × LogLayer) → List LogRecord → Prop
  | nil : BuildRecords w skip [] []
  | read (n : String) (l : LogLayer) (v : Value) (log : List LogRecord) (ls : List (String × LogLayer)) (rest : List LogRecord)
      (hv : l.toLayer.readValue w = .ok v) (h : ReadRecords w l log) (hr : BuildRecords w skip ls rest) : BuildRecords w skip ((n, l) :: ls) (log ++ rest)
  | skipped (n : String) (l : LogLayer) (e : BakuninError) (log : List LogRecord) (ls : List (String × LogLayer)) (rest : List LogRecord) (hs : skip = true)
      (he : l.toLayer.readValue w = .error e) (h : ReadRecords w l log) (hr : BuildRecords w skip ls rest) :
      BuildRecords w skip ((n, l) :: ls) (log ++ .readError n e :: rest)
  | stopped (n : String) (l : LogLayer) (e : BakuninError) (log : List LogRecord) (ls : List (String × LogLayer)) (hs : skip = false)
      (he : l.toLayer.readValue w = .error e) (h : ReadRecords w l log) : BuildRecords w skip ((n, l) :: ls) log

/-- Two environments with the same variables in the same order, whose values are the same or both text. -/
def SameNames (env env' : List (OsStr × OsStr)) : Prop :=
  List.Forall₂ (fun a b => a.1 = b.1 ∧ (a.2 = b.2 ∨ ∃ s t, HasText a s ∧ HasText b t)) env env'

/-- Both can be read, or both fail with the same error. -/
def SameOutcome {α : Type} (r r' : Except BakuninError α) : Prop := (∃ v v', r = .ok v ∧ r' = .ok v') ∨ ∃ e, r = .error e ∧ r' = .error e

/-- Two layers of which reading tells the log the same, in worlds `w` and `w'`: layers in memory, whatever they hold; environment layers of one prefix; layers of one file, which is there in both worlds
or in neither, and is readable in both or fails with the same error; likewise layers of the user. -/
inductive Twins (w w' : World) : LogLayer → LogLayer → Prop
  | memory (v v' : Value) : Twins w w' (.memory v) (.memory v')
  | environment (pre : String) : Twins w w' (.environment pre) (.environment pre)
  | file (f : FileExtension) (c c' : Codec) (p : OsStr) (hx : w.pathExists p = w'.pathExists p)
      (h : SameOutcome ((LogLayer.file f c p).toLayer.readValue w) ((LogLayer.file f c' p).toLayer.readValue w')) : Twins w w' (.file f c p) (.file f c' p)
  | foreign (h h' : FileHandler) (p p' : OsStr)
      (ho : SameOutcome ((LogLayer.foreign h p).toLayer.readValue w) ((LogLayer.foreign h' p').toLayer.readValue w')) : Twins w w' (.foreign h p) (.foreign h' p')
  | user (l l' : UserLayer) (ho : SameOutcome (l.readValue w) (l'.readValue w')) : Twins w w' (.user l) (.user l')

/-- The configuration without regard to logging. -/
def plainConfig (c : LogConfig) : Config := ⟨c.names, c.layers.map fun e => (e.1, e.2.toLayer)⟩

/-- The names that were already there when they came again, in order. -/
def again (names : List String) : List String := (names.zipIdx.filter fun x => x.1 ∈ names.take x.2).map Prod.fst

end Verif.Spec
