import Verif.Spec.Program
import Verif.Spec.Macro
/-!
# Programs that also write files, search and run `create_config!`

As in `Spec/Program.lean`, but the world changes: by what the program itself writes, and by what others do between its calls. What a
file holds then depends on the order in which the writer's maps were stored.
-/
namespace Verif.Spec

/-- The format that a file layer at this path gets, if any. -/
def FormatOf (b : Build) (fm : Formats) (p : OsStr) (cd : Codec) : Prop :=
  (pathExtension p = some (os "toml") ∧ b.toml = true ∧ cd = fm.toml) ∨ (pathExtension p = some (os "json") ∧ b.json = true ∧ cd = fm.json)

/-- What a file layer of this format reads from a file with these bytes. -/
def fileSays (cd : Codec) (bs : List UInt8) : Except BakuninError Value :=
  match ofUtf8 bs with
  | none => .error (.ioError .invalidData)
  | some s => match cd.parse s with
    | .error msg => .error (.configLayerError (.parseError msg))
    | .ok doc => match visit doc with
      | .error msg => .error (.configLayerError (.parseError msg))
      | .ok v => .ok v

/-- Two answers: the same value up to the order of maps, the same error, or two parse errors (whose texts name places in the files). -/
inductive AnswersAlike : Except BakuninError Value → Except BakuninError Value → Prop
  | ok {v v' : Value} : Reordered v v' → AnswersAlike (.ok v) (.ok v')
  | error (e : BakuninError) : AnswersAlike (.error e) (.error e)
  | parse (m m' : String) : AnswersAlike (.error (.configLayerError (.parseError m))) (.error (.configLayerError (.parseError m')))

/-- The format keeps no secrets in the order of keys: what it prints for a value stored in two orders it reads alike; and if it cannot print the
value in one order, it cannot in the other (the messages may differ). -/
def OrderBlind (cd : Codec) : Prop :=
  ∀ v v', Reordered v v' →
    (∃ m m', cd.print v.toData = .error m ∧ cd.print v'.toData = .error m') ∨
    ∃ t t', cd.print v.toData = .ok t ∧ cd.print v'.toData = .ok t' ∧ AnswersAlike (fileSays cd (utf8 t)) (fileSays cd (utf8 t'))

/-- Two things at one place of the disk: the same, or two files that differ in their bytes only and that every file layer at this place
reads alike. -/
inductive NodeAlike (b : Build) (fm : Formats) (locate : OsStr → Nat) (s : Nat) : Node → Node → Prop
  | same (n : Node) : NodeAlike b fm locate s n n
  | files (bs bs' : List UInt8) (readErr writeErr : Option Nat)
      (h : ∀ p cd, locate p = s → FormatOf b fm p cd → AnswersAlike (fileSays cd bs) (fileSays cd bs')) :
      NodeAlike b fm locate s (.file bs readErr writeErr) (.file bs' readErr writeErr)

/-- Two worlds that differ only in the bytes of files, which are read alike. -/
def WorldAlike (b : Build) (fm : Formats) (w w' : World) : Prop :=
  w' = { w with disk := w'.disk } ∧ ∀ s, NodeAlike b fm w.locate s (w.disk s) (w'.disk s)

/-- No place is reached through paths of two formats, and the OS accepts all bytes. -/
def Tidy (b : Build) (fm : Formats) (w : World) : Prop :=
  (∀ p q cd cd', FormatOf b fm p cd → FormatOf b fm q cd' → w.locate p = w.locate q → cd = cd') ∧ ∀ s, w.room s = none

/-- What a program learns that does not look at the texts of parse and print errors. -/
def forget : Told → Told
  | .error (.configLayerError (.parseError _)) => .error (.configLayerError (.parseError ""))
  | .error (.configLayerError (.serializeError _)) => .error (.configLayerError (.serializeError ""))
  | t => t

/-- What writing tells. -/
def seeWrite : Except BakuninError Unit → Told
  | .ok () => .nothing
  | .error e => forget (.error e)

/-- A user's own layer that cannot tell such worlds apart either. -/
structure Blind (b : Build) (fm : Formats) (l : UserLayer) : Prop where
  has : ∀ w w', WorldAlike b fm w w' → l.hasValue w = l.hasValue w'
  can : ∀ w w', WorldAlike b fm w w' → l.canWrite w = l.canWrite w'
  read : ∀ w w', WorldAlike b fm w w' → AnswersAlike (l.readValue w) (l.readValue w')
  write : ∀ w w' v v', WorldAlike b fm w w' → Reordered v v' →
    seeWrite (l.writeValue w v).1 = seeWrite (l.writeValue w' v').1 ∧ WorldAlike b fm (l.writeValue w v).2 (l.writeValue w' v').2
  disk : ∀ w v, (l.writeValue w v).2 = { w with disk := (l.writeValue w v).2.disk }

/-- One of the crate's layers, or a blind one. -/
inductive KnownLayer (b : Build) (fm : Formats) : Layer → Prop
  | memory (v : Value) : KnownLayer b fm (.memory v)
  | environment (pre : String) : KnownLayer b fm (.environment pre)
  | file (p : OsStr) (cd : Codec) : FormatOf b fm p cd → KnownLayer b fm (.file (textHandler cd) p)
  | user (l : UserLayer) : Blind b fm l → KnownLayer b fm (.user l)

/-- All layers the program holds are such. -/
def KnownAll (b : Build) (fm : Formats) (σ : Holdings) : Prop :=
  ∀ n name l, hmGet (σ.cfgs n).layers name = some l → KnownLayer b fm l

/-- The calls that build a `FileFinder`. -/
inductive FinderCall where
  | extension (ext : String)
  | folder (p : OsStr)
  | supported
  | directory (d : OSDirectory)

/-- The finder they build. -/
def finder (b : Build) (w : World) (name : String) (calls : List FinderCall) : FileFinder :=
  calls.foldl (fun f c => match c with
    | .extension ext => f.withExtension ext
    | .folder p => f.withFolder p
    | .supported => f.withSupportedExtensions b
    | .directory d => f.withOsDirectory w d) (FileFinder.new name)

/-- Which search. -/
inductive Search where
  | first (allowMissing : Bool)
  | last (allowMissing : Bool)
  | all (allowMissing : Bool)
  | allOrFirst

/-- One result as a list. -/
def single : Outcome BakuninError FindResult → Outcome BakuninError (List FindResult)
  | .ok r => .ok [r]
  | .err e => .err e
  | .panic => .panic

/-- One call. -/
inductive WInstr where
  /-- a call as before, other than `push_layer` -/
  | call (i : Instr) (h : ∀ c n l hl, i ≠ .addUser c n l hl)
  /-- `c.push_layer(name, l)` -/
  | addUser (c : Nat) (name : String) (l : UserLayer) (hl : ∀ b fm, Blind b fm l)
  /-- `c.get_layer(name)`, then `has_value()`, `can_write()` -/
  | hasValue (c : Nat) (name : String)
  | canWrite (c : Nat) (name : String)
  /-- `c.get_layer(name).write_value(src.clone())` -/
  | write (c : Nat) (name : String) (src : Nat)
  /-- a search -/
  | find (name : String) (calls : List FinderCall) (s : Search)
  /-- `c = create_config!(…)`, the defaults taken from variables -/
  | create (c : Nat) (fileName : String) (default : List (String × Nat)) (env : Option String) (layers : List LayerSpec)

/-- What a call tells. -/
inductive WTold where
  | told (t : Told)
  | found (r : Outcome BakuninError (List FindResult))

/-- One call: what it tells, and what the program holds and the world is afterwards. -/
def execW (b : Build) (fm : Formats) (w : World) (σ : Holdings) : WInstr → WTold × Holdings × World
  | .call i _ => (.told (forget (exec b fm w σ i).1), (exec b fm w σ i).2, w)
  | .addUser c name l _ => (.told .nothing, σ.putCfg c ((σ.cfgs c).pushLayer name (.user l)), w)
  | .hasValue c name => match (σ.cfgs c).getLayer name with
    | none => (.told (.text none), σ, w)
    | some l => (.told (.flag (l.hasValue w)), σ, w)
  | .canWrite c name => match (σ.cfgs c).getLayer name with
    | none => (.told (.text none), σ, w)
    | some l => (.told (.flag (l.canWrite w)), σ, w)
  | .write c name src => match (σ.cfgs c).getLayer name with
    | none => (.told (.text none), σ, w)
    | some l => (.told (seeWrite (l.writeValue w (σ.vals src)).1), σ, (l.writeValue w (σ.vals src)).2)
  | .find name calls s =>
    let f := finder b w name calls
    (.found (match s with
      | .first am => single (f.findFirst b w am)
      | .last am => single (f.findLast b w am)
      | .all am => f.findAll b w am
      | .allOrFirst => f.findAllOrFirst b w), σ, w)
  | .create c fileName default env layers =>
    match createConfig b fm w ⟨fileName, default.map fun e => (e.1, σ.vals e.2), env, layers⟩ with
    | .ok (cfg, w') => (.told .nothing, σ.putCfg c cfg, w')
    | _ => (.told .failed, σ, w)

/-- What others do to the world between two calls. -/
inductive Event where
  /-- something else is now at this place -/
  | put (s : Nat) (n : Node)
  | setEnv (env : List (OsStr × OsStr))
  | setDirs (baseDirs : Option BaseDirs) (cwd : Option OsStr)

/-- The world afterwards. -/
def Event.apply (w : World) : Event → World
  | .put s n => w.put s n
  | .setEnv env => { w with env := env }
  | .setDirs d c => { w with baseDirs := d, cwd := c }

/-- A program. -/
abbrev WProgram := List WTold → Option WInstr

/-- `RunW … p ev t σ w t' σ' w'`: having been told `t` and holding `σ` in the world `w`, the program may get to have been told `t'` and to hold
`σ'` in the world `w'`. Before every call all maps may be reordered; before the call number `n` others do `ev n`. -/
inductive RunW (b : Build) (fm : Formats) (p : WProgram) (ev : Nat → List Event) :
    List WTold → Holdings → World → List WTold → Holdings → World → Prop
  | here {t : List WTold} {σ σ' : Holdings} {w : World} : ReorderedAll σ σ' → RunW b fm p ev t σ w t σ' w
  | step {t t' : List WTold} {σ σ₁ σ' : Holdings} {w w' : World} {i : WInstr} : p t = some i → ReorderedAll σ σ₁ →
      RunW b fm p ev ((execW b fm ((ev t.length).foldl Event.apply w) σ₁ i).1 :: t) (execW b fm ((ev t.length).foldl Event.apply w) σ₁ i).2.1
        (execW b fm ((ev t.length).foldl Event.apply w) σ₁ i).2.2 t' σ' w' →
      RunW b fm p ev t σ w t' σ' w'

end Verif.Spec
