import Verif.Spec.Serde
import Verif.Spec.Config
import Verif.Model.Config
import Verif.Model.Convert
/-!
# Programs that use the API, run with arbitrary hash seeds

A program holds values in numbered variables and configurations in numbered variables. At each step it makes one call of the API, of its
choice; the choice may depend on everything it has been told so far. Before every call all the `HashMap`s it holds may be reordered at
will (in Rust the order depends on a random seed per map, on the history and on the capacity of the table).
-/
namespace Verif.Spec

/-- One call of the API; `dst` is the variable that receives the answer. -/
inductive Instr where
  /-- `Value::new()`, `Value::new_map()`, `Value::new_array()` -/
  | new (dst : Nat)
  | newMap (dst : Nat)
  | newArray (dst : Nat)
  /-- `Value::from` of a number, boolean, text -/
  | fromInt (dst : Nat) (t : IntTy) (n : IntOf t)
  | fromF64 (dst : Nat) (x : F64)
  | fromBool (dst : Nat) (b : Bool)
  | fromText (dst : Nat) (s : String)
  /-- `dst = src.clone()` -/
  | clone (dst src : Nat)
  /-- `dst = src.get(key)`, `dst = src.at(i)` -/
  | get (dst src : Nat) (key : String)
  | at' (dst src : Nat) (i : Nat)
  /-- `dst.set(key, src.clone())`, `dst.push(src.clone())`: tells whether it failed -/
  | set (dst : Nat) (key : String) (src : Nat)
  | push (dst src : Nat)
  /-- `src.len()`, `src.is_map()`, `src.is_array()`, `src.is_none()` -/
  | len (src : Nat)
  | isMap (src : Nat)
  | isArray (src : Nat)
  | isNone (src : Nat)
  /-- the answer of the `n+1`-st `next()` of `src.iter()`: tells whether there is one -/
  | iterNext (dst src n : Nat)
  /-- `a == b` -/
  | equal (a b : Nat)
  /-- `dst.merge(&src)`, `dst = a.clone_merge(&b)` -/
  | merge (dst src : Nat)
  | cloneMerge (dst a b : Nat)
  /-- `src.try_into_<type>()`: tells the result or the error -/
  | convert (s : Scalar) (src : Nat)
  /-- `src.into_<type>_or(d)` -/
  | convertOr (s : Scalar) (src : Nat) (d : s.T)
  /-- `dst = Value::serialize(src)`, `dst = Value::deserialize(src)`: tells whether it worked -/
  | serialize (dst src : Nat)
  | deserialize (dst src : Nat)
  /-- `src.deserialize::<T>()`, for any type whose maps have text keys: tells everything that can be seen of the result -/
  | typed (src : Nat) (structs : Nat → List (String × Ty)) (k : Nat) (T : Ty)
      (hs : ∀ n, WellFormed (.struct (structs n)) ∧ StringKeyed (.struct (structs n))) (hT : WellFormed T ∧ StringKeyed T)
  /-- `c = BakuninConfig::new()` -/
  | newConfig (c : Nat)
  /-- `c.add_memory_layer(name, src.clone())` -/
  | addMemory (c : Nat) (name : String) (src : Nat)
  /-- `c.add_environment_layer(name, pre)` -/
  | addEnvironment (c : Nat) (name pre : String)
  /-- `c.add_file_layer(name, path)`: tells the error, if any -/
  | addFile (c : Nat) (name : String) (path : OsStr)
  /-- `c.push_layer(name, l)` for a layer of the user's own -/
  | addUser (c : Nat) (name : String) (l : UserLayer) (hl : Proper (.user l))
  /-- `c.get_layer(name)`: tells whether there is one, and its `get_name()` -/
  | layerName (c : Nat) (name : String)
  /-- `dst = c.get_layer(name).read_value()`: tells the error, if any -/
  | readLayer (dst c : Nat) (name : String)
  /-- `dst = c.build_value(skip)`: tells the error, if any -/
  | build (dst c : Nat) (skip : Bool)

/-- What a call tells the program (besides the values it stores). -/
inductive Told where
  | nothing
  | number (n : Nat)
  | flag (b : Bool)
  | text (s : Option String)
  | modelError (e : ModelError)
  | error (e : BakuninError)
  | scalar (s : Scalar) (x : s.T)
  /-- serialization or deserialization failed -/
  | failed
  /-- a typed value: what is to be seen on every path -/
  | data (see : List DStep → Option DHead)

/-- What a program holds. -/
structure Holdings where
  vals : Nat → Value
  cfgs : Nat → Config

/-- Assignment. -/
def Holdings.put (σ : Holdings) (dst : Nat) (v : Value) : Holdings :=
  { σ with vals := fun n => if n = dst then v else σ.vals n }
/-- Assignment of a configuration. -/
def Holdings.putCfg (σ : Holdings) (dst : Nat) (c : Config) : Holdings :=
  { σ with cfgs := fun n => if n = dst then c else σ.cfgs n }

/-- What the answer of a fallible call tells. -/
def tell {α : Type} (see : α → Told) : Except ModelError α → Told
  | .ok a => see a
  | .error e => .modelError e

/-- One call, in a world that stays as it is. -/
def exec (b : Build) (fm : Formats) (w : World) (σ : Holdings) : Instr → Told × Holdings
  | .new dst => (.nothing, σ.put dst Value.new)
  | .newMap dst => (.nothing, σ.put dst Value.newMap)
  | .newArray dst => (.nothing, σ.put dst Value.newArray)
  | .fromInt dst t n => (.nothing, σ.put dst (Value.ofInt t n))
  | .fromF64 dst x => (.nothing, σ.put dst (Value.ofF64 x))
  | .fromBool dst x => (.nothing, σ.put dst (Value.ofBool x))
  | .fromText dst s => (.nothing, σ.put dst (Value.ofString s))
  | .clone dst src => (.nothing, σ.put dst (σ.vals src).clone)
  | .get dst src key => (.nothing, σ.put dst ((σ.vals src).get key))
  | .at' dst src i => (.nothing, σ.put dst ((σ.vals src).at' i))
  | .set dst key src =>
    let r := (σ.vals dst).set key (σ.vals src)
    (tell (fun _ => .nothing) r.1, σ.put dst r.2)
  | .push dst src =>
    let r := (σ.vals dst).push (σ.vals src)
    (tell (fun _ => .nothing) r.1, σ.put dst r.2)
  | .len src => (.number (σ.vals src).len, σ)
  | .isMap src => (.flag (σ.vals src).isMap, σ)
  | .isArray src => (.flag (σ.vals src).isArray, σ)
  | .isNone src => (.flag (σ.vals src).isNone, σ)
  | .iterNext dst src n =>
    match (ValueIter.take (n + 1) (σ.vals src).iter)[n]? with
    | some (some x) => (.flag true, σ.put dst x)
    | _ => (.flag false, σ)
  | .equal x y => (.flag ((σ.vals x).rustEq (σ.vals y)), σ)
  | .merge dst src => (.nothing, σ.put dst ((σ.vals dst).merge (σ.vals src)))
  | .cloneMerge dst x y => (.nothing, σ.put dst ((σ.vals x).cloneMerge (σ.vals y)))
  | .convert s src => (tell (.scalar s) ((σ.vals src).tryIntoMethod s), σ)
  | .convertOr s src d => (.scalar s ((σ.vals src).intoOr s d), σ)
  | .serialize dst src =>
    match (σ.vals src).serializeValue with
    | .ok x => (.nothing, σ.put dst x)
    | _ => (.failed, σ)
  | .deserialize dst src =>
    match deValue (σ.vals src) with
    | .ok x => (.nothing, σ.put dst x)
    | _ => (.failed, σ)
  | .typed src structs k T _ _ =>
    match deAt structs k T (σ.vals src) with
    | .ok d => (.data (dview d), σ)
    | _ => (.failed, σ)
  | .newConfig c => (.nothing, σ.putCfg c Config.new)
  | .addMemory c name src => (.nothing, σ.putCfg c ((σ.cfgs c).addMemoryLayer name (σ.vals src)))
  | .addEnvironment c name pre => (.nothing, σ.putCfg c ((σ.cfgs c).addEnvironmentLayer name pre))
  | .addFile c name path =>
    let r := (σ.cfgs c).addFileLayer b fm name path
    ((match r.1 with | .ok () => .nothing | .error e => .error e), σ.putCfg c r.2)
  | .addUser c name l _ => (.nothing, σ.putCfg c ((σ.cfgs c).pushLayer name (.user l)))
  | .layerName c name => (.text (((σ.cfgs c).getLayer name).map Layer.getName), σ)
  | .readLayer dst c name =>
    match (σ.cfgs c).getLayer name with
    | none => (.flag false, σ)
    | some l => match l.readValue w with
      | .ok x => (.flag true, σ.put dst x)
      | .error e => (.error e, σ)
  | .build dst c skip =>
    match (σ.cfgs c).buildValue w skip with
    | .ok x => (.nothing, σ.put dst x)
    | .error e => (.error e, σ)

/-- The same value with its maps stored in a possibly different order. -/
def Reordered (v v' : Value) : Prop := Same v v' ∧ UniqueKeys v ∧ UniqueKeys v'

/-- The same layer, where a memory layer's value may be stored in a different order. -/
inductive ReorderedLayer : Layer → Layer → Prop
  | memory {v v' : Value} : Reordered v v' → ReorderedLayer (.memory v) (.memory v')
  | same {l : Layer} : Proper l → ReorderedLayer l l

/-- The same layers under the same names in the same sequence; the table of layers is itself a `HashMap`. -/
def ReorderedConfig (c c' : Config) : Prop :=
  c.names = c'.names ∧ ∀ name, Option.Rel ReorderedLayer (hmGet c.layers name) (hmGet c'.layers name)

/-- The same holdings, all maps stored in possibly different orders. -/
def ReorderedAll (σ σ' : Holdings) : Prop :=
  (∀ n, Reordered (σ.vals n) (σ'.vals n)) ∧ ∀ n, ReorderedConfig (σ.cfgs n) (σ'.cfgs n)

/-- No map in the value has more than one entry. -/
inductive OneEntryMaps : Value → Prop
  | scalar {v : Value} : (∀ xs, v ≠ .array xs) → (∀ m, v ≠ .map m) → OneEntryMaps v
  | array {xs : List Value} : (∀ x ∈ xs, OneEntryMaps x) → OneEntryMaps (.array xs)
  | empty : OneEntryMaps (.map [])
  | single {k : String} {x : Value} : OneEntryMaps x → OneEntryMaps (.map [(k, x)])

/-- A program: the next call, from everything it has been told so far (latest first); `none`: it stops. -/
abbrev Program := List Told → Option Instr

/-- `Run … p t σ t' σ'`: having been told `t` and holding `σ`, the program `p` may get to have been told `t'` and to hold `σ'`. Before every
call all maps may be reordered. -/
inductive Run (b : Build) (fm : Formats) (w : World) (p : Program) : List Told → Holdings → List Told → Holdings → Prop
  | here {t : List Told} {σ σ' : Holdings} : ReorderedAll σ σ' → Run b fm w p t σ t σ'
  | step {t t' : List Told} {σ σ₁ σ' : Holdings} {i : Instr} : p t = some i → ReorderedAll σ σ₁ →
      Run b fm w p ((exec b fm w σ₁ i).1 :: t) (exec b fm w σ₁ i).2 t' σ' → Run b fm w p t σ t' σ'

end Verif.Spec
