import Verif.Model.Config
/-!
# Layers that do things

A user's `ConfigLayer` is arbitrary code: it may count its calls, cache, log, talk to a server, change files, panic. Here a layer's methods
may change the state of everything (`σ`, left open), and the builder of /repo/src/config.rs is modelled again over such layers.
-/
namespace Verif

/-- /repo/src/config_layer/layer.rs:3-13 `trait ConfigLayer`, its methods with their effect on the state of everything. -/
structure DynLayer (σ : Type) where
  getName : σ → String × σ
  hasValue : σ → Bool × σ
  readValue : σ → Outcome BakuninError Value × σ
  canWrite : σ → Bool × σ
  writeValue : Value → σ → Outcome BakuninError Unit × σ

/-- /repo/src/config.rs:11-14 `struct BakuninConfig`. -/
structure DynConfig (σ : Type) where
  names : List String
  layers : List (String × DynLayer σ)

/-- The crate's own layers (and stateless user layers) as such layers: /repo/src/config_layer/layer_mem.rs:16-36, layer_env.rs:24-87,
layer_file.rs:36-63. -/
def Layer.toDyn (l : Layer) : DynLayer World where
  getName w := (l.getName, w)
  hasValue w := (l.hasValue w, w)
  readValue w := (Outcome.ofExcept (l.readValue w), w)
  canWrite w := (l.canWrite w, w)
  writeValue v w := (Outcome.ofExcept (l.writeValue w v).1, (l.writeValue w v).2)

namespace DynConfig
variable {σ : Type}

/-- /repo/src/config.rs:17-22 `new`. -/
def new : DynConfig σ := ⟨[], []⟩

/-- /repo/src/config.rs:29-40 `push_layer`, 45-48 `with_layer`: no method of any layer is called. -/
def pushLayer (c : DynConfig σ) (name : String) (layer : DynLayer σ) : DynConfig σ :=
  if (hmGet c.layers name).isSome then c
  else { names := c.names ++ [name], layers := hmInsert c.layers name layer }

/-- /repo/src/config.rs:121-123 `get_layer`. -/
def getLayer (c : DynConfig σ) (name : String) : Option (DynLayer σ) := hmGet c.layers name

/-- The loop of /repo/src/config.rs:130-145 from some point on, with the value built so far. -/
def buildLoop (c : DynConfig σ) (skip : Bool) (value : Value) : List String → σ → Outcome BakuninError Value × σ
  | [], s => (.ok value, s)
  | name :: names, s =>
    match hmGet c.layers name with
    | some layer =>
      match layer.readValue s with
      | (.err e, s) => if skip then buildLoop c skip value names s else (.err e, s)
      | (.ok v, s) => buildLoop c skip (value.merge v) names s
      | (.panic, s) => (.panic, s)
    | none => buildLoop c skip value names s

/-- /repo/src/config.rs:127-148 `build_value`. -/
def buildValue (c : DynConfig σ) (skip : Bool) (s : σ) : Outcome BakuninError Value × σ :=
  buildLoop c skip Value.newMap c.names s

/-- The loop of /repo/src/config.rs:155-157, over the layers in the iteration order of the HashMap. -/
def debugLoop (acc : List (String × String)) : List (String × DynLayer σ) → σ → List (String × String) × σ
  | [], s => (acc, s)
  | (name, layer) :: r, s => debugLoop (acc ++ [(name, (layer.getName s).1)]) r (layer.getName s).2

/-- /repo/src/config.rs:151-163 `Debug`: the pairs it prints. `order` is the HashMap in its (arbitrary) iteration order; the
punctuation `debug_struct` adds is not modelled. -/
def debugPairs (order : List (String × DynLayer σ)) (s : σ) : List (String × String) × σ := debugLoop [] order s

end DynConfig
end Verif
