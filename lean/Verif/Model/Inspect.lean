import Verif.Model.Stateful
/-!
# What layers and configurations tell about themselves

The concrete layer types before they are boxed, with their own getters and `Display`: /repo/src/config_layer/layer_env.rs, layer_file.rs.
-/
namespace Verif

/-- /repo/src/config_layer/layer_env.rs:6-9 `struct EnvironmentConfigLayer`. -/
structure EnvironmentConfigLayer where
  pre : String

namespace EnvironmentConfigLayer

/-- /repo/src/config_layer/layer_env.rs:13-17 `new`. -/
def new (pre : String) : EnvironmentConfigLayer := ⟨trimStr pre⟩

/-- /repo/src/config_layer/layer_env.rs:19-21 `get_prefix`. -/
def getPrefix (l : EnvironmentConfigLayer) : String := l.pre

/-- `Box::new(layer) as Box<dyn ConfigLayer>`: /repo/src/config.rs:95. -/
def boxed (l : EnvironmentConfigLayer) : Layer := .environment l.pre

/-- /repo/src/config_layer/layer_env.rs:89-93 `Display`. -/
def display (l : EnvironmentConfigLayer) : String := "EnvironmentConfigLayer[" ++ l.pre ++ "]"

end EnvironmentConfigLayer

/-- /repo/src/config_layer/layer_file.rs:6-14 `struct FileConfigLayer<T>`; the type parameter is the handler. -/
structure FileConfigLayer (h : FileHandler) where
  path : OsStr

namespace FileConfigLayer
variable {h : FileHandler}

/-- /repo/src/config_layer/layer_file.rs:20-25 `new`. -/
def new (path : OsStr) : FileConfigLayer h := ⟨path⟩

/-- /repo/src/config_layer/layer_file.rs:27-29 `get_path`. -/
def getPath (l : FileConfigLayer h) : OsStr := l.path

/-- /repo/src/config_layer/layer_file.rs:31-33 `exists`. -/
def exists' (w : World) (l : FileConfigLayer h) : Bool := w.pathExists l.path

/-- `Box::new(layer) as Box<dyn ConfigLayer>`: /repo/src/config.rs:58-61, 69-72. -/
def boxed (l : FileConfigLayer h) : Layer := .file h l.path

end FileConfigLayer
end Verif
