import Verif.Model.Config
import Verif.Model.Crash
/-!
# A process that dies in `create_config!`

Nothing but the writes of the `init` parts touches the disk, so a process that dies leaves a world between two layers or in the middle of a write.
-/
namespace Verif

/-- The worlds in which a process can die while the macro goes through the layers (/repo/src/config_macro.rs:17-45): before a layer is dealt with or after
the last (`outside`), during the write of a layer's `init` part, lines 31-41 (`writing`), or later (`next`). -/
inductive MacroDies (b : Build) (fm : Formats) (fileName : String) (defaultValue : Value) : Config × World → List LayerSpec → World → Prop
  | outside (st : Config × World) (specs : List LayerSpec) : MacroDies b fm fileName defaultValue st specs st.2
  | writing {st : Config × World} {spec : LayerSpec} {specs : List LayerSpec} {r : FindResult} {c : Config} {cd : Codec} {path : OsStr} {w' : World} :
      layerFinder b st.2 fileName spec.dirs = .ok r → st.1.addFileLayer b fm spec.name r.path = (.ok (), c) →
      st.2.pathExists r.path = false → spec.init = some true → c.getLayer spec.name = some (.file (textHandler cd) path) →
      CrashWorld cd path defaultValue st.2 w' → MacroDies b fm fileName defaultValue st (spec :: specs) w'
  | next {st st' : Config × World} {spec : LayerSpec} {specs : List LayerSpec} {w' : World} :
      macroLayer b fm fileName defaultValue st spec = .ok st' → MacroDies b fm fileName defaultValue st' specs w' →
      MacroDies b fm fileName defaultValue st (spec :: specs) w'

/-- The worlds in which a process can die during `create_config!`: /repo/src/config_macro.rs:2-54. The lines before and after the layers touch nothing. -/
def StartDies (b : Build) (fm : Formats) (w : World) (args : MacroArgs) (w' : World) : Prop :=
  ∃ defaultValue, valueMapMacro args.default = some defaultValue ∧
    MacroDies b fm args.fileName defaultValue (Config.new.addMemoryLayer "default" defaultValue, w) args.layers w'

end Verif
