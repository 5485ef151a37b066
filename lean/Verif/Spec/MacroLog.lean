import Verif.Spec.Log
/-!
# What the log of `create_config!` should contain
-/
namespace Verif.Spec

/-- The directories of the layer that the system cannot tell, one warning each. -/
def unresolved (w : World) (l : LayerSpec) : List LogRecord := (l.dirs.filter fun d => d.toPathBuf w = none).map LogRecord.noDirectory

/-- The format that the extension of the path names, if that is enabled. -/
inductive FormatNamed (b : Build) (fm : Formats) (p : OsStr) : FileExtension → Codec → Prop
  | toml (h : b.toml = true) (he : pathExtension p = some (os "toml")) : FormatNamed b fm p .toml fm.toml
  | json (h : b.json = true) (he : pathExtension p = some (os "json")) : FormatNamed b fm p .json fm.json

/-- What the attempt to write to the layer tells the log, whatever comes of it. -/
def writeRecords : LogLayer → List LogRecord
  | .file f _ p => [.writing f p]
  | _ => []

/-- The layer that has the name after a file layer is added under it: the one that had it, else the new one. -/
inductive Named (b : Build) (fm : Formats) (c : LogConfig) (name : String) (p : OsStr) : LogLayer → Prop
  | old (x : LogLayer) (h : c.getLayer name = some x) : Named b fm c name p x
  | new (f : FileExtension) (cd : Codec) (h : c.getLayer name = none) (hf : FormatNamed b fm p f cd) : Named b fm c name p (.file f cd p)

/-- What one layer of the macro writes, where `c` and `w` are the configuration and the world before it: a warning for each directory that cannot be told; and then

* if none can be told, or no format is enabled, a warning with this error;
* else, if the chosen file has no enabled format, nothing;
* else, if the name is taken, a trace of that; and, if the layer is to be initialised and the chosen file is missing, a trace of the attempt to write, with a warning if that fails. -/
inductive MacroRecords (b : Build) (fm : Formats) (fileName : String) (dv : Value) (c : LogConfig) (w : World) (l : LayerSpec) : List LogRecord → Prop
  | nowhere (h : ∀ d ∈ l.dirs, d.toPathBuf w = none) :
      MacroRecords b fm fileName dv c w l (unresolved w l ++ [.searchError (.fileFinderError .noFoldersDefined)])
  | noFormat (d : OSDirectory) (hd : d ∈ l.dirs) (h : d.toPathBuf w ≠ none) (h1 : b.toml = false) (h2 : b.json = false) :
      MacroRecords b fm fileName dv c w l (unresolved w l ++ [.searchError (.fileFinderError .noExtensionsDefined)])
  | refused (p : OsStr) (hp : chosen w (layerCandidates b w fileName l) = some p) (h : ∀ f cd, ¬ FormatNamed b fm p f cd) :
      MacroRecords b fm fileName dv c w l (unresolved w l)
  | added (p : OsStr) (hp : chosen w (layerCandidates b w fileName l) = some p) (f : FileExtension) (cd : Codec) (h : FormatNamed b fm p f cd)
      (hi : l.init ≠ some true ∨ w.pathExists p = true) :
      MacroRecords b fm fileName dv c w l (unresolved w l ++ if c.getLayer l.name = none then [] else [.layerExists l.name])
  | wrote (p : OsStr) (hp : chosen w (layerCandidates b w fileName l) = some p) (f : FileExtension) (cd : Codec) (h : FormatNamed b fm p f cd)
      (hi : l.init = some true) (hx : w.pathExists p = false) (x : LogLayer) (hn : Named b fm c l.name p x) (w' : World)
      (hw : x.toLayer.writeValue w dv = (.ok (), w')) :
      MacroRecords b fm fileName dv c w l (unresolved w l ++ (if c.getLayer l.name = none then [] else [.layerExists l.name]) ++ writeRecords x)
  | failed (p : OsStr) (hp : chosen w (layerCandidates b w fileName l) = some p) (f : FileExtension) (cd : Codec) (h : FormatNamed b fm p f cd)
      (hi : l.init = some true) (hx : w.pathExists p = false) (x : LogLayer) (hn : Named b fm c l.name p x) (w' : World) (e : BakuninError)
      (hw : x.toLayer.writeValue w dv = (.error e, w')) :
      MacroRecords b fm fileName dv c w l
        (unresolved w l ++ (if c.getLayer l.name = none then [] else [.layerExists l.name]) ++ writeRecords x ++ [.initError l.name e])

end Verif.Spec
