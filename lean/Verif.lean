import Verif.Fidelity
import Verif.Props.Merge
import Verif.Props.Value
import Verif.Props.Convert
import Verif.Props.Serde
import Verif.Props.Finder
import Verif.Props.Config
import Verif.Props.Layers
import Verif.Props.Macro
import Verif.Props.History
import Verif.Props.Doc
import Verif.Props.Protocol
import Verif.Props.Race
import Verif.Props.Writers
import Verif.Props.EndToEnd
import Verif.Props.Readme
import Verif.Props.Errors
import Verif.Props.MacroRace
import Verif.Props.FloatText
import Verif.Props.ScalarText
import Verif.Props.Toml
import Verif.Props.TomlMacro
import Verif.Props.Saving
import Verif.Props.Stateful
import Verif.Props.Inspect
import Verif.Model.Attrs
import Verif.Spec.Attrs
import Verif.Props.Attrs
import Verif.Model.Buffer
import Verif.Spec.Buffer
import Verif.Props.Buffer
import Verif.Model.Adjacent
import Verif.Spec.Adjacent
import Verif.Props.Adjacent
import Verif.Spec.Kept
import Verif.Props.Kept
import Verif.Spec.Blind
import Verif.Props.Blind
import Verif.Model.Visitor
import Verif.Spec.Visitor
import Verif.Props.Visitor
import Verif.Model.StdTypes
import Verif.Spec.StdTypes
import Verif.Props.StdTypes
import Verif.Spec.Program
import Verif.Props.Program
import Verif.Model.Examples
import Verif.Props.Floor
import Verif.Spec.Writing
import Verif.Props.Writing
import Verif.Spec.Chain
import Verif.Props.Chain
import Verif.Model.Starts
import Verif.Spec.Starts
import Verif.Props.Starts
import Verif.Spec.TomlSaving
import Verif.Props.TomlSaving
import Verif.Spec.Editing
import Verif.Props.Editing
import Verif.Spec.Faults
import Verif.Props.Faults
import Verif.Spec.Versions
import Verif.Props.Versions
import Verif.Model.BaseDirs
import Verif.Spec.BaseDirs
import Verif.Props.BaseDirs
import Verif.Model.Log
import Verif.Spec.Log
import Verif.Spec.MacroLog
import Verif.Props.Log
import Verif.Props.MacroLog
import Verif.Spec.SilentStart
import Verif.Props.SilentStart
import Verif.Spec.Order
import Verif.Props.Order
import Verif.Spec.TypedLayers
import Verif.Props.TypedLayers
import Verif.Props.TypedSaving
import Verif.Props.Maps
import Verif.Spec.Evolution
import Verif.Props.Evolution
import Verif.Props.Reread
import Verif.Props.RereadValues
import Verif.Props.Footprint
import Verif.Props.Pinned
import Verif.Props.Export
import Verif.Props.EnvSettings
import Verif.Props.Contained
import Verif.Props.Reload
import Verif.Spec.Cascade
import Verif.Props.Cascade
import Verif.Model.Cost
import Verif.Spec.Cost
import Verif.Props.Cost
import Verif.Spec.Sharing
import Verif.Props.Stack
import Verif.Props.Sharing
import Verif.Model.WinPath
import Verif.Spec.WinPath
import Verif.Props.WinPath
import Verif.Props.WinDirs
import Verif.Spec.Restore
import Verif.Props.Restore
import Verif.Model.MacroCrash
import Verif.Spec.Killed
import Verif.Props.Killed
import Verif.Props.KilledToml
import Verif.Model.Checked
import Verif.Spec.Checked
import Verif.Props.Checked
import Verif.Spec.Blame
import Verif.Props.Blame
import Verif.Spec.Quoting
import Verif.Props.Quoting
import Verif.Spec.Deciding
import Verif.Props.Deciding
import Verif.Model.Nesting
import Verif.Spec.Nesting
import Verif.Props.Nesting
import Verif.Model.Asks
import Verif.Spec.Asks
import Verif.Props.Asks
import Verif.Spec.Features
import Verif.Props.Features
import Verif.Spec.Moved
import Verif.Props.Moved
import Verif.Spec.Worst
import Verif.Props.Worst
import Verif.Spec.Sayable
import Verif.Props.Sayable
import Verif.Spec.EnvReach
import Verif.Props.EnvReach
import Verif.Spec.OnTop
import Verif.Props.OnTop
import Verif.Model.FlatOption
import Verif.Spec.FlatOption
import Verif.Props.FlatOption
import Verif.Props.FlatChoice
import Verif.Model.CatchAll
import Verif.Spec.CatchAll
import Verif.Props.CatchAll
import Verif.Spec.TwoTops
import Verif.Props.TwoTops
import Verif.Spec.ComesBack
import Verif.Props.ComesBack
import Verif.Spec.SetAside
import Verif.Props.SetAside
import Verif.Props.DocValues
import Verif.Props.DocSettings
import Verif.Props.ExportValues
import Verif.Props.TomlValues
