import Verif.Props.Answer
import Verif.Props.ApiMap
import Verif.Props.Attribution
import Verif.Props.AutoAccept
import Verif.Props.Backtrace
import Verif.Props.BasicTerm
import Verif.Props.BasicTermSpec
import Verif.Props.BinProxy
import Verif.Props.BuildDir
import Verif.Props.BuildScript
import Verif.Props.BuiltIn
import Verif.Props.BuiltInTable
import Verif.Props.Cache
import Verif.Props.Cargo
import Verif.Props.CargoSpec
import Verif.Props.Checker
import Verif.Props.Comments
import Verif.Props.CommonPrefix
import Verif.Props.Compiled
import Verif.Props.Compilers
import Verif.Props.Config
import Verif.Props.ConfigFile
import Verif.Props.CrateIndex
import Verif.Props.DeadCode
import Verif.Props.DebugNames
import Verif.Props.Demangle
import Verif.Props.DemangleV0
import Verif.Props.Deps
import Verif.Props.DepsPath
import Verif.Props.Diff
import Verif.Props.Dwarf
import Verif.Props.DwarfSpec
import Verif.Props.Edition
import Verif.Props.Editor
import Verif.Props.Edits
import Verif.Props.EndToEnd
import Verif.Props.EnvVars
import Verif.Props.ExportAccepted
import Verif.Props.Exports
import Verif.Props.ExportsAsked
import Verif.Props.FileNames
import Verif.Props.FirstFile
import Verif.Props.FixEffects
import Verif.Props.FixTitles
import Verif.Props.Fixes
import Verif.Props.Forged
import Verif.Props.Fs
import Verif.Props.Handlers
import Verif.Props.Help
import Verif.Props.Identity
import Verif.Props.Imports
import Verif.Props.Invalid
import Verif.Props.KeptFile
import Verif.Props.LegacyTypes
import Verif.Props.Lexer
import Verif.Props.LibTree
import Verif.Props.Link
import Verif.Props.LinkSpec
import Verif.Props.Links
import Verif.Props.LookThrough
import Verif.Props.Main
import Verif.Props.Messages
import Verif.Props.NewVersion
import Verif.Props.NullUi
import Verif.Props.OffTree
import Verif.Props.OfferedEdits
import Verif.Props.Options
import Verif.Props.Output
import Verif.Props.Permissions
import Verif.Props.Places
import Verif.Props.Popup
import Verif.Props.ProblemsUi
import Verif.Props.ProblemsUiSpec
import Verif.Props.Products
import Verif.Props.ReadFiles
import Verif.Props.Relocations
import Verif.Props.Report
import Verif.Props.ReportOrder
import Verif.Props.ReportText
import Verif.Props.RootPath
import Verif.Props.RunBefore
import Verif.Props.Rustc
import Verif.Props.RustcEnd
import Verif.Props.RustcErrors
import Verif.Props.Sandbox
import Verif.Props.SandboxSpec
import Verif.Props.SandboxTrust
import Verif.Props.SandboxWarn
import Verif.Props.SandboxWorks
import Verif.Props.Scan
import Verif.Props.Screen
import Verif.Props.Security
import Verif.Props.Server
import Verif.Props.ServerSpec
import Verif.Props.Settings
import Verif.Props.Settled
import Verif.Props.Setup
import Verif.Props.ShowDiff
import Verif.Props.Shown
import Verif.Props.Std
import Verif.Props.Store
import Verif.Props.StoreSpec
import Verif.Props.Summary
import Verif.Props.SummaryText
import Verif.Props.Toolchain
import Verif.Props.TreeRead
import Verif.Props.UiComments
import Verif.Props.UiErrors
import Verif.Props.UiLife
import Verif.Props.UiReach
import Verif.Props.UnusedApis
import Verif.Props.UnusedConfig
import Verif.Props.Usages
import Verif.Props.Wire

/-!
# All property theorems
-/
