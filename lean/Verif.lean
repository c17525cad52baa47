import Verif.Model.Basic
import Verif.Model.ApiMap
import Verif.Lemmas.ApiMap
import Verif.Props.ApiMap
import Verif.Model.Config
import Verif.Model.Permissions
import Verif.Lemmas.Permissions
import Verif.Props.Permissions
import Verif.Model.Validation
import Verif.Props.Config
import Verif.Props.Imports
import Verif.Model.Problem
import Verif.Model.Store
import Verif.Props.StoreSpec
import Verif.Lemmas.Store
import Verif.Props.Store
import Verif.Model.Path
import Verif.Model.Checker
import Verif.Lemmas.Checker
import Verif.Props.Checker
import Verif.Model.Handlers
import Verif.Props.Handlers
import Verif.Props.Answer
import Verif.Model.NullUi
import Verif.Props.NullUi
import Verif.Props.AutoAccept
import Verif.Model.Main
import Verif.Props.Main
import Verif.Model.BuildScript
import Verif.Props.BuildScript
import Verif.Model.BuiltIn
import Verif.Props.BuiltIn
import Verif.Model.Scan
import Verif.Props.Scan
import Verif.Model.Lexer
import Verif.Props.Lexer
import Verif.Model.Deps
import Verif.Props.Deps
import Verif.Model.Rustc
import Verif.Props.Rustc
import Verif.Props.DepsPath
import Verif.Model.Wire
import Verif.Props.Wire
import Verif.Model.Fs
import Verif.Props.Fs
import Verif.Props.Attribution
import Verif.Model.Identity
import Verif.Props.Identity
import Verif.Model.Sandbox
import Verif.Props.SandboxSpec
import Verif.Lemmas.Sandbox
import Verif.Props.Sandbox
import Verif.Props.EnvVars
import Verif.Props.SandboxWorks
import Verif.Model.BinProxy
import Verif.Props.BinProxy
import Verif.Model.Toml
import Verif.Model.Editor
import Verif.Lemmas.Editor
import Verif.Lemmas.EditPerms
import Verif.Props.Editor
import Verif.Model.Exports
import Verif.Lemmas.EditApis
import Verif.Props.Edits
import Verif.Props.BuiltInTable
import Verif.Model.Demangle
import Verif.Model.Names
import Verif.Lemmas.Demangle
import Verif.Lemmas.Names
import Verif.Lemmas.DebugNames
import Verif.Props.Demangle
import Verif.Props.DemangleV0
import Verif.Props.DebugNames
import Verif.Model.SymbolGraph
import Verif.Lemmas.SymbolGraph
import Verif.Props.Relocations
import Verif.Props.Usages
import Verif.Props.Cache
import Verif.Props.Exports
import Verif.Props.EndToEnd
import Verif.Model.CommonPrefix
import Verif.Props.CommonPrefix
import Verif.Model.Backtrace
import Verif.Props.Backtrace
import Verif.Model.Diff
import Verif.Props.Diff
import Verif.Model.LibTree
import Verif.Props.LibTree
import Verif.Model.Summary
import Verif.Props.Summary
import Verif.Model.Dwarf
import Verif.Props.DwarfSpec
import Verif.Lemmas.Dwarf
import Verif.Props.Dwarf
import Verif.Model.ProblemsUi
import Verif.Props.ProblemsUiSpec
import Verif.Lemmas.ProblemsUi
import Verif.Props.ProblemsUi
import Verif.Model.BasicTerm
import Verif.Props.BasicTermSpec
import Verif.Lemmas.BasicTerm
import Verif.Props.BasicTerm
import Verif.Model.Link
import Verif.Props.LinkSpec
import Verif.Lemmas.Link
import Verif.Props.Link
import Verif.Model.Cargo
import Verif.Props.CargoSpec
import Verif.Lemmas.Cargo
import Verif.Props.Cargo
import Verif.Model.Server
import Verif.Props.ServerSpec
import Verif.Lemmas.Server
import Verif.Props.Server
import Verif.Model.CrateIndex
import Verif.Lemmas.CrateIndex
import Verif.Props.CrateIndex
import Verif.Model.Json
import Verif.Lemmas.Json
import Verif.Model.Messages
import Verif.Lemmas.Messages
import Verif.Props.Messages
import Verif.Props.Security
import Verif.Model.Report
import Verif.Model.Screen
import Verif.Props.Report
import Verif.Props.Screen
import Verif.Model.Fixes
import Verif.Lemmas.Fixes
import Verif.Props.Fixes
import Verif.Props.FixTitles
import Verif.Props.Setup
import Verif.Model.Output
import Verif.Model.Shown
import Verif.Props.Output
import Verif.Props.Shown
import Verif.Model.Std
import Verif.Props.Std
import Verif.Model.UsageList
import Verif.Props.FixEffects
import Verif.Props.UiReach
import Verif.Props.UiComments
import Verif.Lemmas.LegacyTypes
import Verif.Props.LegacyTypes
import Verif.Model.RustcErrors
import Verif.Props.RustcErrors
import Verif.Props.LookThrough
import Verif.Model.ConfigFile
import Verif.Props.ConfigFile
import Verif.Props.RootPath
import Verif.Props.DeadCode
import Verif.Props.RunBefore
import Verif.Model.ReadFiles
import Verif.Props.ReadFiles
import Verif.Props.ReportText
import Verif.Props.ReportOrder
import Verif.Props.SummaryText
import Verif.Props.Help
import Verif.Props.Places
import Verif.Props.ShowDiff
import Verif.Props.NewVersion
import Verif.Props.Options
import Verif.Props.Popup
import Verif.Props.SandboxWarn
import Verif.Props.UnusedConfig
import Verif.Props.UnusedApis
import Verif.Props.OffTree
import Verif.Props.UiErrors
import Verif.Props.UiLife
import Verif.Props.SandboxTrust
import Verif.Props.RustcEnd
import Verif.Props.Settled
import Verif.Props.ExportAccepted
import Verif.Props.Edition
import Verif.Props.Toolchain
import Verif.Props.Compiled
import Verif.Props.Settings
import Verif.Props.Comments
import Verif.Props.FileNames
import Verif.Model.Links
import Verif.Props.Links
import Verif.Props.BuildDir
import Verif.Props.Products
import Verif.Props.Compilers
import Verif.Props.Forged
import Verif.Model.Invalid
import Verif.Props.Invalid
import Verif.Props.ExportsAsked
import Verif.Props.KeptFile
import Verif.Props.FirstFile
import Verif.Props.TreeRead
import Verif.Props.OfferedEdits
import Verif.Props.All
import Verif.Audit
