import Verif.Model.Screen
import Verif.Model.Report

/-!
# Model of the help, the parts of the screen and the details of a problem (`src/ui/full_term/problems_ui.rs`)

Titles, borders, sizes and colours are left out.
-/

namespace Cackle.Ui
open Cackle Store

variable {F C : Type}

/-- The keys listed for a mode only (`render_help`, problems_ui.rs:813-853), each with its description. -/
def modeHelp : Option Mode → List (Str × Str)
  | some .selectProblem =>
    [(str! "f", str! "Show available automatic fixes for this problem"),
      (str! "d", str! "Select and show details of each usage (API/unsafe/extern only)"),
      (str! "t", str! "Show tree of crate dependencies to this crate"),
      (str! "up", str! "Select previous problem"),
      (str! "down", str! "Select next problem"),
      (str! "a", str! "Enable auto-apply for problems with only one edit")]
  | some .selectEdit =>
    [(str! "space/enter/f", str! "Apply this edit"),
      (str! "d", str! "Jump to usage details (API/unsafe/extern only)"),
      (str! "c", str! "Add comment to edit (supported edits only)"),
      (str! "up", str! "Select previous edit"),
      (str! "down", str! "Select next edit"),
      (str! "esc", str! "Return to problem list")]
  | some .selectUsage =>
    [(str! "up", str! "Select previous usage"),
      (str! "down", str! "Select next usage"),
      (str! "b", str! "Show backtrace for this usage (API only)"),
      (str! "f", str! "Jump to edits for the current problem"),
      (str! "d/esc", str! "Return to problem list"),
      (str! "i", str! "Show internal diagnostics (requires --debug)")]
  | _ => []

/-- `keys` in `render_help` (problems_ui.rs:812-858). -/
def helpKeys (mode : Option Mode) : List (Str × Str) :=
  modeHelp mode ++
    [(str! "p", str! "Toggle display of package details"),
      (str! "q", str! "Quit"),
      (str! "h/?", str! "Show mode-specific help")]

/-- What is drawn (problems_ui.rs:94-144). -/
inductive Pane where
  | problems
  | details
  | packageDetails
  | editDetails
  | usageSource
  | usageDetails
  | backtraceSource
  | autoAccept
  | packageTree
  | internalDiagnostics
  | commentInput
  | help (keys : List (Str × Str))
deriving DecidableEq

/-- Drawing for one mode (problems_ui.rs:104-142); `ms` are all modes, `bottom` whether there is a third area, `previous` the mode
below. -/
def drawMode (ms : List Mode) (bottom : Bool) (previous : Option Mode) : Mode → List Pane
  | .selectProblem =>
    if ms.any (fun m => m = .selectEdit || m = .selectUsage) then []
    else .details :: (if bottom then [.packageDetails] else [])
  | .selectEdit => [.editDetails]
  | .selectUsage =>
    if ms.any (fun m => match m with
      | .backtrace _ => true
      | _ => false) then []
    else .usageSource :: (if bottom then [.usageDetails] else [])
  | .backtrace _ => [.backtraceSource]
  | .promptAutoAccept => [.autoAccept]
  | .packageTree => [.packageTree]
  | .internalDiagnostics => [.internalDiagnostics]
  | .setComment _ => [.commentInput]
  | .help => [.help (helpKeys previous)]

/-- The loop of `render` (problems_ui.rs:103-144), over the modes from the bottom of the stack. -/
def drawModes (ms : List Mode) (bottom : Bool) : Option Mode → List Mode → List Pane
  | _, [] => []
  | previous, m :: rest => drawMode ms bottom previous m ++ drawModes ms bottom (some m) rest

/-- `render` (problems_ui.rs:92-145): what is drawn, in this order. -/
def panes (s : State F C) : List Pane := .problems :: drawModes s.modes s.showDetails none s.modes.reverse

/-- `VERSIONS[n].change_notes` (versions.rs:25-63). -/
def changeNotes (n : Int) : Str :=
  if n = 2 then str! "rustc.sandbox.kind now inherits from sandbox.kind. So if you have a default sandbox configured, updating to version 2 or higher will mean that rustc will now be sandboxed."
  else if n = 3 then str! "Added field allow_extern"
  else []

/-- `problem_details` (problems_ui.rs:1063-1095). -/
def problemDetails (env : Report.Names) : Problem → Str
  | .disallowedUnsafe _ _ => str! "Press 'd' to see details of each usage"
  | .disallowedExtern _ _ => str! "Press 'd' to see details of each usage"
  | .disallowedApiUsage _ => str! "Press 'd' to see details of each usage"
  | .missingConfiguration _ => str! "This user interface can guide you through creating an initial cackle.toml. Press 'h' at any time to see what keys are available."
  | .offTreeApiUsage u r =>
    str! "Although " ++ Report.quote (Report.pkgText u.pkg) ++ str! " doesn't depend on " ++ Report.quote (Report.pkgText r) ++
      str! ", we found code that used the " ++ Report.quote u.api ++ str! " API. Most likely there's a generic parameter being used that allows access to this API, but which hasn't been declared as belonging to this API. It can also be due to a false-positive when a macro defines a symbol, then an inlined function references that symbol."
  | .newConfigVersionAvailable v =>
    str! "A newer config version " ++ Json.showInt v ++ str! " is available\n\n" ++ changeNotes v
  | p => Report.longText env p

/-- `render_details` (problems_ui.rs:443-463): nothing if the details are what the list already shows. -/
def shownDetails (env : Report.Names) (p : Problem) : Str :=
  if Report.shortText p = problemDetails env p then [] else problemDetails env p

end Cackle.Ui
