import Verif.Model.Main
import Verif.Model.Report

/-!
# The choice of the user interface (`src/ui.rs`), and what a run prints (`src/main.rs`, `src/ui/null_ui.rs`)

Left out: colours (`src/colour.rs`), what cargo prints (`Model/Output.lean`), and the two options for debugging
`--print-timing` and `--debug`.
-/

namespace Cackle.Options
open Cackle Store

/-- `enum Kind` (ui.rs:24-32), with the feature `ui`. -/
inductive Kind where
  | none | basic | full
deriving DecidableEq

/-- `enum Command` (main.rs:182-196) without the hidden command. -/
inductive Command where
  | summary | test | run
deriving DecidableEq

/-- The options that matter here (main.rs:82-180). -/
structure Args where
  failOnWarnings : Bool := false
  quiet : Bool := false
  replayRequests : Bool := false
  ui : Option Kind := Option.none
  noUi : Bool := false
  autoAcceptFixes : Bool := false
  printPathToCrateMap : Bool := false
  command : Option Command := Option.none
deriving DecidableEq

/-- `Args::ui_kind` (ui.rs:91-104); `tty` is whether the standard output is a terminal. -/
def Args.uiKind (a : Args) (tty : Bool) : Kind :=
  if a.noUi then .none
  else
    match a.ui with
    | some k => k
    | Option.none => if tty then .full else .none

/-- `Args::should_capture_cargo_output` (ui.rs:87-89). -/
def Args.captures (a : Args) (tty : Bool) : Bool := a.uiKind tty ≠ .none

/-- The user interface that was started, with what it knows of the options. -/
inductive Ui where
  | null (a : NullUi.Args)
  | basic
  | full

/-- `start_ui` (ui.rs:42-84): only `NullUi` gets the options (null_ui.rs:30-43, basic_term.rs:29-38,
full_term.rs:44-57). -/
def startUi (a : Args) (tty : Bool) : Ui :=
  match a.uiKind tty with
  | .none => .null { failOnWarnings := a.failOnWarnings, hasCommand := a.command.isSome,
                     autoAccept := a.autoAcceptFixes }
  | .basic => .basic
  | .full => .full

/-- Something that is printed. -/
inductive Line where
  | blank
  | warning (p : Problem)
  | error (p : Problem)
  | uiError (e : Str)
  | failed (e : Str)
  | configError (e : Str)
  | pathMap
  | completed (path : Str)
  | summary
deriving DecidableEq

/-- The loop that prints the problems (null_ui.rs:103-132); `has` is `has_errors`. -/
def problemLines (a : NullUi.Args) : List Problem → Bool → List Line
  | [], _ => []
  | p :: ps, has =>
    if a.hasCommand = true ∧ p.severity = .warning then problemLines a ps has
    else
      match (if a.failOnWarnings then Problem.Severity.error else p.severity) with
      | .warning => .warning p :: problemLines a ps has
      | .error => (if has then [] else [.blank]) ++ .error p :: problemLines a ps true

/-- What is printed while a `ProblemsAdded` event is handled (null_ui.rs:95-148). -/
def eventLines {F E : Type} (ed : NullUi.Edits F E) (a : NullUi.Args) (s : State) (f : F) : List Line :=
  if a.autoAccept then
    match NullUi.acceptAll ed s f with
    | some (s', some _) => problemLines a ((live s').map Prod.snd) false
    | _ => []
  else problemLines a ((live s).map Prod.snd) false

/-- The texts that the end of the run prints. -/
structure Texts where
  error : Str := []
  uiError : Str := []
  configError : Str := []
  configPath : Str := []

/-- `should_run_cargo_clean` (main.rs:459-461). -/
def Args.full (a : Args) : Bool := !a.replayRequests && a.command.isNone

/-- `print_summary` (main.rs:346-355); `loads` is whether the config file can be loaded. -/
def printSummary (loads : Bool) (t : Texts) : List Line × Bool :=
  if loads then ([.summary], true) else ([.configError t.configError], false)

/-- The end of `run_and_report_errors` (main.rs:314-343) for what `run` gave. -/
def report (a : Args) (r : Option Bool) (uiError : Bool) (t : Texts) : List Line × Bool :=
  if uiError then ([.uiError t.uiError], false)
  else
    ((if r = Option.none then [.blank, .failed t.error] else []) ++
      (if a.printPathToCrateMap then [.pathMap] else []) ++
      (if r = some true ∧ a.quiet = false ∧ a.command = Option.none then [.completed t.configPath, .summary] else []),
     r.getD false)

/-- `run_and_report_errors` (main.rs:302-344): what is printed at the end, and whether the exit status is
success. -/
def finish (a : Args) (p : Main.Phases) (loads : Bool) (t : Texts) : List Line × Bool :=
  if a.command = some .summary then printSummary loads t
  else report a (Main.run a.full p) p.uiError t

end Cackle.Options
