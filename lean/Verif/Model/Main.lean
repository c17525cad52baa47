import Verif.Model.Handlers
import Verif.Model.NullUi

/-!
# Model of `src/main.rs`: the handler loop with the non-interactive UI, and the phases of a run
-/

namespace Cackle.Main
open Cackle Config Checker

/-- `fix_problems` (problem_store.rs:43-49) in non-interactive mode without auto-accept: the problems are
added, the UI thread handles the event, the answer is received. No other request is being handled.
`none`: a panic, or no answer. -/
def fixProblems (a : NullUi.Args) (s : Store.State) (ps : List Problem) :
    Option (Store.State × Outcome) :=
  if ps = [] then some (s, .continue_)
  else
    match Store.add s ps with
    | none => none
    | some (s1, _) =>
      match NullUi.report a s1 with
      | none => none
      | some s2 => (s2.sent.find? (fun m => m.1 = s.nextChan)).map (fun m => (s2, m.2))

/-- How handling a request ended. -/
inductive Ended where
  | outcome (o : Outcome)
  | error
deriving DecidableEq

/-- `RequestHandler::handle_request` (main.rs:577-606) with the non-interactive UI; nobody edits the config
file, whose contents are `cfg`. `none`: not finished within the given number of rounds. -/
def handleLoop (P : Parts) (a : NullUi.Args) (cfg : Raw) (req : Request) :
    Nat → State → Store.State → Option ScanOut → Option Ended
  | 0, _, _, _ => none
  | n + 1, c, s, cache =>
    match handleRequest P c req cache with
    | (_, none) => some .error
    | (c', some (cache', ps)) =>
      if ps = [] then some (.outcome .continue_)
      else
        match fixProblems a s ps with
        | none => none
        | some (_, .giveUp) => some (.outcome .giveUp)
        | some (s', .continue_) =>
          if shouldSendRetryAll ps then some (.outcome .continue_)
          else handleLoop P a cfg req n (updateConfig c' cfg) s' cache'

/-- What the steps of `Cackle::run` (main.rs:357-457) and `run_and_report_errors` (main.rs:302-344)
returned; `Result::Err` is `false` or `none`. `cleanStatus` is the exit status of `cargo clean`
(`none`: it could not be started). `build` is the result of running cargo or of the replay.
`aborted` is `has_aborted` when it is read after the build (main.rs:434). -/
structure Phases where
  createConfig : Outcome
  load1 : Bool
  cleanStatus : Option Int
  newVersion : Outcome
  initial : Option Outcome
  unusedImports : Outcome
  load2 : Bool
  build : Bool
  aborted : Bool
  unused : Option (List Problem)
  unusedAnswer : Outcome
  uiError : Bool

/-- `proxy::clean` (proxy.rs:81-96): only a failure to start cargo is an error. -/
def cleanOk (status : Option Int) : Bool := status.isSome

/-- `Cackle::run` (main.rs:357-457); `full` is `should_run_cargo_clean` (main.rs:459-461). `none` is
`Err`, otherwise whether the exit code is `SUCCESS`. -/
def run (full : Bool) (p : Phases) : Option Bool :=
  if p.createConfig = .giveUp then some false
  else if ¬ p.load1 then none
  else if full ∧ ¬ cleanOk p.cleanStatus then none
  else
    match p.initial with
    | none => none
    | some o =>
      let initial := o.and p.unusedImports
      if ¬ p.load2 then none
      else
        let buildResult := if initial = .continue_ then p.build else true
        if p.aborted then some false
        else if ¬ buildResult then none
        else if full then
          match p.unused with
          | none => none
          | some _ => if p.unusedAnswer ≠ .continue_ then some false else some true
        else some true

/-- `run_and_report_errors` (main.rs:302-344): whether the exit code is `SUCCESS`. -/
def success (full : Bool) (p : Phases) : Bool :=
  if p.uiError then false
  else (run full p).getD false

end Cackle.Main
