import Verif.Model.Checker

/-!
# Model of the request handlers (`src/main.rs`) running concurrently over one checker

Each request of a subprocess is served by its own thread (proxy.rs:178-194). A thread holds the
checker's mutex during one call of `Checker::handle_request` or `load_config`, and blocks in
`fix_problems` in between, so one such call is one step of the system. When a blocked thread is answered
is decided by the problem store and the user (see `Model/Store.lean`); here it may be answered at any
time with either answer, and the configuration file has any contents at that time.
-/

namespace Cackle.Checker
open Cackle Config Perm

/-- `enum Request` (rpc.rs:82-103) and the request-less initial check (main.rs:411-413). -/
inductive Request where
  | initial
  | crateUsesUnsafe (crate : CrateSel) (locations : List SourceLoc)
  | crateUsesExtern (crate : CrateSel) (locations : List SourceLoc)
  | linkerInvoked (li : LinkInfo)
  | binExecutionComplete (crate : CrateSel) (exitCode : Int) (output : Str)
  | rustcComplete (crate : CrateSel) (paths : List PathC)
  | rustcStarted (crate : CrateSel)

/-- The parts of the checker that are modelled elsewhere: scanning of linked objects
(symbol_graph.rs:112-239) and the build script report (build_script_checker.rs:17-66). -/
structure Parts where
  scan : State → LinkInfo → Option ScanOut
  report : Raw → CrateSel → Str → Option (List Problem)

/-- `Checker::handle_request` (checker.rs:232-289): the new state and, unless it failed, the new cache of
the handler and the problems found. -/
def handleRequest (P : Parts) (c : State) (req : Request) (cache : Option ScanOut) :
    State × Option (Option ScanOut × List Problem) :=
  match req with
  | .initial => (c, some (cache, baseProblems c))
  | .crateUsesUnsafe crate locs => (c, some (cache, [.disallowedUnsafe crate locs]))
  | .crateUsesExtern crate locs => (c, some (cache, [.disallowedExtern crate locs]))
  | .linkerInvoked li => ({ c with outstanding := c.outstanding ++ [li] }, some (cache, []))
  | .binExecutionComplete crate code output =>
    if code ≠ 0 then (c, some (cache, [.executionFailed crate output]))
    else if crate.kind = .buildScript then
      (c, (P.report c.cfg crate output).map (fun ps => (cache, ps)))
    else (c, some (cache, []))
  | .rustcComplete crate paths => rustcComplete P.scan c crate paths cache
  | .rustcStarted _ => (c, some (cache, []))

/-- Where a handler thread is in `RequestHandler::handle_request` (main.rs:577-606). -/
inductive Status where
  | running
  | waiting (returnOnRetry : Bool)
  | finished (o : Outcome)
  | failed
deriving DecidableEq

/-- `struct RequestHandler` (main.rs:569-574) with its `CheckState` (main.rs:564-567). -/
structure Handler where
  req : Request
  cache : Option ScanOut := none
  status : Status := .running

/-- One call of `handle_request` and what the thread does next (main.rs:578-589). -/
def Handler.check (P : Parts) (c : State) (h : Handler) : State × Handler :=
  match handleRequest P c h.req h.cache with
  | (c', none) => (c', { h with status := .failed })
  | (c', some (cache, ps)) =>
    (c', { h with
      cache := cache
      status := if ps = [] then .finished .continue_ else .waiting (shouldSendRetryAll ps) })

/-- What the thread does after `fix_problems` returned `Continue` (main.rs:590-599); `cfg` is the result
of parsing the config file. -/
def Handler.resume (c : State) (h : Handler) (retry : Bool) (cfg : Option Raw) : State × Handler :=
  match cfg with
  | none => (c, { h with status := .failed })
  | some cfg =>
    (updateConfig c cfg, { h with status := if retry then .finished .continue_ else .running })

/-- The checker and all handler threads. -/
structure Sys where
  checker : State
  handlers : List Handler := []

end Cackle.Checker
