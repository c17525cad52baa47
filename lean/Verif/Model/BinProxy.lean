import Verif.Model.Sandbox

/-!
# Model of `proxy_binary` (`src/proxy/subprocess.rs`): running a wrapped build script, test or other binary

One `Attempt` collects what the outside world contributes to one iteration of the loop. The result is the
list of things done, in order, and how the wrapper ends.
-/

namespace Cackle.BinProxy
open Cackle Config Perm Sandboxing

/-- `enum Outcome` (outcome.rs:8-12). -/
inductive Outcome where
  | continue | giveUp
deriving DecidableEq, Repr

/-- What a program did: exit code (`none`: killed by a signal) and standard output. -/
structure Output where
  code : Option Int
  stdout : Str
deriving DecidableEq

/-- Everything external that one iteration depends on. -/
structure Attempt where
  /-- Permissions in the flattened configuration (`none`: it cannot be read). -/
  config : Option PermMap
  world : World
  /-- What the program does (`none`: it could not be started). -/
  output : Option Output
  /-- The answer of the main process (`none`: the connection failed). -/
  answer : Option Outcome

/-- An action of the wrapper. -/
inductive Event where
  /-- The binary is run directly with these arguments. -/
  | ran (args : List Str)
  /-- `bwrap` is run with these arguments. -/
  | ranSandboxed (bwrapArgs : List Str)
  /-- The result is sent to the main process. -/
  | reported (code : Int) (stdout : Str)
  /-- Standard output is passed on to cargo. -/
  | printed (stdout : Str)
deriving DecidableEq

/-- How the wrapper ends. -/
inductive Exit where
  | exit (code : Int)
  | error
  | running
deriving DecidableEq

/-- `proxy_binary` (subprocess.rs:139-191). A program killed by a signal counts as -1 (outcome.rs:39-43 and
subprocess.rs:166). Without a sandbox the program inherits standard output, so what it prints goes
straight to cargo. -/
def proxyBinary (bin : Str) (crate : CrateSel) (args : List Str) : List Attempt → List Event × Exit
  | [] => ([], .running)
  | a :: rest =>
    match a.config with
    | none => ([], .error)
    | some perms =>
      match forPermSel a.world (sandboxFor perms (forNonBuildOutput crate)) bin with
      | none => ([], .error)
      | some none =>
        match a.output with
        | none => ([.ran (args ++ args)], .error)
        | some o => ([.ran (args ++ args), .printed o.stdout], .exit (o.code.getD (-1)))
      | some (some sandbox) =>
        match a.output with
        | none => ([.ranSandboxed (command sandbox [] bin args)], .error)
        | some o =>
          let evs := [Event.ranSandboxed (command sandbox [] bin args), .reported (o.code.getD (-1)) o.stdout]
          match a.answer with
          | none => (evs, .error)
          | some .giveUp => (evs, .exit (-1))
          | some .continue =>
            if o.code = some 0 then (evs ++ [.printed o.stdout], .exit 0)
            else (evs ++ (proxyBinary bin crate args rest).1, (proxyBinary bin crate args rest).2)

end Cackle.BinProxy
