import Verif.Model.Handlers

/-!
# Model of the loop that runs cargo and serves requests (`src/proxy.rs`)

The main thread, one thread per request, cargo and the programs that connect to the socket run concurrently. The main
thread is cut into steps between which others may act; a thread that handles a request is `Checker.Handler` followed by the
rest of `process_request`. Errors of the operating system (`try_wait`, spawning of threads) are left out. A process that has
been killed has ended. Passing on cargo's output is left out.
-/

namespace Cackle.Server
open Cackle Checker

/-- What a program has written to its connection: a request, or something else (also: the end of the connection). -/
inductive Message where
  | request (r : Request)
  | malformed

/-- A connection to the socket. `required` is whether cargo fails if the program that made it does: not so for a program
that is run by another one that ignores how it ends. `gone` is whether the program has closed it. -/
structure Conn where
  required : Bool
  message : Option Message := none
  answer : Option Outcome := none
  gone : Bool := false

/-- Where a thread is in `process_request` (proxy.rs:299-314) and what follows (proxy.rs:226-232). -/
inductive Stage where
  | handling
  | signalled
  | answered
  | writeFailed
  | done
deriving DecidableEq

/-- A thread that handles a request: its connection and its handler. -/
structure Thread where
  conn : Nat
  handler : Nat
  stage : Stage := .handling

/-- The result of `invoke_cargo_build`: success, the error of the thread with this number, cargo failed, or a request could
not be read. -/
inductive Result where
  | ok
  | error (thread : Nat)
  | status
  | malformed
deriving DecidableEq

/-- Where the main thread is in the loop (proxy.rs:198-237). -/
inductive Pc where
  | top
  | ending (code : Option Int)
  | checkAbort
  | accept
  | reading (conn : Nat)
  | returned (r : Result)
deriving DecidableEq

/-- Everything. `queue` are the connections that have not been accepted. `cargo` is `none` while it runs, otherwise its
`status.code()`. `aborts` is the number of messages in the abort channel, `errors` are the numbers of the threads whose
error is in the error channel. -/
structure State where
  sys : Sys
  conns : List Conn := []
  queue : List Nat := []
  threads : List Thread := []
  cargo : Option (Option Int) := none
  aborts : Nat := 0
  errors : List Nat := []
  pc : Pc := .top

/-- One step of the main thread (proxy.rs:198-237). It is blocked while it reads a request that has not been written. -/
def mainStep (s : State) : State :=
  match s.pc with
  | .top =>
    match s.cargo with
    | some code => { s with pc := .ending code }
    | none => { s with pc := .checkAbort }
  | .ending code =>
    match s.errors with
    | e :: _ => { s with pc := .returned (.error e) }
    | [] => if code = some 0 then { s with pc := .returned .ok } else { s with pc := .returned .status }
  | .checkAbort =>
    if s.aborts = 0 then { s with pc := .accept }
    else { s with aborts := s.aborts - 1, cargo := s.cargo.or (some none), pc := .accept }
  | .accept =>
    match s.queue with
    | [] => { s with pc := .top }
    | c :: q => { s with queue := q, pc := .reading c }
  | .reading c =>
    match s.conns[c]?.bind (·.message) with
    | none => s
    | some .malformed => { s with pc := .returned .malformed }
    | some (.request r) =>
      { s with sys := { s.sys with handlers := s.sys.handlers ++ [{ req := r }] }
               threads := s.threads ++ [{ conn := c, handler := s.sys.handlers.length }]
               pc := .top }
  | .returned _ => s

/-- What `handle_request` returned (`some none`: an error), if it has. -/
def resultOf : Status → Option (Option Outcome)
  | .finished o => some (some o)
  | .failed => some none
  | _ => none

/-- The result of the handler of a thread. -/
def threadResult (s : State) (t : Thread) : Option (Option Outcome) :=
  s.sys.handlers[t.handler]?.bind (fun h => resultOf h.status)

/-- Sending the abort signal (proxy.rs:304-310). -/
def signal (s : State) (j : Nat) (t : Thread) : State :=
  match threadResult s t with
  | none => s
  | some r =>
    { s with aborts := if r.getD .giveUp = .giveUp then s.aborts + 1 else s.aborts
             threads := s.threads.set j { t with stage := .signalled } }

/-- Writing the answer (proxy.rs:311). -/
def answer (s : State) (j : Nat) (t : Thread) : State :=
  match threadResult s t, s.conns[t.conn]? with
  | some r, some c =>
    if c.gone then { s with threads := s.threads.set j { t with stage := .writeFailed } }
    else { s with conns := s.conns.set t.conn { c with answer := some (r.getD .giveUp) }
                  threads := s.threads.set j { t with stage := .answered } }
  | _, _ => s

/-- Sending the error, if there is one (proxy.rs:227-231, 312). -/
def sendError (s : State) (j : Nat) (t : Thread) : State :=
  { s with errors := if t.stage = .writeFailed ∨ threadResult s t = some none then s.errors ++ [j] else s.errors
           threads := s.threads.set j { t with stage := .done } }

/-- One step of the thread with the number `j`, after its handler. -/
def threadStep (s : State) (j : Nat) : State :=
  match s.threads[j]? with
  | none => s
  | some t =>
    match t.stage with
    | .handling => signal s j t
    | .signalled => answer s j t
    | .answered => sendError s j t
    | .writeFailed => sendError s j t
    | .done => s

end Cackle.Server
