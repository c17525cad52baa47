import Verif.Model.Server
import Verif.Props.Handlers

/-!
# Executions of the server (specification for C109 to C114)

What cargo and the programs that it runs do is specified here.
-/

namespace Cackle.Server
open Cackle Checker Config

/-- The program that sent the request fails unless it is told to continue (subprocess.rs:178-189, 274-312). The answer to the
other two is only waited for (subprocess.rs:207, 402). -/
def Respects : Request → Prop
  | .rustcStarted _ => False
  | .linkerInvoked _ => False
  | _ => True

/-- The program that made the connection got what it needs to end successfully. -/
def Content (c : Conn) : Prop :=
  ∃ r o, c.message = some (.request r) ∧ c.answer = some o ∧ (Respects r → o = .continue_)

/-- The main thread waits for a request to be written. -/
def Blocked (s : State) : Prop := ∃ c, s.pc = .reading c ∧ (s.conns[c]?.bind (·.message)) = none

/-- What others than the main thread do: a thread goes on after its handler, a handler examines its request, is told that its
problems are solved (`cfg`: the config file as it is then), or is told to give up; the config is loaded by the user interface; a program
connects, writes, or closes its connection; cargo ends; the user interface sends the abort signal. -/
inductive Act where
  | thread (j : Nat)
  | check (i : Nat)
  | resume (i : Nat) (cfg : Option Raw)
  | giveUp (i : Nat)
  | load (cfg : Raw)
  | connect (required : Bool)
  | send (c : Nat) (m : Message)
  | hangUp (c : Nat)
  | exit (code : Option Int)
  | quit

/-- What a handler does next: it examines its request, it was told that its problems are solved, or to give up. -/
inductive Told where
  | check
  | resume (cfg : Option Raw)
  | giveUp

/-- A step of a handler; nothing happens if it is not in the right state for it. -/
def handlerStep (P : Parts) (sys : Sys) (i : Nat) (a : Told) : Sys :=
  match sys.handlers[i]? with
  | none => sys
  | some h =>
    match h.status, a with
    | .running, .check =>
      { checker := (h.check P sys.checker).1, handlers := sys.handlers.set i (h.check P sys.checker).2 }
    | .waiting retry, .resume cfg =>
      { checker := (h.resume sys.checker retry cfg).1, handlers := sys.handlers.set i (h.resume sys.checker retry cfg).2 }
    | .waiting _, .giveUp => { sys with handlers := sys.handlers.set i { h with status := .finished .giveUp } }
    | _, _ => sys

/-- Changes a connection. -/
def onConn (s : State) (c : Nat) (f : Conn → Conn) : State :=
  match s.conns[c]? with
  | none => s
  | some x => { s with conns := s.conns.set c (f x) }

/-- One of these things happens. -/
def act (P : Parts) (s : State) : Act → State
  | .thread j => threadStep s j
  | .check i => { s with sys := handlerStep P s.sys i .check }
  | .resume i cfg => { s with sys := handlerStep P s.sys i (.resume cfg) }
  | .giveUp i => { s with sys := handlerStep P s.sys i .giveUp }
  | .load cfg => { s with sys := { s.sys with checker := updateConfig s.sys.checker cfg } }
  | .connect b => { s with conns := s.conns ++ [{ required := b }], queue := s.queue ++ [s.conns.length] }
  | .send c m => onConn s c (fun x => { x with message := x.message.or (some m) })
  | .hangUp c => onConn s c (fun x => { x with message := x.message.or (some .malformed), gone := true })
  | .exit code => { s with cargo := s.cargo.or (some code) }
  | .quit => { s with aborts := s.aborts + 1 }

/-- What can happen. Cargo ends successfully only when all programs that it needs have done so, and needs no other afterwards.
Nobody sends the request-less check. -/
def Act.Possible (s : State) : Act → Prop
  | .resume _ (some cfg) => cfg.packages.keys.Nodup
  | .load cfg => cfg.packages.keys.Nodup
  | .connect b => b = true → s.cargo ≠ some (some 0)
  | .send _ m => m ≠ .request .initial
  | .exit code => s.cargo = none ∧ (code = some 0 → ∀ c ∈ s.conns, c.required = true → Content c)
  | _ => True

/-- All executions from one state to another, with the number of steps of the main thread. -/
inductive Exec (P : Parts) : State → Nat → State → Prop where
  | refl (s : State) : Exec P s 0 s
  | main {s s' : State} {n : Nat} : Exec P s n s' → ¬ Blocked s' → Exec P s (n + 1) (mainStep s')
  | act {s s' : State} {n : Nat} (a : Act) : Exec P s n s' → a.Possible s' → Exec P s n (act P s' a)

/-- The main thread goes on by itself. -/
def mains : Nat → State → State
  | 0, s => s
  | n + 1, s => mains n (mainStep s)

/-- The thread with this number goes on by itself. -/
def threadSteps : Nat → Nat → State → State
  | 0, _, s => s
  | n + 1, j, s => threadSteps n j (threadStep s j)

end Cackle.Server
