/-!
# Model of passing on cargo's output (`src/proxy.rs`, `src/ui/full_term.rs`, `src/main.rs`)

With a user interface, cargo's standard output and standard error are pipes (proxy.rs:174-177), each read by a thread that
writes what it reads to cackle's standard error. Cargo, the two threads, the thread of the user interface and the main
thread run concurrently; here they take turns. What cargo and the programs it runs write is given in advance for each of the
two pipes. Left out: that they wait for answers to their requests (which the user is assumed to give, without quitting),
that processes may keep a pipe open after cargo has ended, that reading or writing fails, and cackle's own messages.
Without a user interface (`--no-ui`, or no terminal) cargo's output is not captured and nothing of this exists
(ui.rs:85-101).
-/

namespace Cackle.Output

/-- A pipe with its reader: what will still be written to it, what is in it, what the thread has read and not yet written
(proxy.rs:276), and whether the thread has ended. -/
structure Chan where
  todo : List UInt8
  pipe : List UInt8 := []
  buf : List UInt8 := []
  ended : Bool := false

/-- The user interface: it has not shown anything yet, it has the screen, or it has ended. -/
inductive Ui where
  | idle
  | active
  | closed
deriving DecidableEq

/-- Where the main thread is: in `invoke_cargo_build` (proxy.rs:198-237), waiting for the user interface to end
(main.rs:314-315), waiting for the output (main.rs:319-321) or past that; `exited` when the process has ended, which also
ends all threads. -/
inductive Phase where
  | building
  | shutdown
  | joined
  | exited
deriving DecidableEq

/-- The system. The pipe `false` is standard output, `true` is standard error. `screen` is what has been written to
cackle's standard error: each byte with the pipe it came from. -/
structure State where
  chan : Bool → Chan
  cargoExited : Bool := false
  ui : Ui := .idle
  phase : Phase := .building
  screen : List (Bool × UInt8) := []

/-- What stays the same: the capacity of a pipe (65536 bytes with Linux), whether the user interface is the full-screen one
(ui.rs:89-101), and whether `invoke_cargo_build` succeeds. -/
structure Params where
  cap : Nat
  full : Bool
  ok : Bool

/-- The beginning, when cargo has been started (proxy.rs:178-193). -/
def init (out : Bool → List UInt8) : State := { chan := fun b => { todo := out b } }

/-- Changes one of the pipes. -/
def State.set (s : State) (b : Bool) (c : Chan) : State :=
  { s with chan := fun b' => if b' = b then c else s.chan b' }

/-- The steps. -/
inductive Act where
  | write (b : Bool) (n : Nat)
  | cargoExit
  | read (b : Bool) (n : Nat)
  | print (b : Bool)
  | eof (b : Bool)
  | uiOpen
  | uiClose
  | notice
  | join
  | finish

/-- Cargo writes `n` bytes to a pipe, which must have room for them. -/
def write (p : Params) (s : State) (b : Bool) (n : Nat) : Option State :=
  let c := s.chan b
  if 0 < n ∧ n ≤ c.todo.length ∧ c.pipe.length + n ≤ p.cap then
    some (s.set b { c with todo := c.todo.drop n, pipe := c.pipe ++ c.todo.take n })
  else none

/-- Cargo ends, after everything has been written. -/
def cargoExit (s : State) : Option State :=
  if s.cargoExited = false ∧ (s.chan false).todo = [] ∧ (s.chan true).todo = [] then
    some { s with cargoExited := true }
  else none

/-- A thread reads up to 64 bytes (proxy.rs:276-277); it does so only when it has written what it read before. -/
def read (s : State) (b : Bool) (n : Nat) : Option State :=
  let c := s.chan b
  if c.ended = false ∧ c.buf = [] ∧ 0 < n ∧ n ≤ 64 ∧ n ≤ c.pipe.length then
    some (s.set b { c with pipe := c.pipe.drop n, buf := c.pipe.take n })
  else none

/-- A thread writes what it has read to standard error, for which it needs the lock (proxy.rs:285). The full-screen
interface holds the lock while it has the screen (full_term.rs:62-79). -/
def print (s : State) (b : Bool) : Option State :=
  let c := s.chan b
  if c.buf ≠ [] ∧ s.ui ≠ .active then
    some { s.set b { c with buf := [] } with screen := s.screen ++ c.buf.map (fun x => (b, x)) }
  else none

/-- A thread sees that nothing more will come, and ends (proxy.rs:278-280). -/
def eof (s : State) (b : Bool) : Option State :=
  let c := s.chan b
  if c.ended = false ∧ c.buf = [] ∧ c.pipe = [] ∧ s.cargoExited = true then
    some (s.set b { c with ended := true })
  else none

/-- The full-screen interface takes the screen when it hears of the first problem (full_term.rs:93-97). The basic one
does not lock standard error. -/
def uiOpen (p : Params) (s : State) : Option State :=
  if p.full = true ∧ s.ui = .idle then some { s with ui := .active } else none

/-- The user interface ends when it is told to (full_term.rs:93-96, 135-138), which gives back the screen
(full_term.rs:168-176) and the lock. -/
def uiClose (s : State) : Option State :=
  if s.ui ≠ .closed ∧ s.phase = .shutdown then some { s with ui := .closed } else none

/-- The main thread sees that cargo has ended (proxy.rs:199-210), and with success or without it tells the user interface to
end (main.rs:307-314). -/
def notice (s : State) : Option State :=
  if s.phase = .building ∧ s.cargoExited = true then some { s with phase := .shutdown } else none

/-- The main thread has waited for the user interface (main.rs:315). -/
def join (s : State) : Option State :=
  if s.phase = .shutdown ∧ s.ui = .closed then some { s with phase := .joined } else none

/-- The process ends. Only if `invoke_cargo_build` succeeded is there something that waits for the output threads
(main.rs:426-431, 319-321, proxy.rs:262-273). -/
def finish (p : Params) (s : State) : Option State :=
  if s.phase = .joined ∧ (p.ok = true → (s.chan false).ended = true ∧ (s.chan true).ended = true) then
    some { s with phase := .exited }
  else none

/-- One step; nothing happens any more when the process has ended. -/
def next (p : Params) (a : Act) (s : State) : Option State :=
  if s.phase = .exited then none
  else match a with
    | .write b n => write p s b n
    | .cargoExit => cargoExit s
    | .read b n => read s b n
    | .print b => print s b
    | .eof b => eof s b
    | .uiOpen => uiOpen p s
    | .uiClose => uiClose s
    | .notice => notice s
    | .join => join s
    | .finish => finish p s

/-- A sequence of steps. -/
def run (p : Params) : List Act → State → Option State
  | [], s => some s
  | a :: as, s => match next p a s with
    | some s' => run p as s'
    | none => none

end Cackle.Output
