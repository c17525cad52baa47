import Verif.Model.ProblemsUi
import Verif.Model.Editor
import Verif.Model.BuiltIn

/-!
# Model of `src/ui/basic_term.rs`: the line-based user interface

What is printed is left out, except that the question being asked is part of the state. The edits of the config file and
the parser and printer of TOML are the parameters `Ui.Env`, those for the first config file are `Setup`; `setup` is the real
one. The modification time of the config file is a number that is different after each write (the code compares time stamps of
the file system). Writing to standard output does not fail. The store and the checker are shared with other threads, which
may report problems and reload the config between two steps.
-/

namespace Cackle.Basic
open Cackle Store
open Cackle.Ui (EditM Env openFile)
open Cackle.Toml (Entries)

/-! ## Answers -/

/-- White space that `str::trim` removes, as far as ASCII is concerned. -/
def isSpace (c : Char) : Bool := c = ' ' || c = '\t' || c = '\n' || c = '\r' || c = '\x0b' || c = '\x0c'

/-- `str::trim`. -/
def trim (s : Str) : Str := ((s.dropWhile isSpace).reverse.dropWhile isSpace).reverse

/-- `str::to_lowercase` for ASCII. Other characters are kept; none of them has a lower-case form that matters here. -/
def lower (s : Str) : Str := s.map (fun c => if 'A' ≤ c ∧ c ≤ 'Z' then Char.ofNat (c.toNat + 32) else c)

/-- The digits of `usize::from_str`, most significant first. -/
def parseDigits : Nat → Str → Option Nat
  | n, [] => some n
  | n, c :: cs => if '0' ≤ c ∧ c ≤ '9' then parseDigits (10 * n + (c.toNat - '0'.toNat)) cs else none

/-- The optional plus sign of `usize::from_str`. -/
def stripPlus : Str → Str
  | '+' :: ds => ds
  | ds => ds

/-- `str::parse::<usize>` on a 64-bit machine: an optional plus sign, digits, no overflow. -/
def parseUsize (s : Str) : Option Nat :=
  if stripPlus s = [] then none
  else (parseDigits 0 (stripPlus s)).bind (fun n => if n < 2 ^ 64 then some n else none)

/-- `fix_index` (basic_term.rs:241-247). -/
def fixIndex (s : Str) (numFixes : Nat) : Option Nat :=
  (parseUsize s).bind (fun n => if n < 1 ∨ n > numFixes then none else some (n - 1))

/-- The answers to a prompt (`enum Action`, basic_term.rs:249-254, without the two that are not typed). -/
inductive Action where
  | applyFix (n : Nat)
  | showDiff (n : Nat)

/-- What a line typed at the prompt means (basic_term.rs:197, 211-215); `none` is an invalid answer. -/
def action (line : Str) (numFixes : Nat) : Option Action :=
  match trim (lower line) with
  | 'd' :: rest => (fixIndex rest numFixes).map .showDiff
  | response => (fixIndex response numFixes).map .applyFix

/-! ## The first config file -/

/-- What `create_initial_config` uses of other modules: the document that the questions start from (`none`: an
error), the names of the built-in APIs, and `toggle_std_import`. -/
structure Setup (E : Type) where
  start : Option E
  builtIn : Str → Bool
  toggle : Str → E → Option E

/-- Going through the names typed by the user (basic_term.rs:131-142): the editor and whether all names were known;
`none` is an error. -/
def toggleAll (su : Setup E) : List Str → E → Option (E × Bool)
  | [], e => some (e, true)
  | part :: parts, e =>
    if trim part = [] then toggleAll su parts e
    else if su.builtIn (trim part) then (su.toggle (trim part) e).bind (toggleAll su parts)
    else (toggleAll su parts e).map (fun r => (r.1, false))

/-- One answer to the question which APIs to restrict (basic_term.rs:131-142). -/
def choose (su : Setup E) (line : Str) (e : E) : Option (E × Bool) := toggleAll su (splitChar ',' (trim line)) e

/-- `set_sandbox_kind` (config_editor.rs:274-283); that the chosen kind works was found out just before. -/
def setSandboxKind (bubblewrap : Bool) (doc : Entries) : Option Entries :=
  Editor.withTable (Editor.setValue (str! "kind") (.str (if bubblewrap then str! "Bubblewrap" else str! "Disabled")))
    [str! "sandbox"] doc

/-- The real parameters (basic_term.rs:109-121): an empty document with the latest version and the available sandbox
(`bubblewrap`: whether it is installed). -/
def setup (bubblewrap : Bool) : Setup Entries :=
  { start := (Editor.setVersion Config.maxVersion []).bind (setSandboxKind bubblewrap)
    builtIn := fun a => (Config.builtIns.get? a).isSome
    toggle := Editor.toggleStdImport }

/-! ## The thread -/

/-- Where the thread is: waiting for an event (`idle`), waiting for an answer about the problem `id`, for which `fixes`
were printed, waiting for the names of the APIs to restrict, waiting for the confirmation of the first config file,
returned (`ended`), returned with an error (`failed`), or panicked (`crashed`). -/
inductive Phase (E : Type) where
  | idle
  | asking (id : Nat) (fixes : List (EditM E))
  | choosing (id : Nat) (e : E)
  | confirming (id : Nat) (e : E)
  | ended
  | failed
  | crashed

/-- `struct BasicTermUi` (basic_term.rs:34-39) with the store, the config file (`none`: it does not exist) and the loaded
config that it refers to. `last` is `config_last_modified`, `mtime` the modification time of the file, `clock` is larger than all
times seen, `received` counts the events taken from the channel. -/
structure State (F E C : Type) where
  phase : Phase E := .idle
  store : Store.State := {}
  file : Option F
  config : C
  clock : Nat := 1
  mtime : Option Nat
  last : Option Nat
  received : Nat := 0

/-- The state after `new` (basic_term.rs:98-105). -/
def State.new (file : Option F) (c : C) : State F E C :=
  { file := file, config := c, mtime := file.map (fun _ => 0), last := file.map (fun _ => 0) }

/-- The head of the inner loop (basic_term.rs:53-84): take the first problem and ask what to do about it. -/
def look (env : Env F E C) (su : Setup E) (s : State F E C) : State F E C :=
  match live s.store with
  | [] => { s with phase := .idle }
  | (id, .missingConfiguration _) :: _ =>
    match su.start with
    | none => { s with phase := .crashed }
    | some e => { s with phase := .choosing id e }
  | (id, p) :: _ => { s with phase := .asking id (env.fixes s.config p) }

/-- The problem is resolved and the loop continues (basic_term.rs:62, 67, 87, 91). -/
def finish (env : Env F E C) (su : Setup E) (s : State F E C) (id : Nat) : State F E C :=
  match resolve s.store id with
  | none => { s with phase := .crashed }
  | some (st, _) => look env su { s with store := st }

/-- The file has been written with `write_atomic`, and its modification time remembered (basic_term.rs:151-152, 162-163). -/
def written (s : State F E C) (f : F) : State F E C :=
  { s with file := some f, mtime := some s.clock, last := some s.clock, clock := s.clock + 1 }

/-- An error leaves `run` (basic_term.rs:85). -/
def fail (s : State F E C) : State F E C := { s with phase := .failed }

/-- A panic: `todo!()` for an error of `create_initial_config` (basic_term.rs:65). -/
def crash (s : State F E C) : State F E C := { s with phase := .crashed }

/-- `Action::ApplyFix` (basic_term.rs:159-165); `w` is whether the file can be written. `fixes[n]` is in bounds. -/
def applyFix (env : Env F E C) (su : Setup E) (w : Bool) (s : State F E C) (id : Nat) (fixes : List (EditM E)) (n : Nat) :
    State F E C :=
  match fixes[n]? with
  | none => crash s
  | some ed =>
    match openFile env s.file with
    | none => fail s
    | some e =>
      if (ed.apply none e).2 && w then finish env su (written s (env.print (ed.apply none e).1)) id else fail s

/-- `Action::ShowDiff` (basic_term.rs:166-177): asks again, unless there is an error. -/
def showDiff (env : Env F E C) (s : State F E C) (fixes : List (EditM E)) (n : Nat) : State F E C :=
  match fixes[n]? with
  | none => crash s
  | some ed =>
    match openFile env s.file with
    | none => fail s
    | some e => if (ed.apply none e).2 && s.file.isSome then s else fail s

/-- What the thread receives: an event of the application, a line from standard input, the time-out of 250
milliseconds, or the end of standard input. -/
inductive Input where
  | added
  | shutdown
  | line (l : Str)
  | tick
  | eof

/-- The thread goes on until it waits again (basic_term.rs:42-94, 127-154, 156-216). Lines are read only at a prompt, events
only while there is no problem; the config file is looked at only at the prompt about a problem. -/
def step (env : Env F E C) (su : Setup E) (w : Bool) (s : State F E C) : Input → State F E C
  | .added =>
    match s.phase with
    | .idle => look env su { s with received := s.received + 1 }
    | _ => s
  | .shutdown =>
    match s.phase with
    | .idle => { s with phase := .ended }
    | _ => s
  | .line l =>
    match s.phase with
    | .asking id fixes =>
      match action l fixes.length with
      | none => s
      | some (.applyFix n) => applyFix env su w s id fixes n
      | some (.showDiff n) => showDiff env s fixes n
    | .choosing id e =>
      match choose su l e with
      | none => crash s
      | some (e, true) => { s with phase := .confirming id e }
      | some (e, false) => { s with phase := .choosing id e }
    | .confirming id e => if w then finish env su (written s (env.print e)) id else crash s
    | _ => s
  | .tick =>
    match s.phase with
    | .asking id _ => if s.last ≠ s.mtime then finish env su { s with last := s.mtime } id else s
    | _ => s
  | .eof =>
    match s.phase with
    | .asking _ _ => look env su s
    | .choosing _ _ => crash s
    | .confirming _ _ => crash s
    | _ => s

/-! ## Executions -/

/-- What can happen: the thread receives something (`w`: whether the config file can be written), another thread reports
problems, another thread reloads the config, or somebody else changes the config file. -/
inductive Act (F C : Type) where
  | input (w : Bool) (i : Input)
  | report (ps : List Problem)
  | reload (c : C)
  | touch (f : Option F)

/-- One thing happens. `none` is a panic of another thread. -/
def act (env : Env F E C) (su : Setup E) (s : State F E C) : Act F C → Option (State F E C)
  | .input w i => some (step env su w s i)
  | .report ps => (add s.store ps).map (fun r => { s with store := r.1 })
  | .reload c => some { s with config := c }
  | .touch f => some { s with file := f, mtime := f.map (fun _ => s.clock), clock := s.clock + 1 }

/-- An event is received only if it was sent; nobody reports an empty list of problems (problem_store.rs:43-46). -/
def Act.Possible (s : State F E C) : Act F C → Prop
  | .input _ .added => s.received < s.store.events
  | .report ps => ps ≠ []
  | _ => True

/-- All states that can be reached, with what happened and the states in which it happened (latest first). -/
inductive Exec (env : Env F E C) (su : Setup E) : State F E C → List (State F E C × Act F C) → Prop where
  | init (file : Option F) (c : C) : Exec env su (State.new file c) []
  | step {s s' : State F E C} {tr : List (State F E C × Act F C)} (a : Act F C) :
      Exec env su s tr → a.Possible s → act env su s a = some s' → Exec env su s' ((s, a) :: tr)

end Cackle.Basic
