import Verif.Model.Store

/-!
# Model of `src/ui/full_term.rs` and `src/ui/full_term/problems_ui.rs`: the full-screen user interface

Drawing is left out, except for what is highlighted. The edits of the config file are modelled in
`Model/Editor.lean`; here they are parameters (`Env`), as are the parser and printer of TOML, the text input
widget (`tui_input`) and backtraces. `F` is the text of the config file, `E` an open `ConfigEditor`, `C` a loaded
`Config`. The key handler runs on the UI thread only; between two of its steps other threads may add problems to the store and
reload the config. A panic is the result `none`.
-/

namespace Cackle.Ui
open Cackle Store

/-- The key codes that are told apart (`crossterm::event::KeyCode`); modifiers are ignored by the code. -/
inductive Key where
  | up
  | down
  | esc
  | enter
  | char (c : Char)
  | other (n : Nat)
deriving DecidableEq

/-- `enum Mode` (problems_ui.rs:76-86). Of a backtrace only the number of frames matters. -/
inductive Mode where
  | selectProblem
  | selectEdit
  | selectUsage
  | setComment (input : Str)
  | backtrace (frames : Nat)
  | promptAutoAccept
  | packageTree
  | internalDiagnostics
  | help
deriving DecidableEq

/-- `trait Edit` (config_editor.rs:34-55): `apply` gets the comment of `EditOpts` and returns the editor it leaves behind and
whether it succeeded; `repl` is `replacement_problems`, `resolveIfEmpty` is `resolve_problem_if_edit_is_empty`. -/
structure EditM (E : Type) where
  apply : Option Str → E → E × Bool
  repl : List Problem
  resolveIfEmpty : Bool

/-- What the user interface uses of other modules: `fixes` is `fixes_for_problem` (config_editor.rs:66-150), `parse` is
`ConfigEditor::from_toml_string`, `blank` the text used for a file that cannot be read (config_editor.rs:153-155),
`print` is `to_toml`, `mentions` whether a text contains the given string, `typed` what a key
does to the text input, `frames` the number of frames of the backtrace of the n-th usage of a problem (`none`: an error). -/
structure Env (F E C : Type) where
  fixes : C → Problem → List (EditM E)
  parse : F → Option E
  blank : F
  print : E → F
  mentions : F → Str → Bool
  typed : Key → Str → Str
  frames : Problem → Nat → Option Nat

/-- `struct ProblemsUi` (problems_ui.rs:59-73) with the store, the config file (`none`: it does not exist) and the
loaded config that it refers to. The mode stack has its last element first. -/
structure State (F C : Type) where
  modes : List Mode := [.selectProblem]
  problemIndex : Nat := 0
  editIndex : Nat := 0
  usageIndex : Nat := 0
  backtraceIndex : Nat := 0
  acceptSingle : Bool := false
  showDetails : Bool := true
  comment : Option Str := none
  previous : List Str := []
  store : Store.State := {}
  file : Option F
  config : C

/-- `update_counter` (full_term.rs:255-261): with `len = 0` the remainder panics. -/
def updateCounter (counter : Nat) (key : Key) (len : Nat) : Option Nat :=
  if len = 0 then none
  else match key with
    | .up => some ((counter + len - 1) % len)
    | .down => some ((counter + len + 1) % len)
    | _ => none

variable {F E C : Type}

/-- The selected problem: `deduplicated_into_iter().nth(problem_index)`. -/
def State.selected (s : State F C) : Option (Nat × Problem) := (live s.store)[s.problemIndex]?

/-- `edits_for_problem` (problems_ui.rs:914-923) for the selected problem (`edits`, problems_ui.rs:465-468). -/
def State.edits (env : Env F E C) (s : State F C) : List (EditM E) :=
  match s.selected with
  | none => []
  | some (_, p) => env.fixes s.config p

/-- The number of elements of `usages_for_problem` (problems_ui.rs:925-964). -/
def numUsages : Problem → Nat
  | .disallowedApiUsage u => u.usages.length
  | .offTreeApiUsage u _ => u.usages.length
  | .disallowedUnsafe _ locations => locations.length
  | .disallowedExtern _ locations => locations.length
  | _ => 0

/-- `usages().len()` (problems_ui.rs:470-476). -/
def State.usages (s : State F C) : Nat :=
  match s.selected with
  | none => 0
  | some (_, p) => numUsages p

/-- `ProblemStore::len` (problem_store.rs:135-137). -/
def storeLen (s : Store.State) : Nat := (s.problems.filter Option.isSome).length

/-- `ConfigEditor::from_file` (config_editor.rs:153-156). -/
def openFile (env : Env F E C) (file : Option F) : Option E := env.parse (file.getD env.blank)

variable [DecidableEq F]

/-- Whether an edit, applied without a comment, changes nothing (problem_store.rs:97-104). -/
def EditM.isEmpty (env : Env F E C) (ed : EditM E) (e : E) : Bool :=
  ed.resolveIfEmpty && (ed.apply none e).2 && decide (env.print (ed.apply none e).1 = env.print e)

/-- Resolving problems one after the other (problem_store.rs:119-121). -/
def resolveList : Store.State → List Nat → Option Store.State
  | s, [] => some s
  | s, id :: ids =>
    match resolve s id with
    | none => none
    | some (s', _) => resolveList s' ids

/-- The problems that `resolve_problems_with_empty_diff` resolves (problem_store.rs:93-113). -/
def emptyIds (env : Env F E C) (c : C) (e : E) (s : Store.State) : List Nat :=
  ((live s).filter (fun x => (env.fixes c x.2).any (fun ed => ed.isEmpty env e))).map Prod.fst

/-- `resolve_problems_with_empty_diff` (problem_store.rs:88-122). -/
def resolveEmpty (env : Env F E C) (c : C) (e : E) (s : Store.State) : Option Store.State :=
  resolveList s (emptyIds env c e s).reverse

/-- `apply_selected_edit` (problems_ui.rs:569-593); `w` is whether the file can be written. The flag of the result is whether
there was an error. -/
def applySelected (env : Env F E C) (w : Bool) (s : State F C) : Option (State F C × Bool) :=
  match (s.edits env)[s.editIndex]? with
  | none => some (s, false)
  | some ed =>
    match openFile env s.file with
    | none => some (s, true)
    | some e =>
      if (ed.apply s.comment e).2 then
        if w then
          match s.selected with
          | none => (resolveEmpty env s.config (ed.apply s.comment e).1 s.store).map
              (fun st => ({ s with file := some (env.print (ed.apply s.comment e).1), store := st }, false))
          | some (id, _) =>
            match replace s.store id ed.repl with
            | none => none
            | some (st, _) => (resolveEmpty env s.config (ed.apply s.comment e).1 st).map
                (fun st => ({ s with file := some (env.print (ed.apply s.comment e).1), store := st }, false))
        else some (s, true)
      else some (s, true)

/-- `PLACEHOLDER_COMMENT` (problems_ui.rs:605). -/
def placeholder : Str := str! "CACKLE PLACEHOLDER COMMENT"

/-- `current_edit_supports_comments` (problems_ui.rs:595-613). -/
def supportsComments (env : Env F E C) (s : State F C) : Bool :=
  match (s.edits env)[s.editIndex]? with
  | none => false
  | some ed =>
    match openFile env s.file with
    | none => false
    | some e => env.mentions (env.print (ed.apply (some placeholder) e).1) placeholder

/-- `first_single_edit` (problems_ui.rs:337-351). -/
def firstSingle (env : Env F E C) (c : C) (s : Store.State) : Option (Nat × EditM E) :=
  (live s).findSome? (fun x => match env.fixes c x.2 with
    | [ed] => some (x.1, ed)
    | _ => none)

/-- The loop of `accept_all_single_edits` (problems_ui.rs:356-359): the store, and the editor unless an edit failed. `none`
is a panic or lack of fuel. -/
def acceptLoop (env : Env F E C) (c : C) : Nat → Store.State → E → Option (Store.State × Option E)
  | 0, _, _ => none
  | n + 1, s, e =>
    match firstSingle env c s with
    | none => some (s, some e)
    | some (id, ed) =>
      if (ed.apply none e).2 then
        match resolve s id with
        | none => none
        | some (s', _) => acceptLoop env c n s' (ed.apply none e).1
      else some (s, none)

/-- `accept_all_single_edits` (problems_ui.rs:336-362). -/
def acceptAll (env : Env F E C) (w : Bool) (s : State F C) : Option (State F C × Bool) :=
  match openFile env s.file with
  | none => some (s, true)
  | some e =>
    match acceptLoop env s.config (s.store.problems.length + 1) s.store e with
    | none => none
    | some (st, none) => some ({ s with store := st }, true)
    | some (st, some e') =>
      if w then some ({ s with store := st, file := some (env.print e') }, false)
      else some ({ s with store := st }, true)

/-- `problems_added` (problems_ui.rs:329-334). -/
def problemsAdded (env : Env F E C) (w : Bool) (s : State F C) : Option (State F C × Bool) :=
  if s.acceptSingle then acceptAll env w s else some (s, false)

/-- The loop of `enter_usage_mode` (problems_ui.rs:294-296); `none` means that it does not end. -/
def dropToProblems : List Mode → Option (List Mode)
  | [] => none
  | .selectProblem :: ms => some (.selectProblem :: ms)
  | _ :: ms => dropToProblems ms

/-- `enter_edit_mode` (problems_ui.rs:301-304). -/
def enterEdit (s : State F C) : State F C := { s with modes := .selectEdit :: s.modes, editIndex := 0 }

/-- Going back and forth in the comments entered so far (problems_ui.rs:159-175). -/
def recall (previous : List Str) (key : Key) (input : Str) : Str :=
  let index := previous.findIdx (fun p => p = input)
  let index := match key with
    | .up => index - 1
    | _ => index + 1
  (previous[index]?).getD []

/-- Leaving the comment input with Enter (problems_ui.rs:176-189). -/
def setComment (s : State F C) (input : Str) : State F C :=
  let s := { s with modes := s.modes.tail }
  if input = [] then { s with comment := none }
  else if s.previous.getLast? = some input then { s with comment := some input }
  else { s with comment := some input, previous := s.previous.filter (fun p => p ≠ input) ++ [input] }

/-- Result of a key that cannot fail. -/
def ok (s : State F C) : Option (State F C × Bool) := some (s, false)

/-- The keys of the comment input (problems_ui.rs:156-192). -/
def commentKey (env : Env F E C) (s : State F C) (input : Str) : Key → State F C
  | .esc => { s with modes := s.modes.tail }
  | .up => { s with modes := .setComment (recall s.previous .up input) :: s.modes.tail }
  | .down => { s with modes := .setComment (recall s.previous .down input) :: s.modes.tail }
  | .enter => setComment s input
  | k => { s with modes := .setComment (env.typed k input) :: s.modes.tail }

/-- The keys that mean the same everywhere (problems_ui.rs:276-288). -/
def generalKey (s : State F C) (mode : Mode) (key : Key) : State F C :=
  if key = .char 'p' then { s with showDetails := !s.showDetails }
  else if key = .char 'h' ∨ key = .char '?' then
    (if mode = .help then { s with modes := s.modes.tail } else { s with modes := .help :: s.modes })
  else if key = .esc then (if s.modes.length ≥ 2 then { s with modes := s.modes.tail } else s)
  else s

/-- Accepting the selected edit (problems_ui.rs:252-259). -/
def acceptKey (env : Env F E C) (w : Bool) (s : State F C) : Option (State F C × Bool) :=
  match applySelected env w s with
  | none => none
  | some (s, true) => some (s, true)
  | some (s, false) =>
    ok { s with comment := none
                problemIndex := if s.problemIndex ≥ storeLen s.store then 0 else s.problemIndex
                modes := s.modes.tail }

/-- `d` on a problem or an edit (problems_ui.rs:218-223, 293-299). -/
def detailsKey (s : State F C) : Option (State F C × Bool) :=
  if s.usages = 0 then some (s, true)
  else (dropToProblems s.modes).map (fun ms => ({ s with modes := .selectUsage :: ms, usageIndex := 0 }, false))

/-- `b` on a usage (problems_ui.rs:245-248, 674-688). -/
def backtraceKey (env : Env F E C) (s : State F C) : State F C × Bool :=
  match s.selected with
  | none => ({ s with backtraceIndex := 0 }, true)
  | some (_, p) =>
    match (if s.usageIndex < numUsages p then env.frames p s.usageIndex else none) with
    | none => ({ s with backtraceIndex := 0 }, true)
    | some n => ({ s with backtraceIndex := 0, modes := .backtrace n :: s.modes }, false)

/-- Confirming auto-accept (problems_ui.rs:271-275). -/
def confirmKey (env : Env F E C) (w : Bool) (s : State F C) : Option (State F C × Bool) :=
  match acceptAll env w { s with acceptSingle := true } with
  | none => none
  | some (s, true) => some (s, true)
  | some (s, false) => ok { s with modes := s.modes.tail }

/-- `handle_key` (problems_ui.rs:151-291). -/
def handleKey (env : Env F E C) (w : Bool) (s : State F C) (key : Key) : Option (State F C × Bool) :=
  match s.modes with
  | [] => ok s
  | mode :: _ =>
    match mode with
    | .setComment input => ok (commentKey env s input key)
    | mode =>
      if key = .char 'q' then ok { s with modes := [] }
      else match mode, key with
        | .selectProblem, .up => (updateCounter s.problemIndex .up (storeLen s.store)).map
            (fun i => ({ s with problemIndex := i }, false))
        | .selectProblem, .down => (updateCounter s.problemIndex .down (storeLen s.store)).map
            (fun i => ({ s with problemIndex := i }, false))
        | .selectEdit, .up => (updateCounter s.editIndex .up (s.edits env).length).map
            (fun i => ({ s with editIndex := i }, false))
        | .selectEdit, .down => (updateCounter s.editIndex .down (s.edits env).length).map
            (fun i => ({ s with editIndex := i }, false))
        | .selectUsage, .up => (updateCounter s.usageIndex .up s.usages).map
            (fun i => ({ s with usageIndex := i }, false))
        | .selectUsage, .down => (updateCounter s.usageIndex .down s.usages).map
            (fun i => ({ s with usageIndex := i }, false))
        | .backtrace n, .up => (updateCounter s.backtraceIndex .up n).map
            (fun i => ({ s with backtraceIndex := i }, false))
        | .backtrace n, .down => (updateCounter s.backtraceIndex .down n).map
            (fun i => ({ s with backtraceIndex := i }, false))
        | .selectProblem, .char 'f' =>
          if (s.edits env).length = 0 then some (s, true) else ok (enterEdit s)
        | .selectProblem, .char 'd' => detailsKey s
        | .selectEdit, .char 'd' => detailsKey s
        | .selectProblem, .char 't' => ok { s with modes := .packageTree :: s.modes }
        | .packageTree, _ => ok { s with modes := s.modes.tail }
        | .selectUsage, .char 'd' => ok { s with modes := s.modes.tail }
        | .selectUsage, .char 'i' => ok { s with modes := .internalDiagnostics :: s.modes }
        | .internalDiagnostics, .char 'i' => ok { s with modes := s.modes.tail }
        | .selectUsage, .char 'f' => ok (enterEdit { s with modes := s.modes.tail })
        | .selectUsage, .char 'b' => some (backtraceKey env s)
        | .backtrace _, .char 'b' => ok { s with modes := s.modes.tail }
        | .backtrace _, .char 'd' => ok { s with modes := s.modes.tail }
        | .selectEdit, .char ' ' => acceptKey env w s
        | .selectEdit, .char 'f' => acceptKey env w s
        | .selectEdit, .enter => acceptKey env w s
        | .selectEdit, .char 'c' =>
          if supportsComments env s then ok { s with modes := .setComment (s.comment.getD []) :: s.modes }
          else some (s, true)
        | .selectProblem, .char 'a' =>
          if s.acceptSingle then ok s else ok { s with modes := .promptAutoAccept :: s.modes }
        | .promptAutoAccept, .enter => confirmKey env w s
        | _, _ => ok (generalKey s mode key)

/-! ## The loop of `FullTermUi::run` -/

/-- The user interface thread: `started` is whether it has received its first event and draws, `received` the number of
`ProblemsAdded` events it has taken from the channel, `error` whether an error is being shown, `killed` whether cargo was
told to stop, `ended` whether the thread has returned, `redraw` is `needs_redraw`, `shown` the state when the screen was
last drawn. -/
structure Sys (F C : Type) where
  ui : State F C
  started : Bool := false
  received : Nat := 0
  error : Bool := false
  killed : Bool := false
  ended : Bool := false
  redraw : Bool := true
  shown : Option (State F C) := none

/-- What the loop receives (full_term.rs:128-162): an event of the application, a key, or nothing before the time-out. -/
inductive Input where
  | added
  | shutdown
  | key (k : Key)
  | nothing

/-- Waiting for the first event (full_term.rs:98-101); keys are not read yet. -/
def start (x : Sys F C) : Input → Sys F C
  | .added => { x with started := true, received := x.received + 1 }
  | .shutdown => { x with ended := true }
  | _ => x

/-- The first part of an iteration (full_term.rs:104-113): if the user has quit, cargo is told to stop and the store is
aborted. -/
def checkQuit (x : Sys F C) : Sys F C :=
  if x.ui.modes.isEmpty then { x with killed := true, ui := { x.ui with store := abort x.ui.store } } else x

/-- Drawing the screen if something has happened (full_term.rs:114-127). -/
def draw (x : Sys F C) : Sys F C := if x.redraw then { x with shown := some x.ui, redraw := false } else x

/-- An error popup swallows the key, except that `q` aborts (full_term.rs:149-156). -/
def dismiss (x : Sys F C) (k : Key) : Sys F C :=
  { x with error := false
           redraw := true
           ui := if k = .char 'q' then { x.ui with store := abort x.ui.store } else x.ui }

/-- The last part (full_term.rs:128-162). -/
def receive (env : Env F E C) (w : Bool) (x : Sys F C) : Input → Option (Sys F C)
  | .added => (problemsAdded env w x.ui).map
      (fun r => { x with ui := r.1, received := x.received + 1, error := x.error || r.2, redraw := true })
  | .shutdown => some { x with ended := true }
  | .key k =>
    if x.error then some (dismiss x k)
    else (handleKey env w x.ui k).map (fun r => { x with ui := r.1, error := r.2, redraw := true })
  | .nothing => some x

/-- One iteration of the loop (full_term.rs:98-163). -/
def iterate (env : Env F E C) (w : Bool) (x : Sys F C) (i : Input) : Option (Sys F C) :=
  if x.ended then some x
  else if x.started then receive env w (draw (checkQuit x)) i
  else some (start x i)

/-- What can happen: an iteration of the loop (`w`: whether the config file can be written), another thread reports
problems, another thread reloads the config, or somebody else changes the config file. -/
inductive Act (F C : Type) where
  | iter (w : Bool) (i : Input)
  | report (ps : List Problem)
  | reload (c : C)
  | touch (f : Option F)

/-- One thing happens; `none` is a panic. -/
def act (env : Env F E C) (x : Sys F C) : Act F C → Option (Sys F C)
  | .iter w i => iterate env w x i
  | .report ps => (add x.ui.store ps).map (fun r => { x with ui := { x.ui with store := r.1 } })
  | .reload c => some { x with ui := { x.ui with config := c } }
  | .touch f => some { x with ui := { x.ui with file := f } }

/-- An event is received only if it was sent; nobody reports an empty list of problems (problem_store.rs:43-46). -/
def Act.Possible (x : Sys F C) : Act F C → Prop
  | .iter _ .added => x.received < x.ui.store.events
  | .report ps => ps ≠ []
  | _ => True

/-- All states that can be reached, with what happened and the states in which it happened (latest first). -/
inductive Exec (env : Env F E C) : Sys F C → List (Sys F C × Act F C) → Prop where
  | init (file : Option F) (c : C) : Exec env { ui := { file := file, config := c } } []
  | step {x x' : Sys F C} {tr : List (Sys F C × Act F C)} (a : Act F C) :
      Exec env x tr → a.Possible x → act env x a = some x' → Exec env x' ((x, a) :: tr)

end Cackle.Ui
