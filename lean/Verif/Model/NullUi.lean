import Verif.Model.Store

/-!
# Model of `src/ui/null_ui.rs`

Edits of the config file are modelled in `Model/Editor.lean`; here they are parameters (`Edits`): the
first edit offered for a problem, opening the config file for editing and writing it. All loops of the
UI thread run with the mutex of the problem store held (null_ui.rs:96), so handling one event is one
step. Printing and the signal that kills cargo are left out.
-/

namespace Cackle.NullUi
open Cackle Store

/-- The command line arguments that `NullUi` looks at. -/
structure Args where
  failOnWarnings : Bool := false
  hasCommand : Bool := false
  autoAccept : Bool := false

/-- What the UI needs of config_editor.rs and of the file system: `first` is the first element of
`fixes_for_problem` (config_editor.rs:66-150) with its `apply`, `open_` is `ConfigEditor::from_file`,
`write` is `write_atomic` of `to_toml`. `none` is an error. -/
structure Edits (F E : Type) where
  first : Problem → Option (E → Option E)
  open_ : F → Option E
  write : F → E → Option F

/-- Whether the loop of `run` treats the problem as an error (null_ui.rs:104-130). -/
def countsAsError (a : Args) (p : Problem) : Bool :=
  if a.hasCommand ∧ p.severity = .warning then false
  else if a.failOnWarnings then true
  else p.severity = .error

/-- The loop that resolves everything (null_ui.rs:136-146). -/
def resolveAll : Nat → State → Option State
  | 0, _ => none
  | n + 1, s =>
    match live s with
    | [] => some s
    | (id, _) :: _ =>
      match resolve s id with
      | none => none
      | some (s', _) => resolveAll n s'

/-- Reporting of the live problems (null_ui.rs:103-147). -/
def report (a : Args) (s : State) : Option State :=
  if (live s).any (fun e => countsAsError a e.2) then some (abort s)
  else resolveAll (s.problems.length + 1) s

/-- `first_sensible_edit` (null_ui.rs:70-82). -/
def firstEdit {F E : Type} (ed : Edits F E) (s : State) : Option (Nat × (E → Option E)) :=
  (live s).findSome? (fun e => (ed.first e.2).map (fun ap => (e.1, ap)))

/-- The loop of `accept_all_single_edits` (null_ui.rs:50-60): the store, and the editor with the number
of applied edits unless an edit failed. -/
def acceptLoop {F E : Type} (ed : Edits F E) : Nat → State → E → Nat → Option (State × Option (E × Nat))
  | 0, _, _, _ => none
  | n + 1, s, e, k =>
    match firstEdit ed s with
    | none => some (s, some (e, k))
    | some (id, ap) =>
      match ap e with
      | none => some (s, none)
      | some e' =>
        match resolve s id with
        | none => none
        | some (s', _) => acceptLoop ed n s' e' (k + 1)

/-- Writing the edited file at the end of `accept_all_single_edits` (null_ui.rs:62-68). -/
def finishAccept {F E : Type} (ed : Edits F E) (f : F) : State × Option (E × Nat) → State × Option F
  | (s, none) => (s, none)
  | (s, some (e, k)) => (s, if k > 0 then ed.write f e else some f)

/-- `accept_all_single_edits` (null_ui.rs:45-70): the store, and the file unless there was an error. -/
def acceptAll {F E : Type} (ed : Edits F E) (s : State) (f : F) : Option (State × Option F) :=
  match ed.open_ f with
  | none => some (s, none)
  | some e => (acceptLoop ed (s.problems.length + 1) s e 0).map (finishAccept ed f)

/-- Handling of one `ProblemsAdded` event (null_ui.rs:95-148): the new store and, unless the UI thread
ended with an error, the config file. -/
def onProblemsAdded {F E : Type} (ed : Edits F E) (a : Args) (s : State) (f : F) :
    Option (State × Option F) :=
  if a.autoAccept then
    match acceptAll ed s f with
    | none => none
    | some (s', none) => some (s', none)
    | some (s', some f') => (report a s').map (fun s'' => (s'', some f'))
  else (report a s).map (fun s' => (s', some f))

/-- The problem store, the config file and the UI thread: `pending` is the number of events not yet
received, `alive` whether the thread is still running. -/
structure Sys (F : Type) where
  store : State := {}
  file : F
  alive : Bool := true
  pending : Nat := 0

end Cackle.NullUi
