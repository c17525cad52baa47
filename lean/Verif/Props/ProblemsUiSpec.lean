import Verif.Model.ProblemsUi
import Verif.Props.StoreSpec

/-!
# Specification vocabulary for C85 to C92: the full-screen user interface

Which edits are offered, what accepting them should do, and which keys the user presses for it.
-/

namespace Cackle.Ui
open Cackle Store

variable {F E C : Type}

/-- Some offered edit of the problem, other than those that are meant to do nothing, changes nothing. -/
def Settled (env : Env F E C) (c : C) (e : E) (p : Problem) : Prop :=
  ∃ ed ∈ env.fixes c p, ed.resolveIfEmpty = true ∧ (ed.apply none e).2 = true ∧
    env.print (ed.apply none e).1 = env.print e

/-- The edit that auto-accept applies for a problem. -/
def single (env : Env F E C) (c : C) (p : Problem) : Option (EditM E) :=
  match env.fixes c p with
  | [ed] => some ed
  | _ => none

/-- Applying an edit without a comment. -/
def EditM.run (ed : EditM E) (e : E) : Option E := if (ed.apply none e).2 then some (ed.apply none e).1 else none

/-- The edits that auto-accept applies: those of the problems that have exactly one, in the order of the problems. -/
def singles (env : Env F E C) (c : C) (s : Store.State) : List (EditM E) :=
  (live s).filterMap (fun x => single env c x.2)

/-- Applying edits without a comment, one after the other. -/
def runAll : List (EditM E) → E → Option E
  | [], e => some e
  | ed :: eds, e => (ed.run e).bind (runAll eds)

/-- The keys that write the config file: accepting the highlighted edit, or confirming auto-accept. -/
def Writes (s : State F C) (k : Key) : Prop :=
  (s.modes.head? = some .selectEdit ∧ (k = .char ' ' ∨ k = .char 'f' ∨ k = .enter)) ∨
  (s.modes.head? = some .promptAutoAccept ∧ k = .enter)

/-- No edit asks the user to solve the same problem again (config_editor.rs:481-488, 511-515: the only edits with
replacements are those for a missing configuration, and they lead to other kinds of problems). -/
def Env.Sane (env : Env F E C) : Prop :=
  ∀ c p, ∀ ed ∈ env.fixes c p, ∀ r ∈ ed.repl, ¬ p.Same r

/-- What accepting an edit does to the store. -/
structure Accepted (env : Env F E C) (c : C) (e : E) (id : Nat) (repl : List Problem) (s s' : Store.State) : Prop where
  /-- The problem is gone. -/
  gone : Dead s' id
  /-- The other problems stay (possibly with more usages), unless one of their edits has become empty. -/
  others : ∀ j q, (j, q) ∈ live s → j ≠ id → ∃ q', Grown q q' ∧
    (Settled env c e q' → Dead s' j) ∧ (¬ Settled env c e q' → (j, q') ∈ live s')
  /-- The follow-up problems are there, unless one of their edits is empty. -/
  follow : ∀ r ∈ repl, ∃ j q, Grown r q ∧ (Settled env c e q → Dead s' j) ∧ (¬ Settled env c e q → (j, q) ∈ live s')
  /-- Nothing else is there. -/
  only : ∀ j q, (j, q) ∈ live s' →
    (j ≠ id ∧ ∃ p0, (j, p0) ∈ live s ∧ Grown p0 q) ∨ ∃ r ∈ repl, r.Same q
  aborted : s'.aborted = s.aborted
  events : s'.events = s.events

/-- The length of the list in which the arrow keys move. -/
def listLength (env : Env F E C) (s : State F C) : Option Nat :=
  match s.modes.head? with
  | some .selectProblem => some (live s.store).length
  | some .selectEdit => some (match (live s.store)[s.problemIndex]? with
      | some (_, p) => (env.fixes s.config p).length
      | none => 0)
  | some .selectUsage => some (match (live s.store)[s.problemIndex]? with
      | some (_, p) => numUsages p
      | none => 0)
  | some (.backtrace n) => some n
  | _ => none

/-- The user has confirmed auto-accept: Enter was pressed while the question was shown. -/
def Confirmed (tr : List (Sys F C × Act F C)) : Prop :=
  ∃ x w, (x, .iter w (.key .enter)) ∈ tr ∧ x.ui.modes.head? = some .promptAutoAccept ∧ x.error = false

/-- The loop runs and no error is shown: the next key goes to the screen with the problems. -/
def Listening (x : Sys F C) : Prop := x.started = true ∧ x.ended = false ∧ x.error = false

/-- The keys that accept the highlighted edit. -/
def Accepts (k : Key) : Prop := k = .char ' ' ∨ k = .char 'f' ∨ k = .enter

/-- The edits of the highlighted problem. -/
def offered (env : Env F E C) (s : State F C) : List (EditM E) :=
  match (live s.store)[s.problemIndex]? with
  | some (_, p) => env.fixes s.config p
  | none => []

/-- No other thread and no other program has done anything. -/
def Alone : Act F C → Prop
  | .iter .. => True
  | _ => False

end Cackle.Ui
