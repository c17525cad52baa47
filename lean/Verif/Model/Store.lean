import Verif.Model.Problem

/-!
# Model of `src/problem_store.rs`

One call of a method of `ProblemStore` is one step: all of them run with the store's mutex held
(problem_store.rs:51-53). The channel created by the n-th call of `add` is represented by the number
n; `sent` is the log of all messages sent on these channels, `events` counts the `ProblemsAdded`
events sent to the user interface. A panic is the result `none`.
-/

namespace Cackle.Store
open Cackle

/-- `struct NotificationEntry` (problem_store.rs:202-205). `sender` is `Some` iff `isOpen`. -/
structure Entry where
  chan : Nat
  ids : List Nat
  isOpen : Bool

/-- `struct ProblemStore` (problem_store.rs:23-31) with the message log. -/
structure State where
  problems : List (Option Problem) := []
  entries : List Entry := []
  idByKey : AMap Problem Nat := []
  aborted : Bool := false
  nextChan : Nat := 0
  sent : List (Nat × Outcome) := []
  events : Nat := 0

/-- `add_problem` (problem_store.rs:177-199). -/
def addProblem (s : State) (p : Problem) : Option (State × Nat) :=
  match s.idByKey.get? p.dedupKey with
  | some id =>
    match s.problems[id]? with
    | some (some existing) =>
      if p ≠ existing then
        match existing.merge p with
        | some merged => some ({ s with problems := s.problems.set id (some merged) }, id)
        | none => none
      else some (s, id)
    | _ => none
  | none =>
    let id := s.problems.length
    some ({ s with idByKey := s.idByKey.insert p.dedupKey id
                   problems := s.problems ++ [some p] }, id)

/-- The loops over `add_problem` in `add` and `replace` (problem_store.rs:76-79, 150-154); the IDs are
returned in order. -/
def addProblems : State → List Problem → Option (State × List Nat)
  | s, [] => some (s, [])
  | s, p :: ps =>
    match addProblem s p with
    | none => none
    | some (s, id) =>
      match addProblems s ps with
      | none => none
      | some (s, ids) => some (s, id :: ids)

/-- `add` (problem_store.rs:70-86). -/
def add (s : State) (ps : List Problem) : Option (State × List Nat) :=
  if ps = [] then none
  else
    match addProblems s ps with
    | none => none
    | some (s, ids) =>
      some ({ s with entries := s.entries ++ [⟨s.nextChan, ids, true⟩]
                     nextChan := s.nextChan + 1
                     events := s.events + 1 }, ids)

/-- `NotificationEntry::replace_problem` (problem_store.rs:206-220): the new entry and whether
`Continue` was sent. -/
def Entry.replaceProblem (e : Entry) (id : Nat) (repl : List Nat) : Entry × Bool :=
  if id ∈ e.ids then
    let ids := repl.foldl (fun acc i => setInsert i acc) (setRemove id e.ids)
    if ids = [] ∧ e.isOpen then ({ e with ids := ids, isOpen := false }, true)
    else ({ e with ids := ids }, false)
  else (e, false)

/-- The loop over the notification entries in `replace` (problem_store.rs:155-157). -/
def notifyAll (id : Nat) (repl : List Nat) : List Entry → List Entry × List (Nat × Outcome)
  | [] => ([], [])
  | e :: rest =>
    let (e', b) := e.replaceProblem id repl
    let (rest', msgs) := notifyAll id repl rest
    (e' :: rest', if b then (e.chan, .continue_) :: msgs else msgs)

/-- `replace` (problem_store.rs:143-164). -/
def replace (s : State) (id : Nat) (repl : List Problem) : Option (State × List Nat) :=
  match s.problems[id]? with
  | some (some problem) =>
    match addProblems { s with problems := s.problems.set id none } repl with
    | none => none
    | some (s, ids) =>
      let (entries, msgs) := notifyAll id ids s.entries
      some ({ s with entries := entries
                     sent := s.sent ++ msgs
                     idByKey := s.idByKey.erase problem.dedupKey }, ids)
  | _ => none

/-- `resolve` (problem_store.rs:139-141). -/
def resolve (s : State) (id : Nat) : Option (State × List Nat) := replace s id []

/-- `abort` (problem_store.rs:166-173). -/
def abort (s : State) : State :=
  { s with entries := []
           sent := s.sent ++ (s.entries.filter (·.isOpen)).map (fun e => (e.chan, .giveUp))
           aborted := true }

/-- `deduplicated_into_iter` (problem_store.rs:124-129, 222-242): the live problems with their IDs. -/
def live (s : State) : List (Nat × Problem) :=
  s.problems.zipIdx.filterMap (fun (p, i) => p.map (fun p => (i, p)))

/-- An operation on the store. -/
inductive Op where
  | add (ps : List Problem)
  | replace (id : Nat) (repl : List Problem)
  | abort

/-- What happened: `added w ids`: waiter `w` was created for problems with these IDs;
`replaced id ids`: problem `id` was resolved and replaced by these. -/
inductive Ev where
  | added (w : Nat) (ids : List Nat)
  | replaced (id : Nat) (ids : List Nat)
  | aborted

/-- One operation. -/
def step (s : State) : Op → Option (State × Ev)
  | .add ps => (add s ps).map (fun r => (r.1, .added s.nextChan r.2))
  | .replace id repl => (replace s id repl).map (fun r => (r.1, .replaced id r.2))
  | .abort => some (abort s, .aborted)

/-- All states that can be reached without a panic, with what happened on the way (latest first). -/
inductive Run : State → List Ev → Prop where
  | init : Run {} []
  | step {s s' : State} {tr : List Ev} {ev : Ev} (op : Op) :
      Run s tr → step s op = some (s', ev) → Run s' (ev :: tr)

end Cackle.Store
