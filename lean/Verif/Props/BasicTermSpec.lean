import Verif.Model.BasicTerm
import Verif.Props.StoreSpec

/-!
# Specification vocabulary for C95 to C100: the line-based user interface
-/

namespace Cackle.Basic
open Cackle Store
open Cackle.Ui (EditM Env openFile)

variable {F E C : Type}

/-- Somebody who reported problems has got an answer. -/
def Answered (s : State F E C) (w : Nat) : Prop := ∃ o, (w, o) ∈ s.store.sent

/-- The problem is that there is no config file. -/
def NoConfig (p : Problem) : Prop := ∃ path, p = .missingConfiguration path

/-- The thread is gone. -/
def Gone (s : State F E C) : Prop := s.phase = .ended ∨ s.phase = .failed ∨ s.phase = .crashed

/-- The number as the user types it. -/
def numeral (n : Nat) : Str := Nat.toDigits 10 n

/-- The characters that mean nothing at the ends of an answer. -/
def blanks : List Char := [' ', '\t', '\n', '\r', '\x0b', '\x0c']

/-- The line is the answer with blanks around it. -/
def Padded (answer line : Str) : Prop :=
  ∃ a b : Str, line = a ++ answer ++ b ∧ (∀ c ∈ a, c ∈ blanks) ∧ (∀ c ∈ b, c ∈ blanks)

/-- The value of a sequence of decimal digits. -/
def value (ds : Str) : Nat := ds.foldl (fun n c => 10 * n + (c.toNat - 48)) 0

/-- The line is a way to write the number. -/
def Denotes (line : Str) (n : Nat) : Prop :=
  ∃ plus ds, Padded (plus ++ ds) line ∧ (plus = [] ∨ plus = ['+']) ∧ ds ≠ [] ∧ (∀ c ∈ ds, '0' ≤ c ∧ c ≤ '9') ∧ value ds = n

/-- The edit can be applied to the config file. -/
def Applies (env : Env F E C) (file : Option F) (ed : EditM E) : Prop :=
  ∃ e, env.parse (file.getD env.blank) = some e ∧ (ed.apply none e).2 = true

/-- The user chose the `n`-th fix, counted from zero, for the problem `id`, and it was written to the file. -/
def Chose (env : Env F E C) (id n : Nat) (ed : EditM E) (s : State F E C) (a : Act F C) : Prop :=
  ∃ fixes l, s.phase = .asking id fixes ∧ a = .input true (.line l) ∧ action l fixes.length = some (.applyFix n) ∧
    fixes[n]? = some ed ∧ Applies env s.file ed

/-- The user confirmed the first config file. -/
def ConfirmedFirst (id : Nat) (e : E) (s : State F E C) (a : Act F C) : Prop :=
  ∃ l, s.phase = .confirming id e ∧ a = .input true (.line l)

/-- The thread noticed at the prompt about problem `id` that the config file has changed. -/
def Noticed (id : Nat) (s : State F E C) (a : Act F C) : Prop :=
  ∃ fixes w, s.phase = .asking id fixes ∧ a = .input w .tick ∧ s.last ≠ s.mtime

/-- Standard input has ended: no lines are read, and waiting for one ends at once instead of timing out. -/
def AfterEnd : Act F C → Prop
  | .input _ (.line _) => False
  | .input _ .tick => False
  | _ => True

/-- Several things happen. -/
inductive Acts (env : Env F E C) (su : Setup E) : State F E C → List (Act F C) → State F E C → Prop where
  | nil {s : State F E C} : Acts env su s [] s
  | cons {s s1 s2 : State F E C} {a : Act F C} {as : List (Act F C)} :
      a.Possible s → act env su s a = some s1 → Acts env su s1 as s2 → Acts env su s (a :: as) s2

/-- The edits of the first config file do not fail. -/
def Setup.Works (su : Setup E) : Prop :=
  ∃ P : E → Prop, (∃ e, su.start = some e ∧ P e) ∧
    ∀ e a, P e → su.builtIn a = true → ∃ e', su.toggle a e = some e' ∧ P e'

/-- A name without blanks at its ends and without commas. -/
def Clean (n : Str) : Prop :=
  ',' ∉ n ∧ (∀ c, n.head? = some c → c ∉ blanks) ∧ (∀ c, n.getLast? = some c → c ∉ blanks)

/-- The line lists these names, separated by commas and possibly surrounded by blanks. -/
def Lists (line : Str) (ns : List Str) : Prop :=
  ∃ ps : List (Str × Str), ns = ps.map Prod.fst ∧ line = joinWith [','] (ps.map Prod.snd) ∧
    ∀ x ∈ ps, Clean x.1 ∧ Padded x.1 x.2

/-- Several lines are typed one after the other. -/
def typeLines (env : Env F E C) (su : Setup E) (s : State F E C) (ls : List Str) : State F E C :=
  ls.foldl (fun s l => step env su true s (.line l)) s

end Cackle.Basic
