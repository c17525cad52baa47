import Verif.Model.Link

/-!
# Specification vocabulary for C101 to C104: linking and wrappers
-/

namespace Cackle.Link
open Cackle Perm Identity

/-- The argument names an object file or a Rust library. -/
def NamesObject (arg : Str) : Prop :=
  ∃ dir base ext, arg = dir ++ base ++ str! "." ++ ext ∧ (ext = str! "o" ∨ ext = str! "rlib") ∧
    (dir = [] ∨ ∃ d, dir = d ++ ['/']) ∧ base ≠ [] ∧ '/' ∉ base

/-- The file is really in the directory or below. -/
def Inside (dir p : PathC) : Prop := ∃ rest, p = dir ++ rest

/-- The arguments as the linker sees them: `@file` stands for the arguments in the file. -/
def expand (response : Str → List Str) : List Str → List Str
  | [] => []
  | ('@' :: f) :: rest => response f ++ expand response rest
  | a :: rest => a :: expand response rest

/-! ## The part of bash that the script uses -/

/-- A character that stands for itself outside of quotes. -/
def plain (c : Char) : Prop :=
  c.isAlphanum = true ∨ c = '/' ∨ c = '-' ∨ c = '_' ∨ c = '.' ∨ c = ':' ∨ c = '+' ∨ c = ',' ∨ c = '='

instance : DecidablePred plain := fun c => by unfold plain; infer_instance

/-- A character that may be part of the name of a variable. -/
def nameChar (c : Char) : Bool := c.isAlphanum || c = '_'

/-- The name at the start of the text. -/
def varName (s : Str) : Str := s.takeWhile nameChar

/-- Reading a simple command. `q` is whether we are between double quotes, `w` is the word so far (`none`: between words).
The whole word `"$@"` stands for the arguments `xs` of the script, `$name` for a variable. `none`: something else happens.
The first argument bounds the number of characters. -/
def bashWords (xs : List Str) (vars : Str → Str) : Nat → Bool → Option Str → Str → Option (List Str)
  | 0, _, _, _ => none
  | _ + 1, q, w, [] => if q then none else some w.toList
  | n + 1, q, w, c :: s =>
    if q then
      if c = '"' then bashWords xs vars n false w s
      else if c = '$' then
        if s.take 2 = ['@', '"'] ∧ w = some [] then
          (bashWords xs vars n false none (s.drop 2)).map (fun ws => xs ++ ws)
        else if varName s = [] then none
        else bashWords xs vars n true (w.map (· ++ vars (varName s))) (s.drop (varName s).length)
      else if c = '\\' then
        if s.head? = some '$' ∨ s.head? = some '`' ∨ s.head? = some '"' ∨ s.head? = some '\\' then
          bashWords xs vars n true (w.map (· ++ s.take 1)) (s.drop 1)
        else bashWords xs vars n true (w.map (· ++ [c])) s
      else if c = '`' then none
      else bashWords xs vars n true (w.map (· ++ [c])) s
    else
      if c = ' ' then (bashWords xs vars n false none s).map (fun ws => w.toList ++ ws)
      else if c = '"' then bashWords xs vars n true (some (w.getD [])) s
      else if plain c then bashWords xs vars n false (some (w.getD [] ++ [c])) s
      else none

/-- The words of a line. -/
def bashLine (xs : List Str) (vars : Str → Str) (line : Str) : Option (List Str) :=
  bashWords xs vars (line.length + 1) false none line

/-- What is between the prefix and the suffix. -/
def between (pre suf line : Str) : Option Str :=
  if pre.isPrefixOf line ∧ suf.isSuffixOf line ∧ pre.length + suf.length ≤ line.length then
    some ((line.drop pre.length).take (line.length - pre.length - suf.length))
  else none

/-- The command that bash runs for a script of the form `if [ -x … ]; then … else … fi`; `none` if it is something else. -/
def bashRuns (executable : Str → Bool) (vars : Str → Str) (text : Str) (xs : List Str) : Option (List Str) :=
  match splitChar '\n' text with
  | [l0, l1, l2, l3, l4, l5, l6] =>
    if l0 = str! "#!/bin/bash" ∧ l3 = str! "else" ∧ l5 = str! "fi" ∧ l6 = [] then
      match (between (str! "if [ -x ") (str! " ]; then") l1).bind (bashLine xs vars) with
      | some [f] => if executable f then bashLine xs vars l2 else bashLine xs vars l4
      | _ => none
    else none
  | _ => none

/-- A path that bash takes literally between double quotes. -/
def Literal (p : Str) : Prop := ∀ c ∈ p, c ≠ '"' ∧ c ≠ '$' ∧ c ≠ '`' ∧ c ≠ '\\' ∧ c ≠ '\n'

/-- What is done when a command is run: if it is cackle, its role, otherwise the program is run directly. -/
def commandRole (exe : Str) (env : AMap Str Str) : List Str → Option Role
  | [] => none
  | prog :: xs => some (if prog = exe then role env xs else .direct prog xs)

/-- The program that is run in the end (in a sandbox or not), and its arguments. -/
def Role.program : Role → Option (Str × List Str)
  | .bin _ prog xs => some (prog, xs)
  | .direct prog xs => some (prog, xs)
  | _ => none

end Cackle.Link
