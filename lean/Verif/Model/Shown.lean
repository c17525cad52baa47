import Verif.Model.Sandbox

/-!
# Model of how the command for a sandbox is shown (`CommandDisplay` of `src/sandbox/bubblewrap.rs`)

When a program fails in its sandbox, the problem that is reported contains the command (subprocess.rs:174-175,
problem.rs:413-415). Arguments are texts, so that `to_string_lossy` changes nothing. Which characters Rust's `{:?}` writes as
a number is a parameter.
-/

namespace Cackle.Shown
open Cackle

/-- `char::escape_debug` as `{:?}` uses it for a text: `special` are the characters that are not printable or that combine
with the one before. -/
def escapeChar (special : Char → Bool) (c : Char) : Str :=
  if c = '\x00' then ['\\', '0']
  else if c = '\t' then ['\\', 't']
  else if c = '\r' then ['\\', 'r']
  else if c = '\n' then ['\\', 'n']
  else if c = '\\' then ['\\', '\\']
  else if c = '"' then ['\\', '"']
  else if special c then ['\\', 'u', '{'] ++ Nat.toDigits 16 c.toNat ++ ['}']
  else [c]

/-- `{:?}` for a text. -/
def debug (special : Char → Bool) (s : Str) : Str := '"' :: (s.flatMap (escapeChar special) ++ ['"'])

/-- One argument (bubblewrap.rs:111-119). -/
def showArg (special : Char → Bool) (arg : Str) : Str :=
  if ' ' ∈ arg ∨ '"' ∈ arg ∨ arg = [] then debug special arg else arg

/-- `CommandDisplay::fmt` (bubblewrap.rs:107-123). -/
def showCommand (special : Char → Bool) (program : Str) (args : List Str) : Str :=
  program ++ args.flatMap (fun arg => ' ' :: showArg special arg)

/-- `Bubblewrap::display_to_run` (bubblewrap.rs:91-95), for the program `prog` in the sandbox with the arguments `sandbox`. -/
def displayToRun (special : Char → Bool) (sandbox : List Str) (vars : List (Str × Option Str)) (prog : Str)
    (progArgs : List Str) : Str :=
  showCommand special (str! "bwrap") (Sandboxing.command sandbox vars prog progArgs)

end Cackle.Shown
