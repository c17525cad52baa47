import Verif.Model.Std

/-!
# Model of how cackle finds the compiler that it runs (`src/proxy.rs`)
-/

namespace Cackle.Toolchain
open Cackle

/-- How `rustup_rustc_path` ends. -/
inductive Found where
  | path (p : Str)
  | error
  | panic
deriving DecidableEq

/-- `rustup_rustc_path` (proxy.rs:247-261). `o` is the result of `rustup which rustc`, run in the current directory of cackle:
`none` if it cannot be started, otherwise whether it succeeded and what it printed (`none` if that is not UTF-8). -/
def rustupRustcPath (o : Option (Bool × Option Str)) (exists_ : Str → Bool) : Found :=
  match o with
  | none => .error
  | some (false, _) => .error
  | some (true, none) => .error
  | some (true, some out) => if exists_ (Basic.trim out) then .path (Basic.trim out) else .panic

/-- The compiler that the wrappers run (proxy.rs:146, 165; proxy/subprocess.rs:221-229, 317); `none` is the panic. -/
def rustcPath (o : Option (Bool × Option Str)) (exists_ : Str → Bool) : Option Str :=
  match rustupRustcPath o exists_ with
  | .path p => some p
  | .error => some (str! "rustc")
  | .panic => none

end Cackle.Toolchain
