import Verif.Model.Sandbox

/-!
# What `bwrap` does with its arguments

`bwrap` is not part of the repository; this is its documented behaviour (bwrap(1)), as far as it is needed.
Options are processed from left to right, each taking a fixed number of arguments; the first argument that
is not an option, or the one after `--`, is the program. Mounts are made in the order given. Symbolic links
and `..` are not modelled, so a path is what its text says.
-/

namespace Cackle.Sandboxing
open Cackle

/-- An option with its arguments. -/
abbrev Op := Str × List Str

/-- Options without argument. -/
def arity0 : List Str :=
  [str! "--unshare-all", str! "--share-net", str! "--unshare-user", str! "--unshare-user-try",
   str! "--unshare-ipc", str! "--unshare-pid", str! "--unshare-net", str! "--unshare-uts",
   str! "--unshare-cgroup", str! "--unshare-cgroup-try", str! "--clearenv", str! "--new-session",
   str! "--die-with-parent", str! "--as-pid-1", str! "--disable-userns"]

/-- Options with one argument. -/
def arity1 : List Str :=
  [str! "--tmpfs", str! "--dev", str! "--proc", str! "--uid", str! "--gid", str! "--hostname",
   str! "--unsetenv", str! "--chdir", str! "--dir", str! "--mqueue", str! "--remount-ro",
   str! "--lock-file", str! "--sync-fd", str! "--cap-add", str! "--cap-drop", str! "--perms",
   str! "--size", str! "--seccomp"]

/-- Options with two arguments. -/
def arity2 : List Str :=
  [str! "--setenv", str! "--bind", str! "--bind-try", str! "--dev-bind", str! "--dev-bind-try",
   str! "--ro-bind", str! "--ro-bind-try", str! "--file", str! "--bind-data", str! "--ro-bind-data",
   str! "--symlink", str! "--chmod"]

/-- Number of arguments of an option. -/
def arity (o : Str) : Option Nat :=
  if o ∈ arity0 then some 0 else if o ∈ arity1 then some 1 else if o ∈ arity2 then some 2 else none

/-- Splits the arguments of `bwrap` into options and the command to run. -/
def parse : List Str → Option (List Op × List Str)
  | [] => some ([], [])
  | a :: rest =>
    if a = str! "--" then some ([], rest)
    else if a.head? ≠ some '-' then some ([], a :: rest)
    else
      match arity a with
      | none => none
      | some n =>
        if rest.length < n then none
        else (parse (rest.drop n)).map (fun r => ((a, rest.take n) :: r.1, r.2))
termination_by l => l.length
decreasing_by simp; omega

/-- Whether the network of the host is shared. -/
def netShared (ops : List Op) : Bool :=
  ops.foldl (fun s o =>
    if o.1 = str! "--share-net" then true
    else if o.1 = str! "--unshare-all" ∨ o.1 = str! "--unshare-net" then false
    else s) true

/-- Effect of an option on the environment. -/
def envStep (env : AMap Str Str) (o : Op) : AMap Str Str :=
  if o.1 = str! "--clearenv" then env.filter (fun e => e.1 = str! "PWD")
  else
    match o.2 with
    | [v] => if o.1 = str! "--unsetenv" then env.erase v else env
    | [v, x] => if o.1 = str! "--setenv" then env.insert v x else env
    | _ => env

/-- The environment of the program. -/
def envOf (host : AMap Str Str) (ops : List Op) : AMap Str Str := ops.foldl envStep host

/-- What a path in the sandbox shows: nothing of the host, or a path of the host, writable or not. -/
abbrev View := Option (Bool × PathC)

/-- Effect of an option on what is visible at path `p`. `present` tells which paths exist on the host. -/
def viewStep (present : Str → Bool) (p : PathC) (v : View) (o : Op) : View :=
  match o.2 with
  | [d] =>
    if (o.1 = str! "--tmpfs" ∨ o.1 = str! "--dev" ∨ o.1 = str! "--proc") ∧ pathOf d <+: p then none else v
  | [s, d] =>
    if o.1 = str! "--ro-bind" ∧ pathOf d <+: p then
      some (false, pathOf s ++ p.drop (pathOf d).length)
    else if o.1 = str! "--bind-try" ∧ present s = true ∧ pathOf d <+: p then
      some (true, pathOf s ++ p.drop (pathOf d).length)
    else v
  | _ => v

/-- What the program sees at path `p`. -/
def view (present : Str → Bool) (ops : List Op) (p : PathC) : View :=
  ops.foldl (viewStep present p) none

end Cackle.Sandboxing
