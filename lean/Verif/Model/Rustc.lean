import Verif.Model.Permissions
import Verif.Model.Scan
import Verif.Model.Deps

/-!
# Model of the rustc wrapper (`src/proxy/subprocess.rs`)

One `Attempt` collects everything the outside world contributes to one call of `RustcRunner::run`: the
configuration file as it is at that moment, what rustc did, the file system, and the answers of the main
process. Any error (`?`) and any panic end the wrapper with a non-zero status and are both `error`.
The lexer is a parameter.
-/

namespace Cackle.Rustc
open Cackle Perm Scan Deps BuildScript

/-- `enum Outcome` (outcome.rs:8-12). -/
inductive Outcome where
  | continue | giveUp
deriving DecidableEq, Repr

/-- A source location: path, line and column. -/
abbrev Loc := Str × Nat × Nat

/-- What rustc did: exit code (`none`: killed by a signal), and the locations of the lint errors found in
its messages (`none`: the messages are not UTF-8, an error). Parsing of the messages
(proxy/errors.rs:10-93) is modelled in `Model/RustcErrors.lean`. -/
structure Output where
  code : Option Int
  unsafeErrors : Option (List Loc)
  externErrors : Option (List Loc)

/-- Everything external that one run depends on. -/
structure Attempt where
  /-- Permissions and version in the flattened configuration (`none`: it cannot be read). -/
  config : Option (PermMap × Int)
  /-- The compilation, sandboxed or not (`none`: it could not be started). -/
  output : Option Output
  /-- Reads the dep-info file. -/
  readDeps : Str × Str → Option Str
  /-- `Path::canonicalize`. -/
  canon : Str → Option Str
  /-- Reads a source file; `some none` is a file that is not UTF-8. -/
  readSource : Str → Option (Option Str)
  /-- Answer to `rustc_complete` (`none`: the connection failed). -/
  onComplete : Option Outcome
  /-- Answer to `crate_uses_unsafe`. -/
  onUnsafe : Option Outcome
  /-- Answer to `crate_uses_extern`. -/
  onExtern : Option Outcome

/-- `enum RustcRunStatus` (subprocess.rs:235-239), with errors. -/
inductive Status where
  | retry | giveUp | done (code : Option Int) | error
deriving DecidableEq, Repr

/-- `scan_path` (unsafe_checker.rs:12-22, extern_checker.rs:12-22). -/
def scanPath (lex : Str → List Tok) (scan : Str → List Tok → Option (List (Nat × Nat))) (a : Attempt)
    (path : Str) : Option (List Loc) :=
  match a.readSource path with
  | none => none
  | some none => some []
  | some (some text) => (scan text (lex text)).map (fun l => l.map (fun p => (path, p)))

/-- `find_unsafe_in_sources` and `find_extern_in_sources` (subprocess.rs:368-384). -/
def findInSources (scan : Str → Option (List Loc)) : List Str → Option (List Loc)
  | [] => some []
  | f :: rest =>
    match scan f with
    | none => none
    | some l => (findInSources scan rest).map (l ++ ·)

/-- The end of `RustcRunner::run` (subprocess.rs:289-312). The locations are sorted and deduplicated
before they are sent, which does not affect the result. -/
def finish (a : Attempt) (o : Output) (us es : List Loc) : Status :=
  if us ≠ [] then
    match a.onUnsafe with
    | none => .error
    | some .continue => .retry
    | some .giveUp => .giveUp
  else if es ≠ [] then
    match a.onExtern with
    | none => .error
    | some .continue => .retry
    | some .giveUp => .giveUp
  else .done o.code

/-- The scans after a successful compilation (subprocess.rs:279-284). -/
def scanSources (lex : Str → List Tok) (a : Attempt) (o : Output) (paths : List Str)
    (unsafeOk externOk : Bool) : Status :=
  match (if unsafeOk then some [] else findInSources (scanPath lex scanUnsafe a) paths) with
  | none => .error
  | some us =>
    match (if externOk then some [] else findInSources (scanPath lex scanExtern a) paths) with
    | none => .error
    | some es => finish a o us es

/-- `RustcRunner::run` (subprocess.rs:246-313). -/
def run (lex : Str → List Tok) (crate : CrateSel) (args : List Str) (a : Attempt) : Status :=
  match a.config with
  | none => .error
  | some (perms, version) =>
    let unsafeOk := unsafePermitted perms crate
    let externOk := externPermitted perms crate version
    match a.output with
    | none => .error
    | some o =>
      if o.code = some 0 then
        match sourceFiles a.readDeps a.canon args with
        | none => .error
        | some paths =>
          match a.onComplete with
          | none => .error
          | some .giveUp => .giveUp
          | some .continue => scanSources lex a o paths unsafeOk externOk
      else
        match o.unsafeErrors, o.externErrors with
        | some us, some es => finish a o us es
        | _, _ => .error

/-- How the wrapper ends. -/
inductive Exit where
  /-- With this status. -/
  | exit (code : Int)
  /-- With an error message and a non-zero status. -/
  | error
  /-- It is still waiting for the next attempt. -/
  | running
deriving DecidableEq, Repr

/-- The loop of `proxy_rustc` (subprocess.rs:208-218). A compiler killed by a signal gives -1
(outcome.rs:45-49), giving up gives `FAILURE` = -1 (outcome.rs:6). -/
def proxyRustc (lex : Str → List Tok) (crate : CrateSel) (args : List Str) : List Attempt → Exit
  | [] => .running
  | a :: rest =>
    match run lex crate args a with
    | .retry => proxyRustc lex crate args rest
    | .giveUp => .exit (-1)
    | .done code => .exit (code.getD (-1))
    | .error => .error

/-! ## The command line -/

/-- The loop of `get_command` (subprocess.rs:320-345): the arguments passed on and the linker noted. -/
def filterArgs : List Str → Option Str → List Str × Option Str
  | [], o => ([], o)
  | a :: rest, o =>
    if a = str! "-C" then
      match rest with
      | [] => ([a], o)
      | v :: rest' =>
        match stripPrefix (str! "linker=") v with
        | some l => filterArgs rest' (some l)
        | none =>
          if startsWith v (str! "debuginfo=") then filterArgs rest' o
          else (a :: (filterArgs (v :: rest') o).1, (filterArgs (v :: rest') o).2)
    else if startsWith a (str! "--error-format") then filterArgs rest o
    else (a :: (filterArgs rest o).1, (filterArgs rest o).2)

/-- `get_command` (subprocess.rs:315-365): arguments, and the linker put in the environment for the
linker wrapper. -/
def getCommand (exe : Str) (args : List Str) (unsafeOk externOk : Bool) : List Str × Option Str :=
  ((filterArgs args none).1 ++
    [str! "-C", str! "debuginfo=2", str! "--error-format=json", str! "-C", str! "linker=" ++ exe,
     str! "-C", str! "save-temps", str! "-Ccodegen-units=1"] ++
    (if unsafeOk then [] else [str! "-Funsafe-code"]) ++
    (if externOk then [] else [str! "-Fmissing-unsafe-on-extern"]),
   (filterArgs args none).2)

end Cackle.Rustc
