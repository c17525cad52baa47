import Verif.Model.Problem

/-!
# Model of `src/build_script_checker.rs` and of the edits offered for build instructions

Captured output is `some text` when it is valid UTF-8, `none` otherwise.
-/

namespace Cackle.BuildScript
open Cackle Config Perm

/-- What `str::lines` does to a piece that was terminated by a newline: one trailing `\r` is removed. -/
def stripCr (l : Str) : Str := if l.getLast? = some '\r' then l.dropLast else l

/-- `str::lines` on the pieces between newlines. -/
def linesOf : List Str → List Str
  | [] => []
  | [last] => if last = [] then [] else [last]
  | l :: rest => stripCr l :: linesOf rest

/-- `str::lines` (used at build_script_checker.rs:37). -/
def lines (s : Str) : List Str := linesOf (splitChar '\n' s)

/-- `str::strip_prefix`. -/
def stripPrefix : Str → Str → Option Str
  | [], s => some s
  | _ :: _, [] => none
  | p :: ps, c :: cs => if p = c then stripPrefix ps cs else none

/-- `str::starts_with`. -/
def startsWith (s pre : Str) : Bool := (stripPrefix pre s).isSome

/-- `ALWAYS_PERMITTED` (build_script_checker.rs:59-64). -/
def alwaysPermitted : List Str :=
  [str! "cargo:rerun-if-", str! "cargo:warning", str! "cargo:rustc-cfg=", str! "cargo:rustc-check-cfg="]

/-- `matches` (build_script_checker.rs:90-96). -/
def «matches» (instruction rule : Str) : Bool :=
  if rule.getLast? = some '*' then startsWith instruction rule.dropLast else instruction == rule

/-- `check_directive` (build_script_checker.rs:66-88). -/
def checkDirective (instruction : Str) (pkg : PkgId) (allowed : List Str) : List Problem :=
  if alwaysPermitted.any (fun p => startsWith instruction p) then []
  else if allowed.any (fun i => «matches» instruction i) then []
  else [.disallowedBuildInstruction pkg instruction]

/-- `str::split_once('=')`, of which only the first part is used. -/
def beforeEquals : Str → Option Str
  | [] => none
  | c :: rest => if c = '=' then some [] else (beforeEquals rest).map (c :: ·)

/-- The environment variable recorded for a line (build_script_checker.rs:45-49). -/
def envVar (line : Str) : Option Str := (stripPrefix (str! "cargo:rustc-env=") line).bind beforeEquals

/-- `struct BuildScriptReport` (build_script_checker.rs:10-14). -/
structure Report where
  problems : List Problem := []
  envVars : List Str := []

/-- The message for output that is not UTF-8 (build_script_checker.rs:31-34); the package ID is printed
as its name. -/
def utf8Message (pkg : PkgId) : Str :=
  str! "The build script `" ++ pkg.name ++ str! "` emitted invalid UTF-8"

/-- `BuildScriptReport::build` (build_script_checker.rs:17-52). -/
def build (perms : PermMap) (crate : CrateSel) (stdout : Option Str) : Report :=
  let allowed := ((perms.get? ⟨crate.pkgId.name, .build⟩).map
    (fun c => c.perms.allowBuildInstructions)).getD []
  match stdout with
  | none => { problems := [.message (utf8Message crate.pkgId)] }
  | some out =>
    { problems := (lines out).flatMap (fun line =>
        if startsWith line (str! "cargo:") then checkDirective line crate.pkgId allowed else [])
      envVars := (lines out).filterMap envVar }

/-! ## Edits offered for an instruction -/

/-- The scan for the last separator (config_editor.rs:392-401 and 420-429): characters up to and
including the last separator, if there is one. `eq` is whether only `=` counts any more. -/
def upToSep (eq : Bool) : Str → Option Str
  | [] => none
  | ch :: rest =>
    if ch = '=' ∨ (eq = false ∧ (ch = '-' ∨ ch = ':')) then
      match upToSep (eq || ch == '=') rest with
      | some p => some (ch :: p)
      | none => some [ch]
    else (upToSep eq rest).map (ch :: ·)

/-- `&instruction[..instruction.len() - 1]` (config_editor.rs:419): `none` is the panic when the last
character takes more than one byte. -/
def dropByte (s : Str) : Option Str :=
  match s.getLast? with
  | none => none
  | some ch => if ch.val < 128 then some s.dropLast else none

/-- The loop of `edits_for_build_instruction` (config_editor.rs:408-436): the patterns. The outer `none`
is a panic or running out of fuel. -/
def editLoop : Nat → Str → Option (List Str)
  | 0, _ => none
  | n + 1, instruction =>
    let pattern := instruction ++ ['*']
    if instruction = [] then some [pattern]
    else
      match dropByte instruction with
      | none => none
      | some short =>
        match upToSep false short with
        | none => some [pattern]
        | some next => (editLoop n next).map (pattern :: ·)

/-- `edits_for_build_instruction` (config_editor.rs:381-437): the patterns of the offered edits. -/
def editPatterns (instruction : Str) : Option (List Str) :=
  editLoop (instruction.length + 1) ((upToSep false instruction).getD instruction)

end Cackle.BuildScript
