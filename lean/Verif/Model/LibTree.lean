import Verif.Model.Permissions
import Verif.Model.BuildScript

/-!
# Model of `src/crate_index/lib_tree.rs`

The input is the standard output of `cargo tree --edges normal,no-proc-macro --prefix depth --format
" {lib} {p}"`; running that command is not modelled, only how it ended. A
version is its text; `valid` says which texts `Version::parse` accepts. Sets are lists read through
membership. The stack has its top first. Errors are `none`, without their messages.
-/

namespace Cackle.LibTree
open Cackle Perm

/-- Leaves out a leading `+`. -/
def stripPlus : Str → Str
  | '+' :: r => r
  | s => s

/-- `str::parse::<usize>`: an optional `+`, then at least one digit, in range. -/
def parseUsize (s : Str) : Option Nat :=
  let t := stripPlus s
  if t ≠ [] ∧ t.all Char.isDigit = true then
    let n := t.foldl (fun n c => 10 * n + (c.toNat - '0'.toNat)) 0
    if n < 2 ^ 64 then some n else none
  else none

/-- `struct StackEntry` (lib_tree.rs:139-143). -/
structure Entry where
  id : PkgId
  deps : List Str
deriving DecidableEq

/-- `struct LibTreeBuilder` with `struct LibTree` (lib_tree.rs:15-22, 38-42): `libs` is
`lib_name_to_pkg_id`, `trans` is `pkg_transitive_deps`. -/
structure St where
  stack : List Entry := []
  libs : AMap Str PkgId := []
  trans : AMap PkgId (List Str) := []

/-- `entry(..).or_insert(..)`. -/
def orInsert (m : AMap PkgId (List Str)) (id : PkgId) (deps : List Str) : AMap PkgId (List Str) :=
  match m.get? id with
  | some _ => m
  | none => m.insert id deps

/-- `pop_to_level` (lib_tree.rs:127-136). -/
def popTo (level : Nat) : List Entry → AMap PkgId (List Str) → List Entry × AMap PkgId (List Str)
  | [], t => ([], t)
  | e :: rest, t =>
    if rest.length + 1 > level then popTo level rest (orInsert t e.id e.deps) else (e :: rest, t)

/-- `pop_to_level` on the builder. -/
def St.pop (st : St) (level : Nat) : St :=
  let r := popTo level st.stack st.trans
  { st with stack := r.1, trans := r.2 }

/-- The library name used for a package (lib_tree.rs:91-97). -/
def libName (lib pkgName : Str) : Str :=
  if lib = [] then pkgName.map (fun c => if c = '-' then '_' else c) else lib

/-- The part of `process_line` after the line has been taken apart (lib_tree.rs:98-123). -/
def visit (st : St) (level : Nat) (lib : Str) (id : PkgId) : St :=
  let st := { st with libs := st.libs.insert lib id }
  let st := if level - 1 ≤ st.stack.length then st.pop (level - 1) else st
  let st := match st.trans.get? id with
    | some deps => { st with stack := st.stack.map (fun (e : Entry) => { e with deps := deps ++ e.deps }) }
    | none => st
  let st := { st with stack := st.stack.map (fun (e : Entry) => { e with deps := lib :: e.deps }) }
  if st.stack.length < level then { st with stack := ⟨id, []⟩ :: st.stack } else st

/-- `process_line` (lib_tree.rs:65-125). The addition of 1 to a level of 2^64 - 1 is not modelled. -/
def processLine (idx : AMap Str (List PkgId)) (valid : Str → Bool) (st : St) (line : Str) :
    Option St :=
  match splitChar ' ' line with
  | level :: lib :: name :: version :: _ =>
    match parseUsize level with
    | none => none
    | some d =>
      match version with
      | 'v' :: v =>
        if valid v then
          match idx.get? name with
          | none => none
          | some ids =>
            match ids.find? (fun id => id.version = v) with
            | none => none
            | some id => some (visit st (d + 1) (libName lib name) id)
        else none
      | _ => none
  | _ => some st

/-- The loop over the lines (lib_tree.rs:57-59). -/
def processLines (idx : AMap Str (List PkgId)) (valid : Str → Bool) : St → List Str → Option St
  | st, [] => some st
  | st, l :: ls =>
    match processLine idx valid st l with
    | none => none
    | some st => processLines idx valid st ls

/-- `build` from the output of `cargo tree` on (lib_tree.rs:55-61). -/
def build (idx : AMap Str (List PkgId)) (valid : Str → Bool) (stdout : Str) : Option St :=
  (processLines idx valid {} (BuildScript.lines stdout)).map (fun st => st.pop 0)

/-- `LibTree::from_workspace` (lib_tree.rs:24-35, 44-61), given how `cargo tree` ended: `none` means that it could not be
started; otherwise whether it succeeded, and its standard output (`none`: it is not UTF-8). -/
def fromWorkspace (idx : AMap Str (List PkgId)) (valid : Str → Bool) : Option (Bool × Option Str) → Option St
  | none => none
  | some (_, none) => none
  | some (_, some stdout) => build idx valid stdout

end Cackle.LibTree
