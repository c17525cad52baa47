import Verif.Model.Checker
import Verif.Model.Identity

/-!
# Model of building the crate index (`CrateIndex::new`, `src/crate_index.rs`)

The input is the list of packages reported by `cargo metadata`. A version is its text, as in
`Model/Identity.lean`; the order of versions is a parameter. `lib_tree` (crate_index.rs:149) is modelled in
`Model/LibTree.lean`. Descriptions, links to documentation and the list `direct_deps`, which is filled but
never read, are left out.
-/

namespace Cackle.CrateIndex
open Cackle Config Perm
open Cackle.ApiMap (Api)

/-- `cargo_metadata::TargetKind`, as far as it is looked at. -/
inductive TargetKind where
  | lib | bin | exampleProgram | test | bench | procMacro | customBuild
deriving DecidableEq

/-- `cargo_metadata::Target`: `test` says whether `cargo test` builds and runs its tests. -/
structure Target where
  kinds : List TargetKind
  test : Bool
deriving DecidableEq

/-- `cargo_metadata::Package`. `dir` is the directory of its manifest (`manifest_path.parent()`). -/
structure MPkg where
  name : Str
  version : Str
  targets : List Target := []
  dir : Option PathC
deriving DecidableEq

/-- The part used for identity. -/
def MPkg.ident (p : MPkg) : Identity.Package := ⟨p.name, p.version⟩

/-- The identity given to a package (crate_index.rs:86-95). -/
def pkgId (pkgs : List MPkg) (p : MPkg) : PkgId := Identity.indexId (pkgs.map MPkg.ident) p.ident

/-- `is_proc_macro` (crate_index.rs:96, 100-106). -/
def isProcMacro (p : MPkg) : Bool := p.targets.any (fun t => t.kinds.any (fun k => k = .procMacro))
/-- `has_build_script` (crate_index.rs:97, 107-110). -/
def hasBuildScript (p : MPkg) : Bool := p.targets.any (fun t => t.kinds.any (fun k => k = .customBuild))
/-- `has_test` (crate_index.rs:98, 111). -/
def hasTest (p : MPkg) : Bool := p.targets.any (fun t => t.test)

/-- `struct PackageInfo` (crate_index.rs:62-67) without the texts shown to the user. -/
structure Info where
  dir : PathC
  isProcMacro : Bool
deriving DecidableEq

/-- `struct CrateIndex` (crate_index.rs:27-35) without `manifest_path` and `lib_tree`; `selectors` stands
for the packages whose selectors are added by `add_permission_selectors`. -/
structure Idx where
  infos : AMap PkgId Info := []
  selectors : List IdxPkg := []
  byName : AMap Str (List PkgId) := []
  dirs : AMap PathC PkgId := []

/-- The body of the loop over the packages (crate_index.rs:91-147). -/
def addPkg (pkgs : List MPkg) (x : Idx) (p : MPkg) : Idx :=
  match p.dir with
  | none => x
  | some d =>
    { infos := x.infos.insert (pkgId pkgs p) ⟨d, isProcMacro p⟩
      selectors := x.selectors ++ [⟨p.name, hasBuildScript p, hasTest p⟩]
      byName := x.byName.insert p.name ((x.byName.get? p.name).getD [] ++ [pkgId pkgs p])
      dirs := x.dirs.insert d (pkgId pkgs p) }

/-- `CrateIndex::new` (crate_index.rs:76-153). `le` is the order of versions; `sort_by_key` is a stable
sort. -/
def build (le : Str → Str → Bool) (pkgs : List MPkg) : Idx :=
  let x := pkgs.foldl (addPkg pkgs) {}
  { x with byName := x.byName.map (fun e => (e.1, e.2.mergeSort (fun a b => le a.version b.version))) }

/-- `newest_package_id_with_name` (crate_index.rs:172-176). -/
def newest (x : Idx) (name : Str) : Option PkgId := (x.byName.get? name).bind (fun l => l.getLast?)

/-- `pkg_dir` (crate_index.rs:182-186). -/
def pkgDir (x : Idx) (id : PkgId) : Option PathC := (x.infos.get? id).map (fun i => i.dir)

/-- `proc_macros` (crate_index.rs:192-200). -/
def procMacros (x : Idx) : List PkgId := (x.infos.filter (fun e => e.2.isProcMacro)).map (fun e => e.1)

/-- The index as the checker uses it. `deps` and `libs` come from `lib_tree`, `sysroot` from the checker. -/
def toIndex (x : Idx) (deps : AMap PkgId (List Str)) (libs : AMap Str PkgId) (sysroot : PathC) : Checker.Index :=
  { pkgs := x.selectors, procMacros := procMacros x, dirs := x.dirs, deps, libs, sysroot }

/-- What `load_imports` imports for a package name (config.rs:255-260, 356-362): the APIs in
`cackle/export.toml` in the directory of the newest package with that name. `read` gives what is in that
file for a package directory, `none` if it cannot be read. -/
def exportsOf (x : Idx) (read : PathC → Option (AMap Api ApiCfg)) (name : Str) : Option (AMap Api ApiCfg) :=
  (newest x name).bind (fun id => (pkgDir x id).bind read)

end Cackle.CrateIndex
