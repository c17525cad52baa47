import Verif.Model.Path
import Verif.Model.Problem

/-!
# Model of `src/checker.rs`

Reading and scanning a linked binary (`scan_objects`) is a parameter `scan`; its parts are modelled
elsewhere. `Result::Err` is `none`. Timings, backtracers and logging are left out. Hash maps are
association lists; the theorems about reported problems only speak about membership, so the iteration
order does not matter.
-/

namespace Cackle.Checker
open Cackle Config Perm
open Cackle.ApiMap (Api)

/-- The parts of `CrateIndex` (crate_index.rs:27-35) that the checker uses. `deps` is
`lib_tree.pkg_transitive_deps`, `libs` is `lib_tree.lib_name_to_pkg_id`. -/
structure Index where
  pkgs : List IdxPkg := []
  procMacros : List PkgId := []
  dirs : AMap PathC PkgId := []
  deps : AMap PkgId (List Str) := []
  libs : AMap Str PkgId := []
  sysroot : PathC := [['/'], str! "sysroot"]

/-- `struct CrateInfo` (checker.rs:72-80). -/
structure CrateInfo where
  allowed : List Api := []
  unused : List Api := []

/-- `struct LinkInfo` (link_info.rs:10-17) without `is_shared`, which the checker does not read. -/
structure LinkInfo where
  crate : CrateSel
  outputFile : Str
  objects : List Str := []
deriving DecidableEq

/-- `struct ScanOutputs` (symbol_graph.rs:95-109) without `base_problems`: nothing in symbol_graph.rs ever
adds to it, so it is always empty. -/
structure ScanOut where
  usages : List ApiUsages := []
  exports : List (PkgId × Api × Str) := []
  apis : AMap Api ApiCfg := []

/-- `struct Checker` (checker.rs:46-73). The API prefix tree is modelled in `Model/ApiMap.lean`; the two
permission maps of the loaded `Config` are functions of `cfg` and `idx`, see `permissions` and
`permissionsNoInheritance`. -/
structure State where
  cfg : Raw := {}
  idx : Index := {}
  infos : AMap PermSel CrateInfo := []
  paths : AMap PathC (List PkgId) := []
  outstanding : List LinkInfo := []

/-- `config.permissions` (config.rs:190-201). -/
def State.permissions (c : State) : PermMap := withInheritance c.cfg c.idx.pkgs
/-- `config.permissions_no_inheritance` (config.rs:190-201). -/
def State.permissionsNoInheritance (c : State) : PermMap := fromConfig c.cfg

/-- The inner loop over `allow_apis` of the first pass (checker.rs:199-203). -/
def grantListed (info : CrateInfo) (apis : List Api) : CrateInfo :=
  apis.foldl (fun i a =>
    if a ∈ i.allowed then i
    else { allowed := setInsert a i.allowed, unused := setInsert a i.unused }) info

/-- The inner loop over `allow_apis` of the second pass (checker.rs:210-212). -/
def grantInherited (info : CrateInfo) (apis : List Api) : CrateInfo :=
  apis.foldl (fun i a => { i with allowed := setInsert a i.allowed }) info

/-- `self.crate_infos.entry(sel).or_default()` followed by an update. -/
def updInfo (m : AMap PermSel CrateInfo) (sel : PermSel) (f : CrateInfo → CrateInfo) :
    AMap PermSel CrateInfo :=
  m.insert sel (f ((m.get? sel).getD {}))

/-- First pass over `permissions_no_inheritance` (checker.rs:195-204). -/
def pass1 (m : AMap PermSel CrateInfo) (perms : PermMap) : AMap PermSel CrateInfo :=
  perms.foldl (fun m (e : PermSel × PkgCfg) => updInfo m e.1 (grantListed · e.2.perms.allowApis)) m

/-- Second pass over `permissions` (checker.rs:205-213). -/
def pass2 (m : AMap PermSel CrateInfo) (perms : PermMap) : AMap PermSel CrateInfo :=
  perms.foldl (fun m (e : PermSel × PkgCfg) => updInfo m e.1 (grantInherited · e.2.perms.allowApis)) m

/-- `update_config` (checker.rs:167-215) without the API prefix tree. -/
def updateConfig (c : State) (cfg : Raw) : State :=
  { c with infos := pass2 (pass1 c.infos (fromConfig cfg)) (withInheritance cfg c.idx.pkgs)
           cfg := cfg }

/-- `base_problems` (checker.rs:217-230). -/
def baseProblems (c : State) : List Problem :=
  (c.idx.procMacros.filter (fun pkg =>
    !(c.permissions.get? ⟨pkg.name, .all⟩).any (fun p => p.perms.allowProcMacro))).map .isProcMacro

/-- `verify_build_script_permitted` (checker.rs:352-363). -/
def verifyBuildScript (c : State) (pkg : PkgId) : List Problem :=
  if !c.cfg.common.explicitBuildScripts then []
  else if (c.infos.get? ⟨pkg.name, .build⟩).isSome then []
  else [.usesBuildScript pkg]

/-- `package_id_for_path` (crate_index.rs:207-214): the loop over the ancestors of the path. -/
def pkgForPath (dirs : AMap PathC PkgId) (p : PathC) : Option PkgId :=
  match dirs.get? p with
  | some id => some id
  | none =>
    if _h : p = [] ∨ p = [['/']] then none else pkgForPath dirs p.dropLast
termination_by p.length
decreasing_by
  have : p ≠ [] := fun e => _h (.inl e)
  have := List.length_pos_iff.mpr this
  simp; omega

/-- `is_in_rust_std` (checker.rs:396-403). -/
def isInRustStd (sysroot : PathC) (p : PathC) : Bool :=
  p.startsWith (pathOf (str! "/rustc/")) || p.startsWith (pathOf (str! "/cargo/registry"))
    || p.startsWith (pathOf (str! "/rust/")) || p.startsWith sysroot

/-- `opt_pkg_ids_from_source_path` (checker.rs:373-392). -/
def pkgIdsFromPath (c : State) (p : PathC) : Option (List PkgId) :=
  match c.paths.get? p with
  | some ids => some ids
  | none =>
    if isInRustStd c.idx.sysroot p then some []
    else (pkgForPath c.idx.dirs p).map (fun id => [id])

/-- `PackageId::crate_name` (crate_index.rs:271-277). -/
def crateName (p : PkgId) : Str := p.name.map (fun ch => if ch = '-' then '_' else ch)

/-- `is_to_name_from_outer_location` (checker.rs:485-498); `Name::starts_with` (names.rs:48-52) compares
the first part. `none` is the error `Couldn't find crate name for ...`. -/
def toNameFromOuter (c : State) (u : ApiUsage) : Option Bool :=
  match u.outer with
  | none => some false
  | some loc => (pkgIdsFromPath c (pathOf loc.file)).map
      (fun ids => ids.any (fun id => u.toName.head? == some (crateName id)))

/-- How one usage is classified by the loop of `api_used` (checker.rs:438-459). -/
inductive Class where
  | onTree
  | offTree (pkg : PkgId)
  | ignored
deriving DecidableEq

/-- Body of the loop over the usages (checker.rs:438-459); `deps` are the transitive dependencies of the
using package. -/
def classify (c : State) (deps : List Str) (u : ApiUsage) : Option Class :=
  match u.toName.head? with
  | none => some .onTree
  | some first =>
    if first ∈ deps then some .onTree
    else
      match c.idx.libs.get? first with
      | none => some .onTree
      | some pkg =>
        match toNameFromOuter c u with
        | none => none
        | some true => some .ignored
        | some false => some (.offTree pkg)

/-- `off_tree.entry(pkg_id).or_default().push(usage)` (checker.rs:454). -/
def pushOff (off : AMap PkgId (List ApiUsage)) (pkg : PkgId) (u : ApiUsage) :
    AMap PkgId (List ApiUsage) :=
  off.insert pkg ((off.get? pkg).getD [] ++ [u])

/-- The loop over the usages (checker.rs:438-459): on-tree and off-tree usages. -/
def partition (c : State) (deps : List Str) :
    List ApiUsage → Option (List ApiUsage × AMap PkgId (List ApiUsage)) :=
  List.foldlM (fun (acc : List ApiUsage × AMap PkgId (List ApiUsage)) u => do
    match ← classify c deps u with
    | .onTree => pure (acc.1 ++ [u], acc.2)
    | .offTree pkg => pure (acc.1, pushOff acc.2 pkg u)
    | .ignored => pure acc) ([], [])

/-- `unused_allowed_apis.remove(api)` at one selector, if present. -/
def markUsed (m : AMap PermSel CrateInfo) (sel : PermSel) (api : Api) : AMap PermSel CrateInfo :=
  match m.get? sel with
  | some i => m.insert sel { i with unused := setRemove api i.unused }
  | none => m

/-- `mark_parent_allow_apis_used` (checker.rs:594-602). The selector tree has depth three. -/
def markParents (m : AMap PermSel CrateInfo) (sel : PermSel) (api : Api) : AMap PermSel CrateInfo :=
  match h : sel.parent with
  | none => m
  | some p => markParents (markUsed m p api) p api
termination_by (match sel.scope with | .all => 0 | .fromBuild | .fromTest => 1 | _ => 2)
decreasing_by
  obtain ⟨pkg, sc⟩ := sel
  cases sc <;> simp [PermSel.parent, Scope.parent] at h <;> subst h <;> simp

/-- The choice between the two ways of partitioning (checker.rs:436-465). -/
def treeSplit (c : State) (au : ApiUsages) :
    Option (List ApiUsage × AMap PkgId (List ApiUsage)) :=
  match c.idx.deps.get? au.pkg with
  | some deps => partition c deps au.usages
  | none => some (au.usages, [])

/-- `api_used` (checker.rs:415-481). -/
def apiUsed (c : State) (au : ApiUsages) : Option (State × List Problem) :=
  let sel : PermSel := ⟨au.pkg.name, au.scope⟩
  if (c.infos.get? sel).any (fun i => decide (au.api ∈ i.allowed)) then
    some ({ c with infos := markParents (markUsed c.infos sel au.api) sel au.api }, [])
  else
    match treeSplit c au with
    | none => none
    | some (on, off) =>
      let offProblems := off.map (fun (e : PkgId × List ApiUsage) =>
        Problem.offTreeApiUsage { au with usages := e.2 } e.1)
      let onProblems := if on = [] then [] else [Problem.disallowedApiUsage { au with usages := on }]
      some (c, offProblems ++ onProblems)

/-- Body of the loop of `possible_exported_api_problems` (checker.rs:560-582); `api_path`
(problem.rs:101-105) uses the package name as it is. -/
def exportProblem (c : State) (e : PkgId × Api × Str) : List Problem :=
  let sel : PermSel := ⟨e.1.name, .all⟩
  if (c.permissions.get? sel).any (fun p => p.perms.imports.isSome) then []
  else if (c.cfg.apis.get? e.2.1).any (fun a =>
      decide (e.1.name ∈ a.noAutoDetect) || decide (e.1.name ++ [':', ':'] ++ e.2.1 ∈ a.incl)) then []
  else [.possibleExportedApi e.1 e.2.1 e.2.2]

/-- The loop over the usages in `ScanOutputs::problems` (symbol_graph.rs:243-246). -/
def apisUsed (c : State) : List ApiUsages → Option (State × List Problem)
  | [] => some (c, [])
  | au :: rest =>
    match apiUsed c au with
    | none => none
    | some (c, ps) =>
      match apisUsed c rest with
      | none => none
      | some (c, qs) => some (c, ps ++ qs)

/-- `ScanOutputs::problems` (symbol_graph.rs:241-251). -/
def scanProblems (c : State) (out : ScanOut) : Option (State × List Problem) :=
  match apisUsed c out.usages with
  | none => none
  | some (c', ps) => some (c', ps ++ out.exports.flatMap (exportProblem c'))

/-- The cached or new scan results used by `check_object_paths` (checker.rs:322-337). -/
def graphOutputs (scan : State → LinkInfo → Option ScanOut) (c : State) (li : LinkInfo)
    (cache : Option ScanOut) : Option ScanOut :=
  match cache.filter (fun o => o.apis = c.cfg.apis) with
  | some o => some o
  | none => (scan c li).map (fun o => { o with apis := c.cfg.apis })

/-- `check_object_paths` (checker.rs:316-342) with the per-request cache. -/
def checkObjects (scan : State → LinkInfo → Option ScanOut) (c : State) (li : LinkInfo)
    (cache : Option ScanOut) : Option (State × ScanOut × List Problem) :=
  match graphOutputs scan c li cache with
  | none => none
  | some out => (scanProblems c out).map (fun r => (r.1, out, r.2))

/-- `check_linker_invocation` (checker.rs:291-314). -/
def checkLink (scan : State → LinkInfo → Option ScanOut) (c : State) (li : LinkInfo)
    (cache : Option ScanOut) : Option (State × ScanOut × List Problem) :=
  let bs := if li.crate.kind = .buildScript then verifyBuildScript c li.crate.pkgId else []
  (checkObjects scan c li cache).map (fun r => (r.1, r.2.1, bs ++ r.2.2))

/-- `record_crate_paths` (checker.rs:542-550). -/
def recordPaths (m : AMap PathC (List PkgId)) (pkg : PkgId) (paths : List PathC) :
    AMap PathC (List PkgId) :=
  paths.foldl (fun m p =>
    let ids := (m.get? p).getD []
    m.insert p (if pkg ∈ ids then ids else ids ++ [pkg])) m

/-- `get_link_info` (checker.rs:586-592): removes the first invocation with this crate selector. -/
def takeLink (crate : CrateSel) : List LinkInfo → Option (LinkInfo × List LinkInfo)
  | [] => none
  | li :: rest =>
    if li.crate = crate then some (li, rest)
    else (takeLink crate rest).map (fun r => (r.1, li :: r.2))

/-- The `RustcComplete` branch of `handle_request` (checker.rs:270-283). The result carries the state
also in the error case; in that case the permissions marked as used before the error are not kept (an
error aborts the run). -/
def rustcComplete (scan : State → LinkInfo → Option ScanOut) (c : State) (crate : CrateSel)
    (paths : List PathC) (cache : Option ScanOut) :
    State × Option (Option ScanOut × List Problem) :=
  let c := { c with paths := recordPaths c.paths crate.pkgId paths }
  match takeLink crate c.outstanding with
  | none => (c, some (cache, []))
  | some (li, rest) =>
    let c := { c with outstanding := rest }
    match checkLink scan c li cache with
    | none => (c, none)
    | some (c, out, ps) =>
      if ps = [] then (c, some (some out, []))
      else ({ c with outstanding := c.outstanding ++ [li] }, some (some out, ps))

/-- `check_unused` (checker.rs:500-532); the order of the reported problems is that of the maps. -/
def checkUnused (c : State) : Option (List Problem) :=
  if c.outstanding ≠ [] then none
  else
    some (c.infos.flatMap (fun e =>
        (if e.1 ∈ indexSelectors c.idx.pkgs then [] else [.unusedPackageConfig e.1])
        ++ (if e.2.unused = [] then [] else [.unusedAllowApi e.1 e.2.unused]))
      ++ c.permissionsNoInheritance.flatMap (fun e =>
        if e.2.perms.sandbox.kind.isSome ∧ e.1.scope ≠ .build ∧ e.1.scope ≠ .test
        then [.unusedSandboxConfiguration e.1] else []))

end Cackle.Checker
