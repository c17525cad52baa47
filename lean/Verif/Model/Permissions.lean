import Verif.Model.Config

/-!
# Model of `src/config/permissions.rs` and of the selectors in the crate index
-/

namespace Cackle.Perm
open Cackle.Config
open Cackle.ApiMap (Api)

/-- `enum PermissionScope` (permissions.rs:30-44). -/
inductive Scope where
  | all | build | test | fromBuild | fromTest
deriving DecidableEq, Repr

/-- `struct PermSel` (permissions.rs:23-28). -/
structure PermSel where
  pkg : Str
  scope : Scope
deriving DecidableEq

/-- `PermissionScope::parent_scope` (permissions.rs:336-344). -/
def Scope.parent : Scope → Option Scope
  | .all => none
  | .build => some .fromBuild
  | .test => some .fromTest
  | .fromBuild => some .all
  | .fromTest => some .all

/-- `PermissionScope::child_scopes` (permissions.rs:346-354). -/
def Scope.children : Scope → List Scope
  | .all => [.fromBuild, .fromTest]
  | .build => []
  | .test => []
  | .fromBuild => [.build]
  | .fromTest => [.test]

/-- `PermSel::parent` (permissions.rs:272-274). -/
def PermSel.parent (s : PermSel) : Option PermSel := s.scope.parent.map (fun sc => ⟨s.pkg, sc⟩)

/-- `PermSel::descendants` (permissions.rs:277-295). -/
def PermSel.descendants (s : PermSel) : List PermSel :=
  let first := s.scope.children.map (fun sc => (⟨s.pkg, sc⟩ : PermSel))
  first ++ first.flatMap (fun sel => sel.scope.children.map (fun sc => ⟨s.pkg, sc⟩))

/-- Package identity (crate_index.rs:37-45). The version is opaque text. -/
structure PkgId where
  name : Str
  version : Str
  nameIsUnique : Bool := true
deriving DecidableEq

/-- `enum CrateKind` (crate_index.rs:54-59). -/
inductive CrateKind where
  | primary | buildScript | test
deriving DecidableEq

/-- `struct CrateSel` (crate_index.rs:47-52). -/
structure CrateSel where
  pkgId : PkgId
  kind : CrateKind
deriving DecidableEq

/-- `PermSel::for_non_build_output` (permissions.rs:242-249). -/
def forNonBuildOutput (c : CrateSel) : PermSel :=
  ⟨c.pkgId.name, match c.kind with
    | .primary => .all
    | .buildScript => .build
    | .test => .test⟩

/-- `PermissionScope::determine` (permissions.rs:320-334). -/
def determine (usePkg : PkgId) (bin : CrateSel) : Scope :=
  if usePkg = bin.pkgId then
    match bin.kind with
    | .primary => .all
    | .buildScript => .build
    | .test => .test
  else
    match bin.kind with
    | .primary => .all
    | .buildScript => .fromBuild
    | .test => .fromTest

/-- A map from selectors to package configurations (permissions.rs:19-21). -/
abbrev PermMap := AMap PermSel PkgCfg

/-- Inserting an optional sub-section (permissions.rs:51-88). -/
def insertOpt (m : PermMap) (pkg : Str) (scope : Scope) : Option PkgCfg → PermMap
  | none => m
  | some c => m.insert ⟨pkg, scope⟩ c

/-- Body of the loop of `Permissions::from_config` (permissions.rs:49-96). -/
def flattenPkg (m : PermMap) (pkg : Str) (c : PkgCfg) : PermMap :=
  let m := insertOpt m pkg .build c.build
  let m := insertOpt m pkg .test c.test
  let m := insertOpt m pkg .fromBuild (c.from_.bind Prod.fst)
  let m := insertOpt m pkg .fromTest (c.from_.bind Prod.snd)
  m.insert ⟨pkg, .all⟩ (.mk c.perms none none none)

/-- `Permissions::from_config` (permissions.rs:47-98). -/
def fromConfig (cfg : Raw) : PermMap :=
  cfg.packages.foldl (fun m (p : Str × PkgCfg) => flattenPkg m p.1 p.2) []

/-- What the crate index knows about a package as far as selectors are concerned. -/
structure IdxPkg where
  name : Str
  hasBuildScript : Bool
  hasTest : Bool

/-- `add_permission_selectors` (crate_index.rs:228-244). -/
def selectorsOf (p : IdxPkg) : List PermSel :=
  [⟨p.name, .all⟩, ⟨p.name, .fromBuild⟩, ⟨p.name, .fromTest⟩]
    ++ (if p.hasBuildScript then [⟨p.name, .build⟩] else [])
    ++ (if p.hasTest then [⟨p.name, .test⟩] else [])

/-- `CrateIndex::permission_selectors` (crate_index.rs:133-138). -/
def indexSelectors (idx : List IdxPkg) : List PermSel := idx.flatMap selectorsOf

/-- `new.packages.entry(sel.clone()).or_default()` (permissions.rs:106). -/
def orDefault (m : PermMap) (sel : PermSel) : PermMap :=
  if (m.get? sel).isSome then m else m.insert sel PkgCfg.default

/-- `PackageConfig::inherit` (permissions.rs:196-208). -/
def inheritPerms (self other : Perms) : Perms :=
  { self with
    allowApis := mergeVec self.allowApis other.allowApis
    allowBuildInstructions := mergeVec self.allowBuildInstructions other.allowBuildInstructions
    allowProcMacro := self.allowProcMacro || other.allowProcMacro
    allowUnsafe := self.allowUnsafe || other.allowUnsafe
    allowExtern := self.allowExtern || other.allowExtern
    sandbox := self.sandbox.inherit other.sandbox }

/-- `PackageConfig::inherit` on the whole record (nested sections are untouched). -/
def inheritCfg (self other : PkgCfg) : PkgCfg :=
  .mk (inheritPerms self.perms other.perms) self.build self.test self.from_

/-- `if let Some(parent) = layer.get(sel) { config.inherit(parent) }`. -/
def inheritFrom (layer : PermMap) (sel : PermSel) (c : PkgCfg) : PkgCfg :=
  match layer.get? sel with
  | some parent => inheritCfg c parent
  | none => c

/-- The `all` layer of `apply_inheritance` after inheriting from the global config
(permissions.rs:150-153, 162, 171-173). -/
def layerAll (m : PermMap) (globalSandbox : Sandbox) : PermMap :=
  (m.filter (fun e => e.1.scope = .all)).map
    (fun e => (e.1, inheritCfg e.2 (.leaf { sandbox := globalSandbox })))

/-- The `dep` layer (permissions.rs:165-166, 174-178). -/
def layerDep (m all : PermMap) : PermMap :=
  (m.filter (fun e => e.1.scope = .fromBuild ∨ e.1.scope = .fromTest)).map
    (fun e => (e.1, inheritFrom all ⟨e.1.pkg, .all⟩ e.2))

/-- The `local` layer (permissions.rs:163-164, 179-188). -/
def layerLocal (m dep : PermMap) : PermMap :=
  (m.filter (fun e => e.1.scope = .build ∨ e.1.scope = .test)).map
    (fun e => (e.1, inheritFrom dep
      ⟨e.1.pkg, if e.1.scope = .build then .fromBuild else .fromTest⟩ e.2))

/-- `apply_inheritance` (permissions.rs:147-194). -/
def applyInheritance (m : PermMap) (globalSandbox : Sandbox) : PermMap :=
  let all := layerAll m globalSandbox
  let dep := layerDep m all
  let loc := layerLocal m dep
  all ++ dep ++ loc

/-- `Permissions::from_config_with_inheritance` (permissions.rs:100-110). -/
def withInheritance (cfg : Raw) (idx : List IdxPkg) : PermMap :=
  applyInheritance ((indexSelectors idx).foldl orDefault (fromConfig cfg)) cfg.sandbox

/-- `Permissions::unsafe_permitted_for_crate` (permissions.rs:119-123). -/
def unsafePermitted (m : PermMap) (c : CrateSel) : Bool :=
  (m.get? (forNonBuildOutput c)).any (fun p => p.perms.allowUnsafe)

/-- `Permissions::extern_permitted_for_crate` (permissions.rs:125-140). -/
def externPermitted (m : PermMap) (c : CrateSel) (version : Int) : Bool :=
  if version ≤ 2 then (m.get? (forNonBuildOutput c)).any (fun p => p.perms.allowUnsafe)
  else (m.get? (forNonBuildOutput c)).any (fun p => p.perms.allowExtern)

/-- `Permissions::sandbox_config_for_package` (permissions.rs:112-117). -/
def sandboxFor (m : PermMap) (sel : PermSel) : Sandbox :=
  ((m.get? sel).map (fun c => c.perms.sandbox)).getD {}

end Cackle.Perm
