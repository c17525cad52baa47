import Verif.Model.Basic
import Verif.Model.ApiMap

/-!
# Model of the configuration types and of config loading (`src/config.rs`, `src/config/versions.rs`,
`src/config_validation.rs`)

TOML parsing itself is not modelled: a config file is the `RawConfig` value that serde produces.
Paths are text; `PathBuf` ordering is replaced by text ordering (only membership matters).
-/

namespace Cackle.Config
open Cackle.ApiMap (Api ApiDef)

/-- `enum SandboxKind` (config.rs:135-139). -/
inductive SandboxKind where
  | disabled
  | bubblewrap
deriving DecidableEq, Repr

/-- `struct SandboxConfig` (config.rs:81-100). -/
structure Sandbox where
  kind : Option SandboxKind := none
  extraArgs : List Str := []
  allowNetwork : Option Bool := none
  bindWritable : List Str := []
  makeWritable : List Str := []
  passEnv : List Str := []
deriving DecidableEq

/-- The non-recursive fields of `struct PackageConfig` (config.rs:143-172). -/
structure Perms where
  allowUnsafe : Bool := false
  allowExtern : Bool := false
  allowBuildInstructions : List Str := []
  allowApis : List Api := []
  allowProcMacro : Bool := false
  sandbox : Sandbox := {}
  imports : Option (List Str) := none
deriving DecidableEq

/-- `struct PackageConfig` (config.rs:143-172) with its recursive fields; `from_` is
`Option<FromConfig>` (config.rs:174-179). -/
inductive PkgCfg where
  | mk (perms : Perms) (build test : Option PkgCfg) (from_ : Option (Option PkgCfg × Option PkgCfg))

namespace PkgCfg
def perms : PkgCfg → Perms | mk p _ _ _ => p
def build : PkgCfg → Option PkgCfg | mk _ b _ _ => b
def test : PkgCfg → Option PkgCfg | mk _ _ t _ => t
def from_ : PkgCfg → Option (Option PkgCfg × Option PkgCfg) | mk _ _ _ f => f
/-- A configuration without nested sections. -/
def leaf (p : Perms) : PkgCfg := .mk p none none none
/-- `PackageConfig::default()`. -/
def default : PkgCfg := leaf {}
end PkgCfg

/-- `struct CommonConfig` (config.rs:60-79); build flags, features and profile only affect how cargo
is invoked and are left out. -/
structure Common where
  version : Int := 1
  explicitBuildScripts : Bool := false
  importStd : List Str := []
deriving DecidableEq

/-- `struct ApiConfig` (config.rs:109-120). -/
structure ApiCfg where
  incl : List Str := []
  excl : List Str := []
  noAutoDetect : List Str := []
deriving DecidableEq

/-- `struct RawConfig` (config.rs:37-53). `BTreeMap`s are association lists. -/
structure Raw where
  common : Common := {}
  apis : AMap Api ApiCfg := []
  packages : AMap Str PkgCfg := []
  sandbox : Sandbox := {}
  rustcSandbox : Sandbox := {}

/-! ## List merging -/

/-- Lexicographic comparison by code point, which is the order of `str` in Rust. -/
def strLe : Str → Str → Bool
  | [], _ => true
  | _ :: _, [] => false
  | a :: as, b :: bs => if a.val < b.val then true else if a = b then strLe as bs else false

/-- Insertion into a sorted list (used to model `slice::sort`). -/
def insertSorted (a : Str) : List Str → List Str
  | [] => [a]
  | b :: bs => if strLe a b then a :: b :: bs else b :: insertSorted a bs

/-- `slice::sort`. -/
def sortStr (l : List Str) : List Str := l.foldr insertSorted []

/-- `Vec::dedup`: removes consecutive repeats. -/
def dedup : List Str → List Str
  | [] => []
  | [a] => [a]
  | a :: b :: rest => if a = b then dedup (b :: rest) else a :: dedup (b :: rest)

/-- `merge_string_vec` (permissions.rs:224-228). -/
def mergeVec (addTo add : List Str) : List Str := dedup (sortStr (addTo ++ add))

/-- `SandboxConfig::inherit` (permissions.rs:210-222). `pass_env` is not touched. -/
def Sandbox.inherit (self other : Sandbox) : Sandbox :=
  { self with
    kind := if self.kind.isNone then other.kind else self.kind
    extraArgs := mergeVec self.extraArgs other.extraArgs
    bindWritable := mergeVec self.bindWritable other.bindWritable
    makeWritable := mergeVec self.makeWritable other.makeWritable
    allowNetwork := if self.allowNetwork.isNone then other.allowNetwork else self.allowNetwork }

/-! ## Loading -/

/-- `merge_built_ins` (config.rs:219-238). `builtIns` is the table from `built_in.rs`.
`none` is the `Unknown API ... in import_std` error. -/
def mergeBuiltIns (builtIns : AMap Api ApiCfg) (cfg : Raw) : Option Raw := do
  let apis ← cfg.common.importStd.foldlM (fun apis imp => do
    let b ← AMap.get? builtIns imp
    let c := (AMap.get? apis imp).getD {}
    pure (AMap.insert apis imp { c with incl := c.incl ++ b.incl, excl := c.excl ++ b.excl }))
    cfg.apis
  pure { cfg with apis := apis, common := { cfg.common with importStd := [] } }

/-- The version-2 runtime patch (versions.rs:44-48). -/
def patch2 (cfg : Raw) : Raw :=
  if cfg.rustcSandbox.kind.isNone then
    { cfg with rustcSandbox := { cfg.rustcSandbox with kind := some .disabled } }
  else cfg

/-- `VERSIONS[n].apply_fn` for n = 0..3 (versions.rs:25-63): only version 2 changes anything. -/
def patches : List (Raw → Raw) := [id, id, patch2, id]

/-- `MAX_VERSION` (versions.rs:6). -/
def maxVersion : Int := 3

/-- `config.common.version as usize + 1` (versions.rs:77) on a 64-bit target in a build with overflow
checks disabled: two's complement conversion followed by wrapping addition. -/
def patchStart (version : Int) : Nat := ((version % (2 ^ 64 : Int)).toNat + 1) % 2 ^ 64

/-- `apply_runtime_patches` (versions.rs:76-80). -/
def applyRuntimePatches (cfg : Raw) : Raw :=
  (patches.drop (min (patchStart cfg.common.version) patches.length)).foldl (fun c f => f c) cfg

/-- `parse_raw` after TOML parsing (config.rs:211-217). -/
def parseRaw (builtIns : AMap Api ApiCfg) (doc : Raw) : Option Raw := do
  let cfg ← mergeBuiltIns builtIns doc
  let cfg := applyRuntimePatches cfg
  pure { cfg with rustcSandbox := cfg.rustcSandbox.inherit cfg.sandbox }

/-- The `UpdateConfigVersionPreserveBehaviour` edit for version `n` (config_editor.rs:970-972,
versions.rs:49-55, 60, 66-69), on the parsed document. -/
def updatePreserving (n : Nat) (doc : Raw) : Raw :=
  let doc := if n = 2 then patch2 doc else doc
  { doc with common := { doc.common with version := n } }

/-- One iteration of the outer loop of `load_imports` (config.rs:242-277) for a package whose import
list is `imports`. `exports` is the API table of the newest package with that name, `none` if the
package or its export file is missing. The result `none` models the error return. -/
def importPackage (pkg : Str) (imports : List Str) (exports : Option (AMap Api ApiCfg))
    (apis : AMap Api ApiCfg) : Option (AMap Api ApiCfg) :=
  if imports = [] then some apis
  else do
    let ex ← exports
    ex.foldlM (fun apis (e : Api × ApiCfg) =>
      if e.1 ∈ imports then
        let q := pkg ++ [':', ':'] ++ e.1
        if (AMap.get? apis q).isSome then none else some (AMap.insert apis q e.2)
      else some apis) apis

/-- `load_imports` (config.rs:241-279). Emptying the import lists afterwards is left out (it only
affects what sub-processes read). -/
def loadImports (exports : Str → Option (AMap Api ApiCfg)) (cfg : Raw) : Option Raw := do
  let apis ← cfg.packages.foldlM (fun apis (p : Str × PkgCfg) =>
    importPackage p.1 (p.2.perms.imports.getD []) (exports p.1) apis) cfg.apis
  pure { cfg with apis := apis }

/-! ## Paths -/

/-- `Path::is_absolute` on Unix. -/
def isAbsolute : Str → Bool
  | '/' :: _ => true
  | _ => false

/-- `make_paths_absolute` on a list (config.rs:340-354). `none` is the internal error. -/
def absPaths (root : Option Str) (paths : List Str) : Option (List Str) :=
  paths.mapM (fun p => if isAbsolute p then some p else root.map (fun r => r ++ ['/'] ++ p))

/-- `SandboxConfig::make_paths_absolute` (config.rs:332-338). -/
def Sandbox.makeAbs (root : Option Str) (s : Sandbox) : Option Sandbox := do
  let b ← absPaths root s.bindWritable
  let m ← absPaths root s.makeWritable
  pure { s with bindWritable := b, makeWritable := m }

/-- `PackageConfig::make_paths_absolute` (config.rs:319-330): recurses into `build` and `test`, not
into `from`. `none` is the internal error. -/
def PkgCfg.makeAbs (root : Option Str) : PkgCfg → Option PkgCfg
  | .mk p build test from_ => do
    let s ← p.sandbox.makeAbs root
    let b ← match build with
      | none => some none
      | some c => (c.makeAbs root).map some
    let t ← match test with
      | none => some none
      | some c => (c.makeAbs root).map some
    pure (.mk { p with sandbox := s } b t from_)

/-- `RawConfig::make_paths_absolute` (config.rs:310-317). -/
def Raw.makeAbs (root : Option Str) (cfg : Raw) : Option Raw := do
  let pk ← cfg.packages.mapM (fun (p : Str × PkgCfg) => (p.2.makeAbs root).map (fun c => (p.1, c)))
  pure { cfg with packages := pk }

end Cackle.Config
