import Verif.Model.Permissions
import Verif.Model.BuildScript

/-!
# Model of package identity (`src/crate_index.rs`) and of the environment of the wrappers

A version is its text: `Version::parse` followed by `Display` is the identity on the version texts that
cargo produces, and this is not modelled further. An environment is an association list.
-/

namespace Cackle.Identity
open Cackle Perm BuildScript

/-- The part of a `cargo_metadata::Package` that is used for identity. -/
structure Package where
  name : Str
  version : Str
deriving DecidableEq

/-- The identity given to a package by `CrateIndex::new` (crate_index.rs:86-95): the name is unique if it
was counted once. -/
def indexId (pkgs : List Package) (p : Package) : PkgId :=
  ⟨p.name, p.version, decide ((pkgs.filter (fun q => q.name = p.name)).length = 1)⟩

/-- The variable put into the environment by `add_internal_env` (crate_index.rs:157-170). `ids` are the
keys of the hash map `package_infos`, in its iteration order. -/
def multipleNames (ids : List PkgId) : Str :=
  joinWith (str! ",") (ids.filterMap (fun id => if id.nameIsUnique then none else some id.name))

/-- Names of environment variables. -/
def envPkgName : Str := str! "CARGO_PKG_NAME"
def envPkgVersion : Str := str! "CARGO_PKG_VERSION"
def envCrateName : Str := str! "CARGO_CRATE_NAME"
/-- `MULTIPLE_VERSION_PKG_NAMES_ENV` (crate_index.rs:74). -/
def envMultiple : Str := str! "CACKLE_MULTIPLE_VERSION_PKG_NAMES"
/-- `ENV_CRATE_KIND` (subprocess.rs:40). -/
def envCrateKind : Str := str! "CACKLE_CRATE_KIND"

/-- `PackageId::from_env` (crate_index.rs:251-265); `none` is an error. -/
def pkgFromEnv (env : AMap Str Str) : Option PkgId :=
  match env.get? envPkgName, env.get? envPkgVersion, env.get? envMultiple with
  | some name, some version, some multi =>
    some ⟨name, version, (splitChar ',' multi).all (fun p => p ≠ name)⟩
  | _, _, _ => none

/-- `CrateKind::to_token` (crate_index.rs:334-340). -/
def toToken : CrateKind → Str
  | .primary => str! "primary"
  | .buildScript => str! "build-script"
  | .test => str! "test"

/-- `CrateKind::from_token` (crate_index.rs:342-349). -/
def fromToken (t : Str) : Option CrateKind :=
  if t = str! "primary" then some .primary
  else if t = str! "build-script" then some .buildScript
  else if t = str! "test" then some .test
  else none

/-- `CrateSel::with_selector_token` (crate_index.rs:325-330). -/
def withToken (c : CrateSel) (t : Str) : Option CrateSel := (fromToken t).map (fun k => ⟨c.pkgId, k⟩)

/-- `CrateSel::from_env` (crate_index.rs:303-315). -/
def crateFromEnv (env : AMap Str Str) : Option CrateSel :=
  match pkgFromEnv env with
  | none => none
  | some id =>
    if ((env.get? envCrateName).map (fun v => startsWith v (str! "build_script_"))).getD false then
      some ⟨id, .buildScript⟩
    else
      match env.get? envCrateKind with
      | some t => withToken ⟨id, .primary⟩ t
      | none => some ⟨id, .primary⟩

/-- The selector used by the rustc wrapper (subprocess.rs:203-206). -/
def rustcCrate (env : AMap Str Str) (args : List Str) : Option CrateSel :=
  (crateFromEnv env).map (fun c => if str! "--test" ∈ args then { c with kind := .test } else c)

/-- The environment in which the compiler runs the linker wrapper: that of the rustc wrapper with the
token added (subprocess.rs:356). -/
def linkerEnv (env : AMap Str Str) (crate : CrateSel) : AMap Str Str :=
  env.insert envCrateKind (toToken crate.kind)

/-- The selector in the `LinkInfo` sent by the linker wrapper (link_info.rs:20-21). -/
def linkerCrate (env : AMap Str Str) (args : List Str) : Option CrateSel :=
  (rustcCrate env args).bind (fun c => crateFromEnv (linkerEnv env c))

/-- The selector used by the wrapper of a linked binary, which gets the token as an argument
(subprocess.rs:95, 115 and 62). `env` is the environment in which the binary is run. -/
def binCrate (env : AMap Str Str) (linked : CrateSel) : Option CrateSel :=
  (crateFromEnv env).bind (fun c => withToken c (toToken linked.kind))

/-- `Display for PackageId` (crate_index.rs:358-377). -/
def display (id : PkgId) : Str :=
  id.name ++ (if id.nameIsUnique then [] else str! "[" ++ id.version ++ str! "]")

end Cackle.Identity
