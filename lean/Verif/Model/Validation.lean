import Verif.Model.Permissions

/-!
# Model of `src/config_validation.rs`
-/

namespace Cackle.Perm
open Config
open Cackle.ApiMap (Api)

/-- `enum Problem` (config_validation.rs:15-21). The text of an `InvalidPkgSelector` is made of a selector and a
key (config_validation.rs:40-46). -/
inductive ConfigProblem where
  | unknownPermission (a : Api)
  | duplicateAllowedApi (a : Api)
  | unsupportedVersion (v : Int)
  | invalidPkgSelector (sel : PermSel) (key : Str)
deriving DecidableEq

/-- The inner loop over `allow_apis` (config_validation.rs:30-38). -/
def checkApis (known : List Api) : List Api → List Api → List ConfigProblem
  | [], _ => []
  | a :: rest, used =>
    (if a ∈ known then [] else [.unknownPermission a]) ++
    (if a ∈ used then [.duplicateAllowedApi a] else []) ++
    checkApis known rest (setInsert a used)

/-- Body of the outer loop (config_validation.rs:29-48). -/
def checkEntry (known : List Api) (e : PermSel × PkgCfg) : List ConfigProblem :=
  checkApis known e.2.perms.allowApis [] ++
  (if e.2.build.isSome then [.invalidPkgSelector e.1 (str! "build")] else []) ++
  (if e.2.test.isSome then [.invalidPkgSelector e.1 (str! "test")] else []) ++
  (if e.2.from_.isSome then [.invalidPkgSelector e.1 (str! "dep")] else [])

/-- `validate` (config_validation.rs:23-57): the list of problems, empty for `Ok(())`.
`permissions_no_inheritance` is `fromConfig cfg` (config.rs:192). -/
def validate (cfg : Raw) : List ConfigProblem :=
  (if cfg.common.version < 1 ∨ cfg.common.version > maxVersion
    then [.unsupportedVersion cfg.common.version] else []) ++
  (fromConfig cfg).flatMap (checkEntry cfg.apis.keys)

end Cackle.Perm
