import Verif.Model.Editor
import Verif.Model.Checker

/-!
# Model of the search for exported APIs that are not imported (`src/config.rs`)
-/

namespace Cackle.Exports
open Cackle Config Perm
open Cackle.ApiMap (Api)

/-- `RawConfig::unused_imports` (config.rs:281-307). `ids` lists the packages of the crate index and
`exports` is what `exported_config_for_package` (config.rs:357-362) gives, `none` for an error. -/
def unusedImports (exports : PkgId → Option (AMap Api ApiCfg)) (ids : List PkgId) (cfg : Raw) : List Problem :=
  ids.flatMap fun pkg =>
    if (cfg.packages.get? pkg.name).any (fun c => c.perms.imports.isSome) then []
    else
      match exports pkg with
      | none => []
      | some apis => apis.map (fun e => .availableApi pkg e.1 e.2)

end Cackle.Exports
