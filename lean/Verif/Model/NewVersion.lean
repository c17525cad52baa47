import Verif.Model.Fixes

/-!
# Model of the check for newer versions of the configuration (`src/checker.rs`)
-/

namespace Cackle.NewVersion
open Cackle Config

/-- `check_for_new_config_version` (checker.rs:533-539). -/
def check (cfg : Raw) : List Problem :=
  if cfg.common.version < maxVersion then [Problem.newConfigVersionAvailable (cfg.common.version + 1)] else []

end Cackle.NewVersion
