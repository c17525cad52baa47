import Verif.Model.Validation
import Verif.Model.Report

/-!
# Model of the message about an invalid configuration (`src/config_validation.rs`)
-/

namespace Cackle.Invalid
open Cackle Config Perm

/-- What is written for one problem (config_validation.rs:63-74). -/
def problemText : ConfigProblem → Str
  | .unknownPermission a => str! "  Unknown permission '" ++ a ++ str! "'"
  | .duplicateAllowedApi a => str! "  API allowed more than once '" ++ a ++ str! "'"
  | .unsupportedVersion v => str! "  Unsupported version '" ++ Json.showInt v ++ str! "'"
  | .invalidPkgSelector sel key => str! "  Unsupported package selector `pkg." ++ (Report.selText sel ++ '.' :: key) ++ str! "`"

/-- `Display` for `InvalidConfig` (config_validation.rs:59-78). -/
def message (path : Str) (ps : List ConfigProblem) : Str :=
  str! "Invalid config " ++ path ++ str! "\n" ++ ps.flatMap problemText

end Cackle.Invalid
