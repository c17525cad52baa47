import Verif.Model.ConfigFile

/-!
# Model of which settings of the config file are used when (`src/main.rs`)
-/

namespace Cackle.Settings
open Cackle Toml ConfigFile

/-- The settings with which `cargo clean` and the build are run, and those that are loaded when the build begins. -/
structure Used where
  clean : Cargo.Common
  cargo : Cargo.Common
  inForce : Cargo.Common

/-- The loading of the configuration in `Cackle::run` (main.rs:365-373, 383-384, 397, 410) and in the loop of
`RequestHandler::handle_request` (main.rs:577-607), which is first run without a request. `doc1`, `reloads` and `doc2` are the contents of
the file when it is read before, in and after that loop. `none` if a file cannot be read. -/
def run (doc1 : Entries) (reloads : List Entries) (doc2 : Entries) : Option Used :=
  (readBuildOpts doc1).bind fun c1 =>
  (reloads.foldlM (fun _ d => readBuildOpts d) c1).bind fun c =>
  (readBuildOpts doc2).bind fun c2 =>
  some ⟨c1, c, c2⟩

end Cackle.Settings
