import Verif.Model.Sandbox

/-!
# Model of where cackle keeps its own files during a run
-/

namespace Cackle.Sandboxing
open Cackle

/-- The socket on which the main process listens (proxy.rs:113-116): in a directory of its own below the
temporary directory. -/
def socketPath (tmp : Str) : Str := join (join tmp (str! "comms")) (str! "cackle.socket")

/-- `flattened_config_path` (config.rs:399-401): the configuration that the wrappers read. -/
def flattenedPath (tmp : Str) : Str := join tmp (str! "flattened_cackle.toml")

end Cackle.Sandboxing
