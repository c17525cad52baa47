import Verif.Model.Config

/-!
# Model of `src/config/built_in.rs`
-/

namespace Cackle.Config
open Cackle.ApiMap (Api)

/-- `perm` (built_in.rs:66-72). -/
def builtIn (incl excl : List Str) : ApiCfg := { incl := incl, excl := excl }

/-- `get_built_ins` (built_in.rs:6-64). -/
def builtIns : AMap Api ApiCfg :=
  [(str! "fs", builtIn [str! "std::fs", str! "std::os::linux::fs", str! "std::os::unix::fs",
      str! "std::os::unix::io", str! "std::path"] []),
   (str! "env", builtIn [str! "std::env"] []),
   (str! "net", builtIn [str! "std::net", str! "std::os::linux::net"] []),
   (str! "unix_sockets", builtIn [str! "std::os::unix::net"] []),
   (str! "process", builtIn [str! "std::process", str! "std::os::linux::process",
      str! "std::unix::process"] [str! "std::process::abort", str! "std::process::exit"]),
   (str! "terminate", builtIn [str! "std::process::abort", str! "std::process::exit"] [])]

end Cackle.Config
