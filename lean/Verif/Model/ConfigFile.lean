import Verif.Model.Toml
import Verif.Model.Validation
import Verif.Model.Cargo

/-!
# Model of how a config file is found and loaded (`src/config.rs`, `src/main.rs`)

The text of the file is represented by its TOML tree, see `Model/Toml.lean`. serde would also accept a table that is
written as an array of its fields in order, and an enum that is written as a table; here these are errors.
-/

namespace Cackle.ConfigFile
open Cackle Config Perm Toml
open Cackle.ApiMap (Api)

/-- Deserialising the fields of `CommonConfig` that `Model/Config.lean` leaves out (config.rs:66-78); it is called on
what `readCommon` accepted. -/
def readBuildOpts (doc : Entries) : Option Cargo.Common :=
  ((doc.get? (str! "common")).bind Item.entries).bind fun es =>
  (optField readStrs es (str! "build_flags")).bind fun buildFlags =>
  (field readStrs [] es (str! "features")).bind fun features =>
  (optField readStr es (str! "profile")).bind fun profile =>
  some { buildFlags, features, profile }

/-- `parse_file` (config.rs:181-188) for a file with the TOML tree `doc`. `limit` is the nesting that the parser accepts,
`exports` what the packages export, `root` the parent of the manifest. -/
def parseFile (limit : Nat) (builtIns : AMap Api ApiCfg) (exports : Str → Option (AMap Api ApiCfg))
    (root : Option Str) (doc : Entries) : Option Raw :=
  (readDoc limit doc).bind fun raw =>
  (parseRaw builtIns raw).bind fun raw =>
  (loadImports exports raw).bind fun raw =>
  (raw.makeAbs root).bind fun raw =>
  if validate raw = [] then some raw else none


/-- The loop of `root_path` (main.rs:538-549). `exists_ dir` is `dir.join("Cargo.toml").exists()`. -/
def searchUp (exists_ : List Str → Bool) : List Str → Option (List Str)
  | [] => if exists_ [] then some [] else none
  | c :: rest => if exists_ (c :: rest) then some (c :: rest) else searchUp exists_ rest

/-- `root_path` (main.rs:531-550). `cwd` is `None` if the current directory cannot be determined. -/
def rootPath (path : Option (List Str)) (cwd : Option (List Str)) (exists_ : List Str → Bool) : Option (List Str) :=
  match path with
  | some p => some p
  | none => cwd.bind (searchUp exists_)

/-- `config_path` (main.rs:254-257), for a root directory that has been resolved. -/
def configPath (cacklePath : Option (List Str)) (root : List Str) : List Str :=
  cacklePath.getD (str! "cackle.toml" :: root)

end Cackle.ConfigFile
