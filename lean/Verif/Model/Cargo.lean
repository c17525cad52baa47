import Verif.Model.Link

/-!
# Model of `src/proxy/cargo.rs` and of the commands that `src/proxy.rs` runs

Paths are texts. An environment is an association list. That the output of cargo is captured does not matter here.
-/

namespace Cackle.Cargo
open Cackle Perm Identity

/-- `enum Command` (main.rs:183-195); the options of `summary` do not matter here. -/
inductive Sub where
  | summary
  | test (remaining : List Str)
  | run (remaining : List Str)

/-- The part of `struct Args` (main.rs:82-180) that is used here. `colour` is `should_use_colour`. -/
structure Args where
  colour : Bool := false
  target : Option Str := none
  profile : Option Str := none
  features : Option Str := none
  package : List Str := []
  command : Option Sub := none

/-- The part of `struct CommonConfig` (config.rs:60-79) that is used here. -/
structure Common where
  buildFlags : Option (List Str) := none
  features : List Str := []
  profile : Option Str := none

/-- A command: arguments, environment and current directory. The program is `cargo`. -/
structure Cmd where
  args : List Str
  env : AMap Str Str
  cwd : Str

/-- `DEFAULT_PROFILE_NAME` (cargo.rs:8). -/
def defaultProfile : Str := str! "cackle"

/-- `profile_name` (cargo.rs:17-24). -/
def profileName (args : Args) (config : Common) : Str :=
  (args.profile.or config.profile).getD defaultProfile

/-- `PROFILE_NAME_ENV` (cargo.rs:9). -/
def envProfile : Str := str! "CACKLE_BUILD_PROFILE"

/-- The subcommand (cargo.rs:39-52). -/
def subcommand (base : Str) (args : Args) : Str :=
  match args.command with
  | some (.test _) => str! "test"
  | some (.run _) => str! "run"
  | _ => base

/-- The arguments of the user for the subcommand (cargo.rs:39-52). -/
def extraArgs (args : Args) : List Str :=
  match args.command with
  | some (.test r) => r
  | some (.run r) => r
  | _ => []

/-- The settings of the profile (cargo.rs:54-76). -/
def settings : List Str :=
  [str! "--config", str! "profile." ++ defaultProfile ++ str! ".inherits=\"dev\"",
   str! "--config", str! "profile." ++ defaultProfile ++ str! ".opt-level=0",
   str! "--config", str! "profile." ++ defaultProfile ++ str! ".debug=true",
   str! "--config", str! "profile." ++ defaultProfile ++ str! ".incremental=false",
   str! "--config", str! "split-debuginfo=\"off\""]

/-- `command` (cargo.rs:26-83). `menv` is the environment of the main process. -/
def command (base dir targetDir : Str) (args : Args) (config : Common) (menv : AMap Str Str) : Cmd :=
  { args := (if args.colour then [str! "--color=always"] else []) ++ [subcommand base args] ++ settings ++
      [str! "--profile", profileName args config] ++ extraArgs args
    env := (menv.insert (str! "CARGO_BUILD_BUILD_DIR") targetDir).insert envProfile (profileName args config)
    cwd := dir }

/-- The command of `clean` (proxy.rs:81-96). -/
def cleanCommand (dir targetDir : Str) (args : Args) (config : Common) (menv : AMap Str Str) : Cmd :=
  command (str! "clean") dir targetDir args config menv

/-- The features (proxy.rs:148-152). -/
def features (args : Args) (config : Common) : Str :=
  args.features.getD (joinWith (str! ",") config.features)

/-- The flags of a full run (proxy.rs:131-143). -/
def flags (args : Args) (config : Common) : List Str :=
  match args.command with
  | none => config.buildFlags.getD [str! "--all-targets"]
  | some _ => []

/-- What else `invoke_cargo_build` (proxy.rs:102-176) puts into the environment: the socket, the flattened config, the target
directory, the workspace, the compiler, cackle itself and the names of packages with several versions. -/
structure Setup where
  socket : Str
  configPath : Str
  rustc : Str
  exe : Str
  ids : List PkgId

/-- The command of `invoke_cargo_build` (proxy.rs:122-176) with `add_internal_env` (crate_index.rs:158-170). -/
def buildCommand (dir targetDir : Str) (args : Args) (config : Common) (su : Setup) (menv : AMap Str Str) : Cmd :=
  let c := command (str! "build") dir targetDir args config menv
  { args := c.args ++ args.package.flatMap (fun p => [str! "-p", p]) ++ flags args config ++
      (match args.target with
       | some t => [str! "--target", t]
       | none => []) ++
      (if features args config ≠ [] then [str! "--features", features args config] else [])
    env := (((((((c.env.insert Link.envSocket su.socket).insert (str! "CACKLE_CONFIG_PATH") su.configPath).insert
      (str! "CACKLE_TARGET_DIR") targetDir).insert (str! "CACKLE_MANIFEST_DIR") dir).insert
      (str! "CACKLE_RUSTC_PATH") su.rustc).insert (str! "RUSTC_WRAPPER") su.exe).insert envMultiple
      (multipleNames su.ids)).erase envPkgName
    cwd := c.cwd }

end Cackle.Cargo
