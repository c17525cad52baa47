import Verif.Model.Config
import Verif.Model.Path
import Verif.Model.Identity

/-!
# Model of `src/sandbox.rs` and `src/sandbox/bubblewrap.rs`

Arguments, paths and variables are texts (variables that are not Unicode are not modelled). A failed `?` or
`bail!` is `none`.
-/

namespace Cackle.Sandboxing
open Cackle Config Perm BuildScript Identity

/-- What the code asks the operating system. -/
structure World where
  /-- The environment of the wrapper. -/
  env : AMap Str Str
  /-- `Path::exists` -/
  pathExists : Str → Bool
  /-- `Path::is_dir` -/
  isDir : Str → Bool
  /-- Whether `create_dir_all` succeeds. -/
  mkdir : Str → Bool

/-- `Path::join` with a relative path, as text. -/
def join (a b : Str) : Str :=
  if a = [] then b else if a.getLast? = some '/' then a ++ b else a ++ str! "/" ++ b

/-- `Bubblewrap::ro_bind` (bubblewrap.rs:56-63). -/
def roBind (w : World) (d : Str) : List Str :=
  if w.pathExists d then [str! "--ro-bind", d, d] else []

/-- `Bubblewrap::writable_bind` (bubblewrap.rs:65-69). -/
def writableBind (d : Str) : List Str := [str! "--bind-try", d, d]

/-- `Bubblewrap::tmpfs` (bubblewrap.rs:51-54). -/
def tmpfs (d : Str) : List Str := [str! "--tmpfs", d]

/-- `Bubblewrap::set_env` (bubblewrap.rs:71-75). -/
def setEnv (v x : Str) : List Str := [str! "--setenv", v, x]

/-- `Sandbox::pass_env` (sandbox.rs:39-44). -/
def passEnv (w : World) (v : Str) : List Str :=
  match w.env.get? v with
  | some x => setEnv v x
  | none => []

/-- `is_cargo_env` (sandbox.rs:295-311). -/
def isCargoEnv (v : Str) : Bool :=
  if v = str! "RUSTC_WRAPPER" then false
  else [str! "CARGO", str! "RUSTC", str! "DEP_"].any (fun p => startsWith v p) ||
    [str! "TARGET", str! "OPT_LEVEL", str! "PROFILE", str! "HOST", str! "NUM_JOBS", str! "DEBUG"].contains v

/-- `Sandbox::pass_cargo_env` (sandbox.rs:47-54). -/
def passCargoEnv (w : World) : List Str :=
  passEnv w (str! "OUT_DIR") ++
  w.env.flatMap (fun e => if isCargoEnv e.1 then setEnv e.1 e.2 else [])

/-- The arguments collected by `from_config` when HOME and CARGO_MANIFEST_DIR are known and the
configured directories are usable (sandbox.rs:67-129). -/
def configArgs (w : World) (cfg : Sandbox) (home manifest : Str) : List Str :=
  roBind w (str! "/") ++ tmpfs home ++ tmpfs (str! "/var") ++ tmpfs (str! "/tmp") ++
  roBind w (join (join home (str! ".cargo")) (str! "bin")) ++
  roBind w (join (join home (str! ".cargo")) (str! "git")) ++
  roBind w (join (join home (str! ".cargo")) (str! "registry")) ++
  roBind w (join home (str! ".rustup")) ++
  setEnv (str! "USER") (str! "user") ++ passEnv w (str! "PATH") ++ passEnv w (str! "HOME") ++
  cfg.passEnv.flatMap (passEnv w) ++
  roBind w manifest ++
  passEnv w (str! "LD_LIBRARY_PATH") ++ passCargoEnv w ++
  cfg.bindWritable.flatMap writableBind ++ cfg.makeWritable.flatMap writableBind ++
  cfg.extraArgs ++
  (if cfg.allowNetwork.getD false then [str! "--share-net"] else tmpfs (str! "/run"))

/-- `from_config` (sandbox.rs:61-132). The outer `none` is an error, the inner one no sandbox. -/
def fromConfig (w : World) (cfg : Sandbox) : Option (Option (List Str)) :=
  match cfg.kind with
  | none | some .disabled => some none
  | some .bubblewrap =>
    match w.env.get? (str! "HOME"), w.env.get? (str! "CARGO_MANIFEST_DIR") with
    | some home, some manifest =>
      if cfg.bindWritable.all (fun d => w.pathExists d && w.isDir d) && cfg.makeWritable.all w.mkdir then
        some (some (configArgs w cfg home manifest))
      else none
    | _, _ => none

/-- `Path::parent` as text, for a path without trailing or repeated slashes. -/
def parentText (p : Str) : Option Str :=
  if p = [] ∨ p = str! "/" then none
  else
    match p.reverse.dropWhile (· ≠ '/') with
    | [] => some []
    | [_] => some (str! "/")
    | _ :: r => some r.reverse

/-- `Path::file_name` as text, for such a path. -/
def fileName (p : Str) : Str := (p.reverse.takeWhile (· ≠ '/')).reverse

/-- `build_directory` (sandbox.rs:285-293). -/
def buildDirectory (exe : Str) : Option Str :=
  (parentText exe).map (fun parent =>
    if fileName parent = str! "deps" then (parentText parent).getD parent else parent)

/-- `for_perm_sel` (sandbox.rs:198-220): the sandbox of a build script, test or other binary. -/
def forPermSel (w : World) (cfg : Sandbox) (bin : Str) : Option (Option (List Str)) :=
  (fromConfig w cfg).map (fun o => o.map (fun args =>
    args ++ ((buildDirectory bin).map (roBind w)).getD [] ++
      ((w.env.get? (str! "OUT_DIR")).map writableBind).getD []))

/-- `struct RustcSandboxInputs` (sandbox.rs:136-143). -/
structure RustcInputs where
  outputDirs : List Str
  inputDirs : List Str
  buildScriptEnv : List Str

/-- The loop of `RustcSandboxInputs::from_env` (sandbox.rs:153-163): output directories on the command
line. -/
def outDirs : List Str → Bool → List Str
  | [], _ => []
  | a :: rest, true => a :: outDirs rest false
  | a :: rest, false =>
    ((stripPrefix (str! "incremental=") a).toList) ++ outDirs rest (a = str! "--out-dir")

/-- `RustcSandboxInputs::from_env` (sandbox.rs:146-174). `readVars` is `read_env_vars`. -/
def rustcInputs (w : World) (args : List Str) (readVars : Str → Str → List Str) : Option RustcInputs :=
  match w.env.get? (str! "CACKLE_TARGET_DIR"), w.env.get? (str! "CACKLE_BUILD_PROFILE"),
      w.env.get? (str! "CACKLE_MANIFEST_DIR") with
  | some target, some profile, some manifest =>
    let socket := match w.env.get? (str! "CACKLE_SOCKET_PATH") with
      | some s => (parentText s).toList
      | none => []
    some {
      outputDirs := (outDirs args false ++ socket).filter
        (fun d => !(PathC.startsWith (pathOf d) (pathOf target))) ++ [target]
      inputDirs := [manifest]
      buildScriptEnv := readVars target profile }
  | _, _, _ => none

/-- `for_rustc` (sandbox.rs:176-196) followed by the binding of cackle itself (subprocess.rs:262). -/
def forRustc (w : World) (cfg : Sandbox) (inp : RustcInputs) (exe : Str) : Option (Option (List Str)) :=
  (fromConfig w cfg).map (fun o => o.map (fun args =>
    args ++ inp.inputDirs.flatMap (roBind w) ++ inp.outputDirs.flatMap writableBind ++
      [str! "CACKLE_SOCKET_PATH", str! "CACKLE_CONFIG_PATH", envMultiple].flatMap (passEnv w) ++
      inp.buildScriptEnv.flatMap (passEnv w) ++ roBind w exe))

/-- `Bubblewrap::command` (bubblewrap.rs:20-44): the arguments of `bwrap`. The command's own variables
are set or removed. -/
def command (args : List Str) (vars : List (Str × Option Str)) (prog : Str) (progArgs : List Str) :
    List Str :=
  [str! "--unshare-all", str! "--uid", str! "1000", str! "--gid", str! "1000",
   str! "--hostname", str! "none", str! "--new-session", str! "--clearenv"] ++ args ++
  [str! "--dev", str! "/dev", str! "--proc", str! "/proc"] ++
  vars.flatMap (fun e =>
    match e.2 with
    | some x => [str! "--setenv", e.1, x]
    | none => [str! "--unsetenv", e.1]) ++
  str! "--" :: prog :: progArgs

/-! ## The file of variables set by a build script -/

/-- `write_env_vars` (sandbox.rs:252-266): the file name in the directory of the target and profile, and
the contents. -/
def varsFile (crate : CrateSel) (vars : List Str) : Str × Str :=
  (display crate.pkgId, joinWith (str! "\n") vars)

/-- `read_env_vars` (sandbox.rs:268-279); `files` is the directory. -/
def readVars (files : AMap Str Str) (crate : CrateSel) : List Str :=
  match files.get? (display crate.pkgId) with
  | none => []
  | some contents => (splitChar '\n' contents).filter (fun l => l ≠ [])

/-- What the main process does with the output of a successful build script (checker.rs:256-264): the
report is made and the variables are written. `none` is output that is not UTF-8. -/
def recordRun (perms : PermMap) (files : AMap Str Str) (crate : CrateSel) (stdout : Option Str) : AMap Str Str :=
  files.insert (varsFile crate (build perms crate stdout).envVars).1
    (varsFile crate (build perms crate stdout).envVars).2

end Cackle.Sandboxing
