import Verif.Model.Json
import Verif.Model.Permissions
import Verif.Model.Cargo
import Verif.Model.Validation

/-!
# Requests, answers and the configuration for sub-processes as JSON

`Serialize` and `Deserialize` are derived for the types here (`src/proxy/rpc.rs`, `src/crate_index.rs`,
`src/link_info.rs`, `src/location.rs`, `src/outcome.rs`, `src/config.rs`, `src/config/permissions.rs`), so
reading and writing them follows the rules of `serde`: a structure is an object, a missing field is an error
unless it is optional or has a default, a field given twice is an error, an unknown field is ignored or, with
`deny_unknown_fields`, an error; a variant of an enumeration is its name, or an object with one field.

Simplifications: the other forms that the derived code can read but never writes (a structure as an array, a
variant without data as an object) are errors here. Versions are texts as in `Model/Identity.lean`.
-/

namespace Cackle.Messages
open Cackle Json Config Perm

/-! ## Building blocks -/

/-- A path: `serde` can only write it if it is UTF-8. -/
inductive OsPath where
  | utf8 (s : Str)
  | other (bytes : List Wire.Byte)
deriving DecidableEq

/-- `Serialize for Path`. -/
def encPath : OsPath → Option Json
  | .utf8 s => some (.str s)
  | .other _ => none

def decStr : Json → Option Str
  | .str s => some s
  | _ => none

def decPath (j : Json) : Option OsPath := (decStr j).map .utf8

def decBool : Json → Option Bool
  | .bool b => some b
  | _ => none

/-- An integer type with this range. -/
def decInt (lo hi : Int) : Json → Option Int
  | .num n => if lo ≤ n ∧ n < hi then some n else none
  | _ => none

def decNat (bound : Nat) : Json → Option Nat
  | .num n => if 0 ≤ n ∧ n < bound then some n.toNat else none
  | _ => none

/-- The bound of `u32`. -/
def u32 : Nat := 2 ^ 32

/-- `Vec`. -/
def decList {A : Type} (dec : Json → Option A) : Json → Option (List A)
  | .arr l => l.mapM dec
  | _ => none

/-- `Option`. -/
def encOpt {A : Type} (enc : A → Json) : Option A → Json
  | none => .null
  | some a => enc a

def decOpt {A : Type} (dec : Json → Option A) : Json → Option (Option A)
  | .null => some none
  | j => (dec j).map some

/-- The fields of a structure: no known field twice, and nothing unknown if that is denied. -/
def fieldsOf (known : List Str) (deny : Bool) : Json → Option (AMap Str Json)
  | .obj l =>
    if (known.all (fun k => ((l.filter (fun e => e.1 = k)).length) ≤ 1)) &&
        (!deny || l.all (fun e => known.contains e.1)) then some l else none
  | _ => none

/-- A required field. -/
def req {A : Type} (l : AMap Str Json) (k : Str) (dec : Json → Option A) : Option A := (l.get? k).bind dec

/-- A field with a default, which for an optional field is `none`. -/
def dflt {A : Type} (l : AMap Str Json) (k : Str) (a : A) (dec : Json → Option A) : Option A :=
  match l.get? k with
  | none => some a
  | some j => dec j

/-! ## Packages and crates -/

/-- `PackageId` (crate_index.rs:37-45). -/
def encPkgId (p : PkgId) : Json :=
  .obj [(str! "name", .str p.name), (str! "version", .str p.version), (str! "name_is_unique", .bool p.nameIsUnique)]

def decPkgId (j : Json) : Option PkgId :=
  (fieldsOf [str! "name", str! "version", str! "name_is_unique"] false j).bind (fun l =>
  (req l (str! "name") decStr).bind (fun name =>
  (req l (str! "version") decStr).bind (fun version =>
  (req l (str! "name_is_unique") decBool).bind (fun unique => some ⟨name, version, unique⟩))))

/-- `CrateKind` (crate_index.rs:54-59). -/
def encKind : CrateKind → Json
  | .primary => .str (str! "Primary")
  | .buildScript => .str (str! "BuildScript")
  | .test => .str (str! "Test")

def decKind (j : Json) : Option CrateKind :=
  (decStr j).bind (fun s =>
    if s = str! "Primary" then some .primary
    else if s = str! "BuildScript" then some .buildScript
    else if s = str! "Test" then some .test
    else none)

/-- `CrateSel` (crate_index.rs:47-52). -/
def encCrate (c : CrateSel) : Json := .obj [(str! "pkg_id", encPkgId c.pkgId), (str! "kind", encKind c.kind)]

def decCrate (j : Json) : Option CrateSel :=
  (fieldsOf [str! "pkg_id", str! "kind"] false j).bind (fun l =>
  (req l (str! "pkg_id") decPkgId).bind (fun p =>
  (req l (str! "kind") decKind).bind (fun k => some ⟨p, k⟩)))

/-! ## Sandbox -/

/-- `SandboxKind` (config.rs:135-139). -/
def encSandboxKind : SandboxKind → Json
  | .disabled => .str (str! "Disabled")
  | .bubblewrap => .str (str! "Bubblewrap")

def decSandboxKind (j : Json) : Option SandboxKind :=
  (decStr j).bind (fun s =>
    if s = str! "Disabled" then some .disabled
    else if s = str! "Bubblewrap" then some .bubblewrap
    else none)

def encStrs (l : List Str) : Json := .arr (l.map .str)

/-- `SandboxConfig` (config.rs:81-100). The paths come from a TOML file and are text (a relative one in a directory
whose path is not text makes `serialise` fail; that is not modelled). -/
def encSandbox (s : Sandbox) : Json :=
  .obj [(str! "kind", encOpt encSandboxKind s.kind), (str! "extra_args", encStrs s.extraArgs),
    (str! "allow_network", encOpt .bool s.allowNetwork), (str! "bind_writable", encStrs s.bindWritable),
    (str! "make_writable", encStrs s.makeWritable), (str! "pass_env", encStrs s.passEnv)]

def sandboxFields : List Str :=
  [str! "kind", str! "extra_args", str! "allow_network", str! "bind_writable", str! "make_writable", str! "pass_env"]

def decSandbox (j : Json) : Option Sandbox :=
  (fieldsOf sandboxFields true j).bind (fun l =>
  (dflt l (str! "kind") none (decOpt decSandboxKind)).bind (fun kind =>
  (dflt l (str! "extra_args") [] (decList decStr)).bind (fun extraArgs =>
  (dflt l (str! "allow_network") none (decOpt decBool)).bind (fun allowNetwork =>
  (dflt l (str! "bind_writable") [] (decList decStr)).bind (fun bindWritable =>
  (dflt l (str! "make_writable") [] (decList decStr)).bind (fun makeWritable =>
  (dflt l (str! "pass_env") [] (decList decStr)).bind (fun passEnv =>
    some { kind, extraArgs, allowNetwork, bindWritable, makeWritable, passEnv })))))))

/-! ## Requests -/

/-- `SourceLocation` (location.rs:7-12); line and column are 32-bit numbers. -/
structure Loc where
  file : OsPath
  line : Nat
  column : Option Nat
deriving DecidableEq

def encLoc (x : Loc) : Option Json :=
  (encPath x.file).map (fun f =>
    .obj [(str! "filename", f), (str! "line", .num x.line), (str! "column", encOpt (fun (n : Nat) => Json.num n) x.column)])

def decLoc (j : Json) : Option Loc :=
  (fieldsOf [str! "filename", str! "line", str! "column"] false j).bind (fun l =>
  (req l (str! "filename") decPath).bind (fun file =>
  (req l (str! "line") (decNat u32)).bind (fun line =>
  (dflt l (str! "column") none (decOpt (decNat u32))).bind (fun column => some ⟨file, line, column⟩))))

/-- `UnsafeUsage`, `ExternUsage` (rpc.rs:127-137). -/
structure Usage where
  crate : CrateSel
  locations : List Loc
deriving DecidableEq

def encUsage (u : Usage) : Option Json :=
  (u.locations.mapM encLoc).map (fun ls => .obj [(str! "crate_sel", encCrate u.crate), (str! "locations", .arr ls)])

def decUsage (j : Json) : Option Usage :=
  (fieldsOf [str! "crate_sel", str! "locations"] false j).bind (fun l =>
  (req l (str! "crate_sel") decCrate).bind (fun c =>
  (req l (str! "locations") (decList decLoc)).bind (fun ls => some ⟨c, ls⟩)))

/-- `LinkInfo` (link_info.rs:10-17). -/
structure Link where
  crate : CrateSel
  objects : List OsPath
  output : OsPath
  isShared : Bool
deriving DecidableEq

def encLink (x : Link) : Option Json :=
  (x.objects.mapM encPath).bind (fun os => (encPath x.output).map (fun o =>
    .obj [(str! "crate_sel", encCrate x.crate), (str! "object_paths", .arr os), (str! "output_file", o),
      (str! "is_shared", .bool x.isShared)]))

def decLink (j : Json) : Option Link :=
  (fieldsOf [str! "crate_sel", str! "object_paths", str! "output_file", str! "is_shared"] false j).bind (fun l =>
  (req l (str! "crate_sel") decCrate).bind (fun c =>
  (req l (str! "object_paths") (decList decPath)).bind (fun os =>
  (req l (str! "output_file") decPath).bind (fun o =>
  (req l (str! "is_shared") decBool).bind (fun s => some ⟨c, os, o, s⟩)))))

/-- `BinExecutionOutput` (rpc.rs:107-119). -/
structure BinOut where
  exitCode : Int
  stdout : List Nat
  stderr : List Nat
  crate : CrateSel
  sandbox : Sandbox
  binary : OsPath
  display : Option Str
deriving DecidableEq

def encBytes (l : List Nat) : Json := .arr (l.map (fun (n : Nat) => .num n))

def encBinOut (x : BinOut) : Option Json :=
  (encPath x.binary).map (fun b =>
    .obj [(str! "exit_code", .num x.exitCode), (str! "stdout", encBytes x.stdout), (str! "stderr", encBytes x.stderr),
      (str! "crate_sel", encCrate x.crate), (str! "sandbox_config", encSandbox x.sandbox), (str! "binary_path", b),
      (str! "sandbox_config_display", encOpt .str x.display)])

def binOutFields : List Str :=
  [str! "exit_code", str! "stdout", str! "stderr", str! "crate_sel", str! "sandbox_config", str! "binary_path",
    str! "sandbox_config_display"]

def decBinOut (j : Json) : Option BinOut :=
  (fieldsOf binOutFields false j).bind (fun l =>
  (req l (str! "exit_code") (decInt (-2 ^ 31) (2 ^ 31))).bind (fun exitCode =>
  (req l (str! "stdout") (decList (decNat 256))).bind (fun stdout =>
  (req l (str! "stderr") (decList (decNat 256))).bind (fun stderr =>
  (req l (str! "crate_sel") decCrate).bind (fun crate =>
  (req l (str! "sandbox_config") decSandbox).bind (fun sandbox =>
  (req l (str! "binary_path") decPath).bind (fun binary =>
  (dflt l (str! "sandbox_config_display") none (decOpt decStr)).bind (fun display =>
    some { exitCode, stdout, stderr, crate, sandbox, binary, display }))))))))

/-- `RustcOutput` (rpc.rs:121-125). -/
structure RustcOut where
  crate : CrateSel
  sources : List OsPath
deriving DecidableEq

def encRustcOut (x : RustcOut) : Option Json :=
  (x.sources.mapM encPath).map (fun ps => .obj [(str! "crate_sel", encCrate x.crate), (str! "source_paths", .arr ps)])

def decRustcOut (j : Json) : Option RustcOut :=
  (fieldsOf [str! "crate_sel", str! "source_paths"] false j).bind (fun l =>
  (req l (str! "crate_sel") decCrate).bind (fun c =>
  (req l (str! "source_paths") (decList decPath)).bind (fun ps => some ⟨c, ps⟩)))

/-- `Request` (rpc.rs:94-104). -/
inductive Request where
  | usesUnsafe (u : Usage)
  | usesExtern (u : Usage)
  | linkerInvoked (l : Link)
  | binComplete (b : BinOut)
  | rustcStarted (c : CrateSel)
  | rustcComplete (r : RustcOut)
deriving DecidableEq

/-- A variant with data. -/
def variant (name : Str) (j : Json) : Json := .obj [(name, j)]

def encRequest : Request → Option Json
  | .usesUnsafe u => (encUsage u).map (variant (str! "CrateUsesUnsafe"))
  | .usesExtern u => (encUsage u).map (variant (str! "CrateUsesExtern"))
  | .linkerInvoked l => (encLink l).map (variant (str! "LinkerInvoked"))
  | .binComplete b => (encBinOut b).map (variant (str! "BinExecutionComplete"))
  | .rustcStarted c => some (variant (str! "RustcStarted") (encCrate c))
  | .rustcComplete r => (encRustcOut r).map (variant (str! "RustcComplete"))

def decRequest : Json → Option Request
  | .obj [(k, j)] =>
    if k = str! "CrateUsesUnsafe" then (decUsage j).map .usesUnsafe
    else if k = str! "CrateUsesExtern" then (decUsage j).map .usesExtern
    else if k = str! "LinkerInvoked" then (decLink j).map .linkerInvoked
    else if k = str! "BinExecutionComplete" then (decBinOut j).map .binComplete
    else if k = str! "RustcStarted" then (decCrate j).map .rustcStarted
    else if k = str! "RustcComplete" then (decRustcOut j).map .rustcComplete
    else none
  | _ => none

/-- `Outcome` (outcome.rs:8-12). -/
inductive Outcome where
  | goOn | giveUp
deriving DecidableEq

def encOutcome : Outcome → Json
  | .goOn => .str (str! "Continue")
  | .giveUp => .str (str! "GiveUp")

def decOutcome (j : Json) : Option Outcome :=
  (decStr j).bind (fun s =>
    if s = str! "Continue" then some .goOn
    else if s = str! "GiveUp" then some .giveUp
    else none)

/-! ## Bytes -/

/-- `str::as_bytes`. -/
def toBytes (s : Str) : List Wire.Byte := (s.flatMap String.utf8EncodeChar).map UInt8.toFin

/-- `str::from_utf8`. -/
def fromBytes (l : List Wire.Byte) : Option Str :=
  (ByteArray.utf8Decode? ⟨(l.map UInt8.ofFin).toArray⟩).map Array.toList

/-- `write_to_stream` for a request (rpc.rs:142-147): the bytes written, `none` for an error. -/
def sendRequest (r : Request) : Option (List Wire.Byte) :=
  (encRequest r).map (fun j => Wire.leBytes 8 (toBytes (text j)).length ++ toBytes (text j))

/-- `read_from_stream` (rpc.rs:150-158) for a type given by its decoder. -/
def receive {A : Type} (dec : Json → Option A) (s : List Wire.Byte) : Option (A × List Wire.Byte) :=
  Wire.readMsg (fun buf => (fromBytes buf).bind (fun t => (parse t).bind dec)) s

/-- `write_to_stream` for an answer. -/
def sendOutcome (o : Outcome) : List Wire.Byte :=
  Wire.leBytes 8 (toBytes (text (encOutcome o))).length ++ toBytes (text (encOutcome o))

/-! ## The configuration for sub-processes -/

/-- All fields of `CommonConfig` (config.rs:60-79). -/
structure FullCommon where
  common : Config.Common
  cargo : Cargo.Common

def encCommon (c : FullCommon) : Json :=
  .obj [(str! "version", .num c.common.version), (str! "explicit_build_scripts", .bool c.common.explicitBuildScripts),
    (str! "build_flags", encOpt encStrs c.cargo.buildFlags), (str! "import_std", encStrs c.common.importStd),
    (str! "features", encStrs c.cargo.features), (str! "profile", encOpt .str c.cargo.profile)]

def commonFields : List Str :=
  [str! "version", str! "explicit_build_scripts", str! "build_flags", str! "import_std", str! "features", str! "profile"]

def decCommon (j : Json) : Option FullCommon :=
  (fieldsOf commonFields true j).bind (fun l =>
  (req l (str! "version") (decInt (-2 ^ 63) (2 ^ 63))).bind (fun version =>
  (dflt l (str! "explicit_build_scripts") false decBool).bind (fun explicitBuildScripts =>
  (dflt l (str! "build_flags") none (decOpt (decList decStr))).bind (fun buildFlags =>
  (dflt l (str! "import_std") [] (decList decStr)).bind (fun importStd =>
  (dflt l (str! "features") [] (decList decStr)).bind (fun features =>
  (dflt l (str! "profile") none (decOpt decStr)).bind (fun profile =>
    some ⟨{ version, explicitBuildScripts, importStd }, { buildFlags, features, profile }⟩)))))))

mutual
/-- `PackageConfig` (config.rs:143-172). -/
def encPkgCfg : PkgCfg → Json
  | .mk p build test from_ =>
    .obj [(str! "allow_unsafe", .bool p.allowUnsafe), (str! "allow_extern", .bool p.allowExtern),
      (str! "allow_build_instructions", encStrs p.allowBuildInstructions), (str! "allow_apis", encStrs p.allowApis),
      (str! "allow_proc_macro", .bool p.allowProcMacro), (str! "build", encOptPkg build), (str! "test", encOptPkg test),
      (str! "from", encFrom from_), (str! "sandbox", encSandbox p.sandbox), (str! "import", encOpt encStrs p.imports)]
def encOptPkg : Option PkgCfg → Json
  | none => .null
  | some c => encPkgCfg c
/-- `FromConfig` (config.rs:174-179). -/
def encFrom : Option (Option PkgCfg × Option PkgCfg) → Json
  | none => .null
  | some f => encPair f
def encPair : Option PkgCfg × Option PkgCfg → Json
  | (b, t) => .obj [(str! "build", encOptPkg b), (str! "test", encOptPkg t)]
end

def pkgCfgFields : List Str :=
  [str! "allow_unsafe", str! "allow_extern", str! "allow_build_instructions", str! "allow_apis", str! "allow_proc_macro",
    str! "build", str! "test", str! "from", str! "sandbox", str! "import"]

/-- `Deserialize for PackageConfig`. The number bounds the nesting, which is bounded by the reader of JSON. -/
def decPkgCfg : Nat → Json → Option PkgCfg
  | 0, _ => none
  | n + 1, j =>
    (fieldsOf pkgCfgFields true j).bind (fun l =>
    (dflt l (str! "allow_unsafe") false decBool).bind (fun allowUnsafe =>
    (dflt l (str! "allow_extern") false decBool).bind (fun allowExtern =>
    (dflt l (str! "allow_build_instructions") [] (decList decStr)).bind (fun allowBuildInstructions =>
    (dflt l (str! "allow_apis") [] (decList decStr)).bind (fun allowApis =>
    (dflt l (str! "allow_proc_macro") false decBool).bind (fun allowProcMacro =>
    (dflt l (str! "build") none (decOpt (decPkgCfg n))).bind (fun build =>
    (dflt l (str! "test") none (decOpt (decPkgCfg n))).bind (fun test =>
    (dflt l (str! "from") none (decOpt (fun j =>
      (fieldsOf [str! "build", str! "test"] true j).bind (fun l =>
      (dflt l (str! "build") none (decOpt (decPkgCfg n))).bind (fun b =>
      (dflt l (str! "test") none (decOpt (decPkgCfg n))).bind (fun t => some (b, t))))))).bind (fun from_ =>
    (dflt l (str! "sandbox") {} decSandbox).bind (fun sandbox =>
    (dflt l (str! "import") none (decOpt (decList decStr))).bind (fun imports =>
      some (.mk { allowUnsafe, allowExtern, allowBuildInstructions, allowApis, allowProcMacro, sandbox, imports }
        build test from_))))))))))))

/-- `PermissionScope` (permissions.rs:30-44). -/
def scopeName : Scope → Str
  | .all => str! "All"
  | .build => str! "Build"
  | .test => str! "Test"
  | .fromBuild => str! "FromBuild"
  | .fromTest => str! "FromTest"

def decScope (j : Json) : Option Scope :=
  (decStr j).bind (fun s =>
    if s = str! "All" then some .all
    else if s = str! "Build" then some .build
    else if s = str! "Test" then some .test
    else if s = str! "FromBuild" then some .fromBuild
    else if s = str! "FromTest" then some .fromTest
    else none)

/-- `Serialize for PermSel` (permissions.rs:359-371): the text of a JSON array. -/
def encSel (s : PermSel) : Str := text (.arr [.str s.pkg, .str (scopeName s.scope)])

/-- `Deserialize for PermSel` (permissions.rs:375-402). -/
def decSel (t : Str) : Option PermSel :=
  (parse t).bind (fun j =>
    match j with
    | .arr [p, s] => (decStr p).bind (fun pkg => (decScope s).bind (fun scope => some ⟨pkg, scope⟩))
    | _ => none)

/-- `Permissions` (permissions.rs:17-21); the entries of the map in its iteration order. -/
def encPermissions (m : PermMap) : Json :=
  .obj [(str! "packages", .obj (m.map (fun e => (encSel e.1, encPkgCfg e.2))))]

/-- Reading a map: a later entry with the same key replaces an earlier one. -/
def decMap (l : List (Str × Json)) : Option PermMap :=
  l.foldlM (fun (m : PermMap) e =>
    (decSel e.1).bind (fun k => (decPkgCfg 128 e.2).bind (fun c => some (m.insert k c)))) []

def decPermissions (j : Json) : Option PermMap :=
  (fieldsOf [str! "packages"] true j).bind (fun l =>
  req l (str! "packages") (fun j => match j with | .obj l => decMap l | _ => none))

/-- `RustcConfig` (config.rs:102-107). -/
def encRustc (s : Sandbox) : Json := .obj [(str! "sandbox", encSandbox s)]

def decRustc (j : Json) : Option Sandbox :=
  (fieldsOf [str! "sandbox"] true j).bind (fun l => dflt l (str! "sandbox") {} decSandbox)

/-- `SubprocessConfig` (subprocess.rs:424-429). -/
structure SubConfig where
  common : FullCommon
  permissions : PermMap
  rustc : Sandbox

/-- `SubprocessConfig::serialise` (subprocess.rs:455-457). -/
def serialise (c : SubConfig) : Str :=
  text (.obj [(str! "common", encCommon c.common), (str! "permissions", encPermissions c.permissions),
    (str! "rustc", encRustc c.rustc)])

/-- `SubprocessConfig::deserialise` (subprocess.rs:459-461). -/
def deserialise (s : Str) : Option SubConfig :=
  (parse s).bind (fun j =>
  (fieldsOf [str! "common", str! "permissions", str! "rustc"] false j).bind (fun l =>
  (req l (str! "common") decCommon).bind (fun common =>
  (req l (str! "permissions") decPermissions).bind (fun permissions =>
  (req l (str! "rustc") decRustc).bind (fun rustc => some ⟨common, permissions, rustc⟩)))))

/-- `SubprocessConfig::from_full_config` (subprocess.rs:440-446). `idx` is the crate index. -/
def fromFull (raw : Raw) (cargo : Cargo.Common) (idx : List IdxPkg) : SubConfig :=
  ⟨⟨raw.common, cargo⟩, withInheritance raw idx, raw.rustcSandbox⟩

/-- The configuration of the checker and the file that sub-processes read. -/
structure Live where
  config : Option (Raw × Cargo.Common) := none
  file : Option Str := none

/-- `Checker::load_config` (checker.rs:135-159) with the end of `parse_file` (config.rs:181-189). `parsed` is the
configuration that was read, `none` if it could not be; `written` says whether `write_atomic` succeeded, which
otherwise leaves the file as it was (C26). -/
def loadConfig (idx : List IdxPkg) (s : Live) (parsed : Option (Raw × Cargo.Common)) (written : Bool) : Live :=
  match parsed with
  | none => s
  | some (raw, cargo) =>
    if validate raw ≠ [] then s
    else if written then { config := some (raw, cargo), file := some (serialise (fromFull raw cargo idx)) }
    else s

end Cackle.Messages
