import Verif.Model.Permissions

/-!
# Model of a TOML document and of how serde reads a configuration from it (`src/config.rs`)

Formatting, comments and the order of keys carry no meaning and are left out. That writing a document and
reading it back gives the same tree is trusted (`toml_edit`, `toml`).
-/

namespace Cackle.Toml
open Cackle Config Perm
open Cackle.ApiMap (Api)

/-- A TOML item. `inline` is a table written with braces, `table` one written with a header or dotted keys;
`toml_edit` treats only the latter as a table that can be edited (`Item::as_table_mut`). -/
inductive Item where
  | str (s : Str)
  | bool (b : Bool)
  | int (n : Int)
  | other
  | array (items : List Item)
  | inline (entries : List (Str × Item))
  | table (entries : List (Str × Item))

/-- The contents of a table. The document itself is one. -/
abbrev Entries := AMap Str Item

/-- `Value::as_str`. -/
def Item.asStr : Item → Option Str
  | .str s => some s
  | _ => none

/-- What serde sees as a map: both kinds of tables. -/
def Item.entries : Item → Option Entries
  | .table es => some es
  | .inline es => some es
  | _ => none

/-- Deserialising a `bool`. -/
def readBool : Item → Option Bool
  | .bool b => some b
  | _ => none

/-- Deserialising a string. -/
def readStr : Item → Option Str := Item.asStr

/-- Deserialising an integer. -/
def readInt : Item → Option Int
  | .int n => some n
  | _ => none

/-- Deserialising a list of strings. -/
def readStrs : Item → Option (List Str)
  | .array items => items.mapM Item.asStr
  | _ => none

/-- Deserialising `SandboxKind` (config.rs:135-139). -/
def readKind : Item → Option SandboxKind
  | .str s => if s = str! "Disabled" then some .disabled
      else if s = str! "Bubblewrap" then some .bubblewrap else none
  | _ => none

/-- A field that may be absent; `d` is its default. -/
def field {α : Type} (read : Item → Option α) (d : α) (es : Entries) (k : Str) : Option α :=
  match es.get? k with
  | none => some d
  | some it => read it

/-- A field of type `Option<_>`. -/
def optField {α : Type} (read : Item → Option α) (es : Entries) (k : Str) : Option (Option α) :=
  field (fun it => (read it).map some) none es k

/-- `#[serde(deny_unknown_fields)]`. -/
def known (fields : List Str) (es : Entries) : Bool := es.keys.all (fun k => k ∈ fields)

/-- Fields of `SandboxConfig` (config.rs:81-100). -/
def sandboxFields : List Str :=
  [str! "kind", str! "extra_args", str! "allow_network", str! "bind_writable", str! "make_writable",
   str! "pass_env"]

/-- Deserialising `SandboxConfig` (config.rs:81-100). -/
def readSandbox (it : Item) : Option Sandbox :=
  it.entries.bind fun es =>
  if known sandboxFields es then
    (optField readKind es (str! "kind")).bind fun kind =>
    (field readStrs [] es (str! "extra_args")).bind fun extraArgs =>
    (optField readBool es (str! "allow_network")).bind fun allowNetwork =>
    (field readStrs [] es (str! "bind_writable")).bind fun bindWritable =>
    (field readStrs [] es (str! "make_writable")).bind fun makeWritable =>
    (field readStrs [] es (str! "pass_env")).bind fun passEnv =>
    some { kind, extraArgs, allowNetwork, bindWritable, makeWritable, passEnv }
  else none

/-- The fields of `PackageConfig` that are not package configurations themselves (config.rs:141-172). -/
def readPerms (es : Entries) : Option Perms :=
  (field readBool false es (str! "allow_unsafe")).bind fun allowUnsafe =>
  (field readBool false es (str! "allow_extern")).bind fun allowExtern =>
  (field readStrs [] es (str! "allow_build_instructions")).bind fun allowBuildInstructions =>
  (field readStrs [] es (str! "allow_apis")).bind fun allowApis =>
  (field readBool false es (str! "allow_proc_macro")).bind fun allowProcMacro =>
  (field readSandbox {} es (str! "sandbox")).bind fun sandbox =>
  (optField readStrs es (str! "import")).bind fun imports =>
  some { allowUnsafe, allowExtern, allowBuildInstructions, allowApis, allowProcMacro, sandbox, imports }

/-- Fields of `PackageConfig` (config.rs:141-172). -/
def pkgFields : List Str :=
  [str! "allow_unsafe", str! "allow_extern", str! "allow_build_instructions", str! "allow_apis",
   str! "allow_proc_macro", str! "build", str! "test", str! "from", str! "sandbox", str! "import"]

/-- Deserialising `PackageConfig` and `FromConfig` (config.rs:141-179). The number is the nesting that the
parser accepts. -/
def readPkg : Nat → Item → Option PkgCfg
  | 0, _ => none
  | n + 1, it =>
    it.entries.bind fun es =>
    if known pkgFields es then
      (readPerms es).bind fun perms =>
      (optField (readPkg n) es (str! "build")).bind fun build =>
      (optField (readPkg n) es (str! "test")).bind fun test =>
      (optField (fun f => f.entries.bind fun fs =>
        if known [str! "build", str! "test"] fs then
          (optField (readPkg n) fs (str! "build")).bind fun b =>
          (optField (readPkg n) fs (str! "test")).bind fun t =>
          some (b, t)
        else none) es (str! "from")).bind fun from_ =>
      some (.mk perms build test from_)
    else none

/-- Deserialising a `BTreeMap`. -/
def readMap {α : Type} (read : Item → Option α) : Entries → Option (AMap Str α)
  | [] => some []
  | (k, it) :: rest =>
    (read it).bind fun v => (readMap read rest).bind fun m => some ((k, v) :: m)

/-- A map-valued field with default. -/
def mapField {α : Type} (read : Item → Option α) (es : Entries) (k : Str) : Option (AMap Str α) :=
  field (fun it => it.entries.bind (readMap read)) [] es k

/-- Deserialising `ApiConfig` (config.rs:109-120). -/
def readApi (it : Item) : Option ApiCfg :=
  it.entries.bind fun es =>
  if known [str! "include", str! "exclude", str! "no_auto_detect"] es then
    (field readStrs [] es (str! "include")).bind fun incl =>
    (field readStrs [] es (str! "exclude")).bind fun excl =>
    (field readStrs [] es (str! "no_auto_detect")).bind fun noAutoDetect =>
    some { incl, excl, noAutoDetect }
  else none

/-- Deserialising `CommonConfig` (config.rs:60-79). Build flags, features and profile are only checked. -/
def readCommon (it : Item) : Option Common :=
  it.entries.bind fun es =>
  if known [str! "version", str! "explicit_build_scripts", str! "build_flags", str! "import_std",
      str! "features", str! "profile"] es then
    ((es.get? (str! "version")).bind readInt).bind fun version =>
    (field readBool false es (str! "explicit_build_scripts")).bind fun explicitBuildScripts =>
    (optField readStrs es (str! "build_flags")).bind fun _ =>
    (field readStrs [] es (str! "import_std")).bind fun importStd =>
    (field readStrs [] es (str! "features")).bind fun _ =>
    (optField readStr es (str! "profile")).bind fun _ =>
    some { version, explicitBuildScripts, importStd }
  else none

/-- Deserialising `RustcConfig` (config.rs:102-107). -/
def readRustc (it : Item) : Option Sandbox :=
  it.entries.bind fun es =>
  if known [str! "sandbox"] es then field readSandbox {} es (str! "sandbox") else none

/-- Deserialising `RawConfig` (config.rs:37-53). -/
def readDoc (limit : Nat) (doc : Entries) : Option Raw :=
  if known [str! "common", str! "api", str! "pkg", str! "sandbox", str! "rustc"] doc then
    ((doc.get? (str! "common")).bind readCommon).bind fun common =>
    (mapField readApi doc (str! "api")).bind fun apis =>
    (mapField (readPkg limit) doc (str! "pkg")).bind fun packages =>
    (field readSandbox {} doc (str! "sandbox")).bind fun sandbox =>
    (field readRustc {} doc (str! "rustc")).bind fun rustcSandbox =>
    some { common, apis, packages, sandbox, rustcSandbox }
  else none

end Cackle.Toml
