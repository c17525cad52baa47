import Verif.Model.Toml
import Verif.Model.BuildScript

/-!
# Model of `src/config_editor.rs`: edits of the configuration file

An edit maps a document to a document; `none` is an error (nothing is then written). Comments that the user
attaches are left out, as they do not change the meaning.
-/

namespace Cackle.Editor
open Cackle Config Perm Toml
open Cackle.ApiMap (Api)

/-- `ConfigEditor::table` and `pkg_table` (config_editor.rs:176-187, 201-228): finds or creates the table at a
path and changes it with `f`. -/
def withTable (f : Entries → Option Entries) : List Str → Entries → Option Entries
  | [], es => f es
  | p :: ps, es =>
    match (es.get? p).getD (.table []) with
    | .table sub => (withTable f ps sub).map (fun s => es.insert p (.table s))
    | _ => none

/-- `ConfigEditor::opt_table` (config_editor.rs:230-244): as above, but nothing happens if there is no table
at the path. -/
def withOptTable (f : Entries → Option Entries) : List Str → Entries → Option Entries
  | [], es => f es
  | p :: ps, es =>
    match es.get? p with
    | none => some es
    | some (.table sub) => (withOptTable f ps sub).map (fun s => es.insert p (.table s))
    | some _ => none

/-- `PermissionScope::config_selector` (permissions.rs:310-318), split at dots (config_editor.rs:370-379). -/
def scopePath : Scope → List Str
  | .all => []
  | .build => [str! "build"]
  | .test => [str! "test"]
  | .fromBuild => [str! "from", str! "build"]
  | .fromTest => [str! "from", str! "test"]

/-- `pkg_path` (config_editor.rs:368-379). -/
def pkgPath (sel : PermSel) : List Str := str! "pkg" :: sel.pkg :: scopePath sel.scope

/-- One iteration of the loop of `add_to_array` (config_editor.rs:645-663): the value goes before the first
string that is not smaller, unless that is the value itself. -/
def addOne (value : Str) : List Item → List Item
  | [] => [.str value]
  | e :: rest =>
    match e with
    | .str s =>
      if strLe value s then (if s = value then e :: rest else .str value :: e :: rest)
      else e :: addOne value rest
    | _ => e :: addOne value rest

/-- `add_to_array` and `get_or_create_array` (config_editor.rs:635-666, 988-1000). -/
def addToArray (name : Str) (values : List Str) (t : Entries) : Option Entries :=
  if values = [] then some t
  else
    match (t.get? name).getD (.array []) with
    | .array a => some (t.insert name (.array (values.foldl (fun a v => addOne v a) a)))
    | _ => none

/-- Removing the first element equal to a string (config_editor.rs:897-904). -/
def removeFirst (value : Str) : List Item → List Item
  | [] => []
  | e :: rest => if e.asStr = some value then rest else e :: removeFirst value rest

/-- The part of `RemoveUnusedAllowApis::apply` that works on the package's table
(config_editor.rs:892-907). -/
def removeApis (apis : List Api) (t : Entries) : Option Entries :=
  match t.get? (str! "allow_apis") with
  | none => some t
  | some (.array a) =>
    let a' := apis.foldl (fun a v => removeFirst v a) a
    some (if a'.isEmpty then t.erase (str! "allow_apis") else t.insert (str! "allow_apis") (.array a'))
  | some _ => none

/-- `RemoveUnusedAllowApis::apply` (config_editor.rs:888-908). -/
def removeUnusedAllowApis (sel : PermSel) (apis : List Api) (doc : Entries) : Option Entries :=
  withOptTable (removeApis apis) (pkgPath sel) doc

/-- `AllowApiUsage::apply` (config_editor.rs:852-872). -/
def allowApi (sel : PermSel) (api : Api) (doc : Entries) : Option Entries :=
  (withTable (addToArray (str! "allow_apis") [api]) (pkgPath sel) doc).bind fun doc =>
  sel.descendants.foldlM (fun doc d => removeUnusedAllowApis d [api] doc) doc

/-- `RemoveUnusedPkgConfig::apply` (config_editor.rs:924-931). -/
def removeUnusedPkgConfig (sel : PermSel) (doc : Entries) : Option Entries :=
  withOptTable (fun t => some (t.erase ((pkgPath sel).getLast?.getD []))) (pkgPath sel).dropLast doc

/-- `set_table_value` (config_editor.rs:1166-1178). -/
def setValue (key : Str) (it : Item) (t : Entries) : Option Entries := some (t.insert key it)

/-- `AllowProcMacro::apply` (config_editor.rs:1027-1031). -/
def allowProcMacro (sel : PermSel) (doc : Entries) : Option Entries :=
  withTable (setValue (str! "allow_proc_macro") (.bool true)) (pkgPath sel) doc

/-- `AllowUnsafe::apply` (config_editor.rs:1110-1114). -/
def allowUnsafe (sel : PermSel) (doc : Entries) : Option Entries :=
  withTable (setValue (str! "allow_unsafe") (.bool true)) (pkgPath sel) doc

/-- `AllowExtern::apply` (config_editor.rs:1131-1135). -/
def allowExtern (sel : PermSel) (doc : Entries) : Option Entries :=
  withTable (setValue (str! "allow_extern") (.bool true)) (pkgPath sel) doc

/-- `AllowBuildInstruction::apply` (config_editor.rs:1054-1062). -/
def allowBuildInstruction (sel : PermSel) (instruction : Str) (doc : Entries) : Option Entries :=
  withTable (addToArray (str! "allow_build_instructions") [instruction]) (pkgPath sel) doc

/-- `DisableSandbox::apply` (config_editor.rs:1081-1085). -/
def disableSandbox (sel : PermSel) (doc : Entries) : Option Entries :=
  withTable (setValue (str! "kind") (.str (str! "Disabled"))) (pkgPath sel ++ [str! "sandbox"]) doc

/-- `SandboxAllowNetwork::apply` (config_editor.rs:1153-1157). -/
def allowNetwork (sel : PermSel) (doc : Entries) : Option Entries :=
  withTable (setValue (str! "allow_network") (.bool true)) (pkgPath sel ++ [str! "sandbox"]) doc

/-- `ExtendApi::apply` (config_editor.rs:737-741). -/
def extendApi (api : Api) (path : Str) (doc : Entries) : Option Entries :=
  withTable (addToArray (str! "include") [path]) [str! "api", api] doc

/-- `ExcludeFromApi::apply` (config_editor.rs:762-766). -/
def excludeFromApi (api : Api) (path : Str) (doc : Entries) : Option Entries :=
  withTable (addToArray (str! "exclude") [path]) [str! "api", api] doc

/-- `NoDetectApi::apply` (config_editor.rs:790-799). -/
def noDetectApi (api : Api) (pkg : Str) (doc : Entries) : Option Entries :=
  withTable (addToArray (str! "no_auto_detect") [pkg]) [str! "api", api] doc

/-- `ImportApi::apply` (config_editor.rs:569-577). -/
def importApi (pkg : Str) (api : Api) (doc : Entries) : Option Entries :=
  withTable (addToArray (str! "import") [api]) (pkgPath ⟨pkg, .all⟩) doc

/-- `IgnoreApi::apply` (config_editor.rs:706-712). -/
def ignoreApi (pkg : Str) (doc : Entries) : Option Entries :=
  withTable (fun t =>
    match (t.get? (str! "import")).getD (.array []) with
    | .array a => some (t.insert (str! "import") (.array a))
    | _ => none) (pkgPath ⟨pkg, .all⟩) doc

/-- The common part of `InlineStdApi::apply` and `InlineApi::apply` (config_editor.rs:595-604, 626-630). -/
def inlineApiDef (api : Api) (cfg : ApiCfg) (doc : Entries) : Option Entries :=
  withTable (fun t => (addToArray (str! "include") cfg.incl t).bind (addToArray (str! "exclude") cfg.excl))
    [str! "api", api] doc

/-- `InlineStdApi::apply` (config_editor.rs:595-604). -/
def inlineStdApi (builtIns : AMap Api ApiCfg) (api : Api) (doc : Entries) : Option Entries :=
  (builtIns.get? api).bind fun cfg => inlineApiDef api cfg doc

/-- `InlineApi::apply` (config_editor.rs:626-632). -/
def inlineApi (pkg : Str) (api : Api) (cfg : ApiCfg) (doc : Entries) : Option Entries :=
  (inlineApiDef api cfg doc).bind (ignoreApi pkg)

/-- `toggle_std_import` (config_editor.rs:252-272). -/
def toggleStdImport (api : Api) (doc : Entries) : Option Entries :=
  withTable (fun t =>
    match (t.get? (str! "import_std")).getD (.array []) with
    | .array a => some (t.insert (str! "import_std")
        (.array (if a.any (fun e => e.asStr = some api) then removeFirst api a else a ++ [.str api])))
    | _ => none) [str! "common"] doc

/-- `set_version` (config_editor.rs:246-250). -/
def setVersion (n : Int) (doc : Entries) : Option Entries :=
  withTable (setValue (str! "version") (.int n)) [str! "common"] doc

/-- `update_fn` of version 2 (versions.rs:49-55), for other versions nothing, then `set_version`: the edit
`UpdateConfigVersionPreserveBehaviour` (config_editor.rs:970-972, versions.rs:65-70). -/
def updatePreserving (n : Nat) (doc : Entries) : Option Entries :=
  (if n = 2 then
    withTable (fun t => some (if (t.get? (str! "kind")).isSome then t
      else t.insert (str! "kind") (.str (str! "Disabled")))) [str! "rustc", str! "sandbox"] doc
   else some doc).bind (setVersion n)

/-! ## Offered edits -/

/-- The edits (the implementations of `trait Edit`). Edits that do nothing to the file (`IgnoreStdApi`) are
left out. -/
inductive Edit where
  | allowApi (sel : PermSel) (api : Api)
  | removeUnusedAllowApis (sel : PermSel) (apis : List Api)
  | removeUnusedPkgConfig (sel : PermSel)
  | allowProcMacro (sel : PermSel)
  | allowUnsafe (sel : PermSel)
  | allowExtern (sel : PermSel)
  | allowBuildInstruction (sel : PermSel) (pattern : Str)
  | disableSandbox (sel : PermSel)
  | allowNetwork (sel : PermSel)
  | extendApi (api : Api) (path : Str)
  | excludeFromApi (api : Api) (path : Str)
  | noDetectApi (api : Api) (pkg : Str)
  | importApi (pkg : Str) (api : Api)
  | inlineApi (pkg : Str) (api : Api) (cfg : ApiCfg)
  | ignoreApi (pkg : Str)
deriving DecidableEq

/-- `Edit::apply`. -/
def Edit.apply : Edit → Entries → Option Entries
  | .allowApi sel api => Editor.allowApi sel api
  | .removeUnusedAllowApis sel apis => Editor.removeUnusedAllowApis sel apis
  | .removeUnusedPkgConfig sel => Editor.removeUnusedPkgConfig sel
  | .allowProcMacro sel => Editor.allowProcMacro sel
  | .allowUnsafe sel => Editor.allowUnsafe sel
  | .allowExtern sel => Editor.allowExtern sel
  | .allowBuildInstruction sel i => Editor.allowBuildInstruction sel i
  | .disableSandbox sel => Editor.disableSandbox sel
  | .allowNetwork sel => Editor.allowNetwork sel
  | .extendApi api path => Editor.extendApi api path
  | .excludeFromApi api path => Editor.excludeFromApi api path
  | .noDetectApi api pkg => Editor.noDetectApi api pkg
  | .importApi pkg api => Editor.importApi pkg api
  | .inlineApi pkg api cfg => Editor.inlineApi pkg api cfg
  | .ignoreApi pkg => Editor.ignoreApi pkg

/-- The loop of `add_allow_api_fixes` over the parent scopes (config_editor.rs:355-364); `none` means that
there was not enough fuel. -/
def parentScopes : Nat → Scope → Option (List Scope)
  | 0, _ => none
  | fuel + 1, s =>
    match s.parent with
    | none => some []
    | some p => (parentScopes fuel p).map (p :: ·)

/-- `add_allow_api_fixes` (config_editor.rs:351-365). -/
def allowApiFixes (u : ApiUsages) : Option (List Edit) :=
  (parentScopes 3 u.scope).map fun ss => (u.scope :: ss).map (fun s => .allowApi ⟨u.pkg.name, s⟩ u.api)

/-- The edits for a failed program (config_editor.rs:96-107); `sb` is the configuration it was run with. -/
def executionFixes (crate : CrateSel) (sb : Sandbox) : List Edit :=
  if sb.kind ≠ some .disabled then
    (if sb.allowNetwork.getD false then [] else [.allowNetwork ⟨crate.pkgId.name, .build⟩])
      ++ [.disableSandbox ⟨crate.pkgId.name, .build⟩]
  else []

/-- `fixes_for_problem` (config_editor.rs:66-150). `incl` and `excl` are the edits that change API
definitions (config_editor.rs:287-349). The initial set-up and version updates are left out. `none` is a panic
or lack of fuel. -/
def fixes (incl excl : ApiUsages → List Edit) (sandboxOf : Str → Sandbox) : Problem → Option (List Edit)
  | .availableApi pkg api cfg => some [.importApi pkg.name api, .inlineApi pkg.name api cfg, .ignoreApi pkg.name]
  | .disallowedApiUsage u => (allowApiFixes u).map (· ++ excl u)
  | .isProcMacro pkg => some [.allowProcMacro ⟨pkg.name, .all⟩]
  | .executionFailed crate output => some (executionFixes crate (sandboxOf output))
  | .disallowedBuildInstruction pkg i =>
    (BuildScript.editPatterns i).map (·.map (.allowBuildInstruction ⟨pkg.name, .build⟩))
  | .disallowedUnsafe crate _ => some [.allowUnsafe (forNonBuildOutput crate)]
  | .disallowedExtern crate _ => some [.allowExtern (forNonBuildOutput crate)]
  | .unusedAllowApi sel apis => some [.removeUnusedAllowApis sel apis]
  | .unusedPackageConfig sel => some [.removeUnusedPkgConfig sel]
  | .possibleExportedApi pkg api _ =>
    some [.extendApi api (pkg.name ++ [':', ':'] ++ api), .noDetectApi api pkg.name]
  | .offTreeApiUsage u _ => (allowApiFixes u).map (incl u ++ excl u ++ ·)
  | _ => some []

end Cackle.Editor
