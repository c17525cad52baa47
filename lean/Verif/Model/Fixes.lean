import Verif.Model.CommonPrefix
import Verif.Model.ProblemsUi
import Verif.Model.BasicTerm
import Verif.Model.Report

/-!
# Model of `fixes_for_problem` and `trait Edit` (`src/config_editor.rs`) for all problems, with titles

`Model/Editor.lean` has the edits without the first set-up and without what is shown to the user; here is the rest. `env`
is the real value of the parameter `Ui.Env` of both user interfaces. Help texts are left out.
-/

namespace Cackle.Fixes
open Cackle Config Perm Toml
open Cackle.ApiMap (Api)
open Cackle.Editor (Edit)
open Cackle.Report (selText pkgText quote)

/-- The implementations of `trait Edit` (config_editor.rs:458-1158), with the fields that they have in the code. Where a field is a
problem (`AvailableApi`, `PossibleExportedApi`, `ApiUsages`), it is reduced to what is used. -/
inductive Fix where
  | createCustom
  | createRecommended
  | selectSandbox (kind : SandboxKind)
  | importStd (api : Api)
  | inlineStd (api : Api)
  | ignoreStd (api : Api)
  | importApi (pkg : PkgId) (api : Api)
  | inlineApi (pkg : PkgId) (api : Api) (cfg : ApiCfg)
  | ignoreApi (pkg : PkgId) (api : Api)
  | extendApi (api : Api) (path : Str)
  | excludeFromApi (api : Api) (path : Str)
  | noDetectApi (pkg : PkgId) (api : Api)
  | allowApi (pkg : PkgId) (scope : Scope) (api : Api)
  | removeUnusedAllowApis (sel : PermSel) (apis : List Api)
  | removeUnusedPkgConfig (sel : PermSel)
  | updateVersion (n : Nat)
  | updatePreserving (n : Nat)
  | allowProcMacro (sel : PermSel)
  | allowBuildInstruction (sel : PermSel) (pattern : Str)
  | disableSandbox (sel : PermSel)
  | allowNetwork (sel : PermSel)
  | allowUnsafe (sel : PermSel)
  | allowExtern (sel : PermSel)
deriving DecidableEq

/-- `Debug` for `SandboxKind` (derived, config.rs:131-139). -/
def kindName : SandboxKind → Str
  | .disabled => str! "Disabled"
  | .bubblewrap => str! "Bubblewrap"

/-- Where an API is allowed, as `AllowApiUsage::title` says it (config_editor.rs:810-826). -/
def allowWhere : Scope → Str
  | .all => []
  | .build => str! " when building its own build script"
  | .test => str! " when building its own tests"
  | .fromBuild => str! " when building build scripts"
  | .fromTest => str! " when building tests"

/-- `Edit::title`. The lines are those of config_editor.rs in the order of the constructors: 461-463, 489-491, 517-519, 536-538, 583-585, 671-673, 554-560, 610-615,
693-698, 725-727, 750-752, 772-778, 807-827, 880-882, 916-918, 939-941, 957-962, 1017-1019, 1040-1045, 1070-1072, 1143-1145, 1097-1099, 1118-1120. -/
def Fix.title : Fix → Str
  | .createCustom => str! "Create custom initial config"
  | .createRecommended => str! "Create recommended initial config"
  | .selectSandbox k => kindName k
  | .importStd api => str! "Import std API " ++ quote api
  | .inlineStd api => str! "Inline std API " ++ quote api
  | .ignoreStd api => str! "Ignore std API " ++ quote api
  | .importApi pkg api => str! "Import API " ++ quote api ++ str! " from package " ++ quote pkg.name
  | .inlineApi pkg api _ => str! "Inline API " ++ quote api ++ str! " from package " ++ quote (pkgText pkg)
  | .ignoreApi pkg api => str! "Ignore API " ++ quote api ++ str! " provided by package " ++ quote (pkgText pkg)
  | .extendApi api path => str! "Include " ++ quote path ++ str! " in API " ++ quote api
  | .excludeFromApi api path => str! "Exclude " ++ quote path ++ str! " from API " ++ quote api
  | .noDetectApi pkg api => str! "Don't detect " ++ quote api ++ str! " in " ++ quote pkg.name
  | .allowApi pkg scope api => str! "Allow " ++ quote (pkgText pkg) ++ str! " to use " ++ quote api ++ str! " API" ++ allowWhere scope
  | .removeUnusedAllowApis _ _ => str! "Remove unused allowed APIs"
  | .removeUnusedPkgConfig _ => str! "Remove unused crate configuration"
  | .updateVersion n => str! "Update config to version " ++ Wire.decimal n
  | .updatePreserving n => str! "Update config to version " ++ Wire.decimal n ++ str! " while preserving old behaviour"
  | .allowProcMacro sel => str! "Allow proc macro " ++ quote (selText sel)
  | .allowBuildInstruction sel i => str! "Allow build script for " ++ quote (selText sel) ++ str! " to emit instruction " ++ quote i
  | .disableSandbox sel => str! "Disable sandbox for " ++ quote (selText sel)
  | .allowNetwork sel => str! "Permit network from sandbox for " ++ quote (selText sel)
  | .allowUnsafe sel => str! "Allow package " ++ quote (selText sel) ++ str! " to use unsafe code"
  | .allowExtern sel => str! "Allow package " ++ quote (selText sel) ++ str! " to use extern code"

/-- `set_sandbox_kind` (config_editor.rs:274-283) with `verify_kind` (sandbox.rs:230-243); `bwrap` is whether
`bwrap --version` can be run. -/
def setSandboxKind (bwrap : Bool) (k : SandboxKind) (doc : Entries) : Option Entries :=
  if k = .bubblewrap ∧ bwrap = false then none
  else Editor.withTable (Editor.setValue (str! "kind") (.str (kindName k))) [str! "sandbox"] doc

/-- `CreateRecommendedConfig::apply` (config_editor.rs:499-505). -/
def recommended (doc : Entries) : Option Entries :=
  (Editor.setVersion maxVersion doc).bind fun doc =>
  (Editor.toggleStdImport (str! "fs") doc).bind fun doc =>
  (Editor.toggleStdImport (str! "net") doc).bind fun doc =>
  Editor.toggleStdImport (str! "process") doc

/-- The edit of `Model/Editor.lean`, for the edits that are there. -/
def Fix.edit : Fix → Option Edit
  | .importApi pkg api => some (.importApi pkg.name api)
  | .inlineApi pkg api cfg => some (.inlineApi pkg.name api cfg)
  | .ignoreApi pkg _ => some (.ignoreApi pkg.name)
  | .extendApi api path => some (.extendApi api path)
  | .excludeFromApi api path => some (.excludeFromApi api path)
  | .noDetectApi pkg api => some (.noDetectApi api pkg.name)
  | .allowApi pkg scope api => some (.allowApi ⟨pkg.name, scope⟩ api)
  | .removeUnusedAllowApis sel apis => some (.removeUnusedAllowApis sel apis)
  | .removeUnusedPkgConfig sel => some (.removeUnusedPkgConfig sel)
  | .allowProcMacro sel => some (.allowProcMacro sel)
  | .allowBuildInstruction sel i => some (.allowBuildInstruction sel i)
  | .disableSandbox sel => some (.disableSandbox sel)
  | .allowNetwork sel => some (.allowNetwork sel)
  | .allowUnsafe sel => some (.allowUnsafe sel)
  | .allowExtern sel => some (.allowExtern sel)
  | _ => none

/-- `Edit::apply` (config_editor.rs:472-474, 499-505, 528-530, 546-548, 595-604, 681-683, 947-949, 970-972, others see
`Model/Editor.lean`); `none` is an error. -/
def Fix.apply (bwrap : Bool) : Fix → Entries → Option Entries
  | .createCustom => Editor.setVersion maxVersion
  | .createRecommended => recommended
  | .selectSandbox k => setSandboxKind bwrap k
  | .importStd api => Editor.toggleStdImport api
  | .inlineStd api => Editor.inlineStdApi builtIns api
  | .ignoreStd _ => some
  | .updateVersion n => Editor.setVersion n
  | .updatePreserving n => Editor.updatePreserving n
  | f => fun doc => f.edit.bind (fun e => e.apply doc)

/-- `replacement_problems` (config_editor.rs:43-48, 476-483, 507-511). The names of the built-in APIs are the keys of a `BTreeMap`
(config/built_in.rs:6-7), thus sorted. -/
def Fix.repl : Fix → List Problem
  | .createCustom => .selectSandbox :: (sortStr builtIns.keys).map .importStdApi
  | .createRecommended => [.selectSandbox]
  | _ => []

/-- `resolve_problem_if_edit_is_empty` (config_editor.rs:50-54, 685-687, 714-716). -/
def Fix.resolveIfEmpty : Fix → Bool
  | .ignoreStd _ | .ignoreApi _ _ => false
  | _ => true

/-- `VERSIONS.get(*version as usize)` (config_editor.rs:138; versions.rs:25-62): the number of the version. A negative number
becomes a large one. -/
def knownVersion (v : Int) : Option Nat := if 0 ≤ v ∧ v ≤ maxVersion then some v.toNat else none

/-- `add_allow_api_fixes` (config_editor.rs:351-365). -/
def allowFixes (u : ApiUsages) : Option (List Fix) :=
  (Editor.parentScopes 3 u.scope).map fun ss => (u.scope :: ss).map (fun s => .allowApi u.pkg s u.api)

/-- The paths of `add_include_fixes` and `add_exclude_fixes` as edits. `from_` says which of the two. -/
def pathFixes (k : Nat) (order : List (List Str) → List (List Str)) (apis : AMap Api ApiCfg) (from_ : Bool) (u : ApiUsages) :
    List Fix :=
  match apis.get? u.api, Prefix.commonPrefixes k order from_ u.usages with
  | some cfg, .ok prefixes =>
    if from_ then (Prefix.includePaths cfg prefixes).map (.extendApi u.api)
    else (Prefix.excludePaths cfg prefixes).map (.excludeFromApi u.api)
  | _, _ => []

/-- The edits for a failed program (config_editor.rs:96-107). -/
def executionFixes (crate : CrateSel) (sb : Sandbox) : List Fix :=
  if sb.kind ≠ some .disabled then
    (if sb.allowNetwork.getD false then [] else [.allowNetwork ⟨crate.pkgId.name, .build⟩])
      ++ [.disableSandbox ⟨crate.pkgId.name, .build⟩]
  else []

/-- `fixes_for_problem` (config_editor.rs:66-150). `k` is the fuel for the names, `order` the order in which a hash set is
iterated over, `sandboxOf` the sandbox configuration that comes with the output of a program. `none` is a panic or lack of
fuel. -/
def fixes (k : Nat) (order : List (List Str) → List (List Str)) (sandboxOf : Str → Sandbox) (apis : AMap Api ApiCfg) :
    Problem → Option (List Fix)
  | .missingConfiguration _ => some [.createRecommended, .createCustom]
  | .selectSandbox => some [.selectSandbox .disabled, .selectSandbox .bubblewrap]
  | .importStdApi api => some [.importStd api, .inlineStd api, .ignoreStd api]
  | .availableApi pkg api cfg => some [.importApi pkg api, .inlineApi pkg api cfg, .ignoreApi pkg api]
  | .disallowedApiUsage u => (allowFixes u).map (· ++ pathFixes k order apis false u)
  | .isProcMacro pkg => some [.allowProcMacro ⟨pkg.name, .all⟩]
  | .executionFailed crate output => some (executionFixes crate (sandboxOf output))
  | .disallowedBuildInstruction pkg i =>
    (BuildScript.editPatterns i).map (·.map (.allowBuildInstruction ⟨pkg.name, .build⟩))
  | .disallowedUnsafe crate _ => some [.allowUnsafe (forNonBuildOutput crate)]
  | .disallowedExtern crate _ => some [.allowExtern (forNonBuildOutput crate)]
  | .unusedAllowApi sel apis => some [.removeUnusedAllowApis sel apis]
  | .unusedPackageConfig sel => some [.removeUnusedPkgConfig sel]
  | .possibleExportedApi pkg api _ => some [.extendApi api (pkg.name ++ [':', ':'] ++ api), .noDetectApi pkg api]
  | .offTreeApiUsage u _ =>
    (allowFixes u).map (pathFixes k order apis true u ++ pathFixes k order apis false u ++ ·)
  | .newConfigVersionAvailable v =>
    some (match knownVersion v with
      | some n => [.updateVersion n, .updatePreserving n]
      | none => [])
  | _ => some []

/-- An edit as the user interfaces see it. Comments are left out, and an edit that fails is taken not to have changed the
editor (what it leaves behind is only looked at to find out whether comments are supported, problems_ui.rs:595-613). -/
def Fix.toEditM (bwrap : Bool) (f : Fix) : Ui.EditM Entries :=
  { apply := fun _ doc => match f.apply bwrap doc with
      | some doc' => (doc', true)
      | none => (doc, false)
    repl := f.repl
    resolveIfEmpty := f.resolveIfEmpty }

/-- The text of the file and its document. What is not modelled of TOML and of the terminal are parameters. -/
structure Texts (F : Type) where
  parse : F → Option Entries
  blank : F
  print : Entries → F
  mentions : F → Str → Bool
  typed : Ui.Key → Str → Str
  frames : Problem → Nat → Option Nat

/-- The edits of the real program, for the user interfaces. A panic in `fixes_for_problem` is taken as no edit; it does not
happen, see `fixes_some`. -/
def env {F : Type} (t : Texts F) (bwrap : Bool) (k : Nat) (order : List (List Str) → List (List Str))
    (sandboxOf : Str → Sandbox) : Ui.Env F Entries Raw :=
  { fixes := fun cfg p => ((fixes k order sandboxOf cfg.apis p).getD []).map (Fix.toEditM bwrap)
    parse := t.parse
    blank := t.blank
    print := t.print
    mentions := t.mentions
    typed := t.typed
    frames := t.frames }

end Cackle.Fixes
