import Verif.Model.Permissions

/-!
# Model of `src/problem.rs`

All variants of `Problem` are present. Payloads that the modelled code never looks into (captured
program output, source text of an unsafe usage) are reduced to the fields that are compared.
-/

namespace Cackle
open Config Perm
open Cackle.ApiMap (Api)

/-- `struct SourceLocation` (location.rs:8-12). -/
structure SourceLoc where
  file : Str
  line : Nat
  column : Option Nat
deriving DecidableEq

/-- `enum SymbolOrDebugName` (names.rs:37-41), also `enum NameSource` (symbol_graph.rs:784-788). A symbol is its
bytes; they are represented as text. A debug name has a namespace and a name (names.rs:19-24). -/
inductive SymOrDebug where
  | symbol (s : Str)
  | debugName (namespace_ : List Str) (name : Str)
deriving DecidableEq

/-- `struct ApiUsage` (checker.rs:82-95) without `debug_data` (only shown to the user). `toSource`
is what was split to obtain `toName`. -/
structure ApiUsage where
  address : Nat
  symbolStart : Nat
  binPath : Str
  scope : Scope
  loc : SourceLoc
  outer : Option SourceLoc
  from_ : SymOrDebug
  to : SymOrDebug
  toName : List Str
  toSource : SymOrDebug
deriving DecidableEq

/-- `struct ApiUsages` (problem.rs:58-64). -/
structure ApiUsages where
  pkg : PkgId
  scope : Scope
  api : Api
  usages : List ApiUsage
deriving DecidableEq

/-- `enum Problem` (problem.rs:29-50). -/
inductive Problem where
  | message (text : Str)
  | missingConfiguration (path : Str)
  | usesBuildScript (pkg : PkgId)
  | disallowedUnsafe (crate : CrateSel) (locations : List SourceLoc)
  | disallowedExtern (crate : CrateSel) (locations : List SourceLoc)
  | isProcMacro (pkg : PkgId)
  | disallowedApiUsage (u : ApiUsages)
  | offTreeApiUsage (u : ApiUsages) (referenced : PkgId)
  | executionFailed (crate : CrateSel) (output : Str)
  | disallowedBuildInstruction (pkg : PkgId) (instruction : Str)
  | unusedPackageConfig (sel : PermSel)
  | unusedAllowApi (sel : PermSel) (apis : List Api)
  | selectSandbox
  | importStdApi (api : Api)
  | availableApi (pkg : PkgId) (api : Api) (config : ApiCfg)
  | possibleExportedApi (pkg : PkgId) (api : Api) (symbol : Str)
  | unusedSandboxConfiguration (sel : PermSel)
  | newConfigVersionAvailable (version : Int)
deriving DecidableEq

namespace Problem

/-- `enum Severity` (problem.rs:153-157). -/
inductive Severity where
  | warning
  | error
deriving DecidableEq

/-- `Problem::severity` (problem.rs:164-173). -/
def severity : Problem → Severity
  | unusedAllowApi .. | unusedPackageConfig .. | possibleExportedApi .. | newConfigVersionAvailable ..
  | availableApi .. => .warning
  | _ => .error

/-- `Problem::should_send_retry_to_subprocess` (problem.rs:176-183). -/
def shouldSendRetry : Problem → Bool
  | executionFailed .. | disallowedUnsafe .. | disallowedExtern .. => true
  | _ => false

/-- `Problem::deduplication_key` (problem.rs:187-204). -/
def dedupKey : Problem → Problem
  | disallowedApiUsage u => disallowedApiUsage { u with usages := [] }
  | possibleExportedApi pkg api _ => possibleExportedApi pkg api []
  | p => p

/-- `Problem::merge` (problem.rs:208-212) with `ApiUsages::merge` (problem.rs:471-476); `none` is its
panic. -/
def merge : Problem → Problem → Option Problem
  | disallowedApiUsage a, disallowedApiUsage b =>
    if a.pkg ≠ b.pkg ∨ a.api ≠ b.api ∨ a.scope ≠ b.scope then none
    else some (disallowedApiUsage { a with usages := a.usages ++ b.usages })
  | p, _ => some p

end Problem

/-- `ProblemList::should_send_retry_to_subprocess` (problem.rs:129-133). -/
def shouldSendRetryAll (ps : List Problem) : Bool := ps.all Problem.shouldSendRetry

/-- `enum Outcome` (outcome.rs:8-12). -/
inductive Outcome where
  | continue_
  | giveUp
deriving DecidableEq

/-- `Outcome::and` (outcome.rs:14-22). -/
def Outcome.and : Outcome → Outcome → Outcome
  | .continue_, .continue_ => .continue_
  | _, _ => .giveUp

end Cackle
