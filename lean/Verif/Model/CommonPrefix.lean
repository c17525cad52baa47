import Verif.Model.SymbolGraph
import Verif.Model.Editor

/-!
# Model of `src/checker/common_prefix.rs` and of the edits offered with it (`src/config_editor.rs`)
-/

namespace Cackle.Prefix
open Cackle Graph Config
open Cackle.Names hiding State
open Cackle.ApiMap (Api)
open Cackle.Editor (Edit)
open Cackle.BuildScript (stripPrefix startsWith)

/-- All names of a symbol or debug name (common_prefix.rs:41-49). -/
def namesIn (n : Nat) : SymOrDebug → Res (List (List Str))
  | .symbol s => readNames (symbolNames n s)
  | .debugName ns name => readNames (debugNames n ns name)

/-- The loop over the parts of a name (common_prefix.rs:58-62); `parts` are the parts so far. -/
def addPrefixes (parts : List Str) : List Str → List (List Str) → List (List Str)
  | [], set => set
  | p :: rest, set => addPrefixes (parts ++ [p]) rest (setInsert (parts ++ [p]) set)

/-- The loop over the names (common_prefix.rs:56-63). -/
def prefixSet (names : List (List Str)) : List (List Str) := names.foldl (fun set name => addPrefixes [] name set) []

/-- `CommonPrefixChecker::check_names` (common_prefix.rs:52-72) for all names. The state is `num_names` (a natural
number instead of a `u32`) and `common`. -/
def checkNames (st : Nat × List (List Str)) (names : List (List Str)) : Nat × List (List Str) :=
  (st.1 + 1, if st.1 = 0 then prefixSet names else st.2.filter (fun p => p ∈ prefixSet names))

/-- `CommonPrefixChecker::check_usage` (common_prefix.rs:39-51). -/
def checkUsage (n : Nat) (from_ : Bool) (st : Nat × List (List Str)) (u : ApiUsage) : Res (Nat × List (List Str)) :=
  (namesIn n (if from_ then u.from_ else u.to)).bind fun names => .ok (checkNames st names)

/-- `common_prefixes` (common_prefix.rs:22-31). `order` is the order in which the set is iterated over. -/
def commonPrefixes (n : Nat) (order : List (List Str) → List (List Str)) (from_ : Bool) (usages : List ApiUsage) :
    Res (List Str) :=
  (Res.loop (checkUsage n from_) (0, []) usages).bind fun st =>
  .ok (sortStr ((order st.2).map (joinWith [':', ':'])))

/-- `prefix.strip_prefix(p).is_some_and(|remain| remain.starts_with("::"))` (config_editor.rs:305-307, 339-341). -/
def extends_ (p pre : Str) : Bool :=
  match stripPrefix p pre with
  | some remain => startsWith remain [':', ':']
  | none => false

/-- The loop of `add_include_fixes` (config_editor.rs:294-317). -/
def includePaths (cfg : ApiCfg) (prefixes : List Str) : List Str :=
  prefixes.filter fun p => ¬ p ∈ cfg.excl ∧ ¬ cfg.incl.any (fun q => q == p || extends_ q p)

/-- The loop of `add_exclude_fixes` (config_editor.rs:324-347). -/
def excludePaths (cfg : ApiCfg) (prefixes : List Str) : List Str :=
  prefixes.filter fun p => ¬ p ∈ cfg.incl ∧ cfg.incl.any (fun q => extends_ q p)

/-- `add_include_fixes` (config_editor.rs:287-319). Errors are ignored by the caller: nothing is added. -/
def includeFixes (n : Nat) (order : List (List Str) → List (List Str)) (apis : AMap Api ApiCfg) (u : ApiUsages) :
    List Edit :=
  match apis.get? u.api, commonPrefixes n order true u.usages with
  | some cfg, .ok prefixes => (includePaths cfg prefixes).map (.extendApi u.api)
  | _, _ => []

/-- `add_exclude_fixes` (config_editor.rs:321-349). -/
def excludeFixes (n : Nat) (order : List (List Str) → List (List Str)) (apis : AMap Api ApiCfg) (u : ApiUsages) :
    List Edit :=
  match apis.get? u.api, commonPrefixes n order false u.usages with
  | some cfg, .ok prefixes => (excludePaths cfg prefixes).map (.excludeFromApi u.api)
  | _, _ => []

end Cackle.Prefix
