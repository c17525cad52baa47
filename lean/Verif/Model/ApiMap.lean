import Verif.Model.Basic

/-!
# Model of `src/checker/api_map.rs` and the API part of `Checker::update_config`
-/

namespace Cackle.ApiMap

/-- API names (`config::ApiName`), opaque. -/
abbrev Api := Str

mutual
/-- `struct ApiMap` (api_map.rs:15-19): a set of APIs and child nodes keyed by the next path part. -/
inductive Trie where
  | node (apis : List Api) (kids : Forest)
/-- The child map `FxHashMap<String, Box<ApiMap>>` as an association list. -/
inductive Forest where
  | nil
  | cons (key : Str) (sub : Trie) (rest : Forest)
end

/-- `ApiMap::default()`; also the state after `ApiMap::clear` (api_map.rs:68-71). -/
def Trie.empty : Trie := .node [] .nil

mutual
/-- `ApiMap::get` (api_map.rs:25-31). -/
def Trie.get : Trie → List Str → List Api
  | .node apis _, [] => apis
  | .node apis kids, k :: ks => kids.getKid apis k ks
/-- The `self.map.get(key).map(|sub| sub.get(key_it)).unwrap_or(&self.apis)` part of `ApiMap::get`. -/
def Forest.getKid : Forest → List Api → Str → List Str → List Api
  | .nil, dflt, _, _ => dflt
  | .cons k' sub rest, dflt, k, ks => if k' = k then sub.get ks else rest.getKid dflt k ks
end

/-- A chain of fresh nodes for a path: what `create_entry` does below a missing key. -/
def Trie.fresh : List Str → Trie
  | [] => .empty
  | k :: ks => .node [] (.cons k (Trie.fresh ks) .nil)

mutual
/-- `ApiMap::create_entry` (api_map.rs:35-42). -/
def Trie.createEntry : Trie → List Str → Trie
  | .node apis kids, [] => .node apis kids
  | .node apis kids, k :: ks => .node apis (kids.createKid k ks)
/-- `self.map.entry(key).or_default().create_entry(key_it)`. -/
def Forest.createKid : Forest → Str → List Str → Forest
  | .nil, k, ks => .cons k (Trie.fresh ks) .nil
  | .cons k' sub rest, k, ks =>
    if k' = k then .cons k' (sub.createEntry ks) rest else .cons k' sub (rest.createKid k ks)
end

mutual
/-- `ApiMap::update_subtree` (api_map.rs:61-66). -/
def Trie.updateSubtree (f : List Api → List Api) : Trie → Trie
  | .node apis kids => .node (f apis) (kids.updateAll f)
/-- The loop over `self.map.values_mut()`. -/
def Forest.updateAll (f : List Api → List Api) : Forest → Forest
  | .nil => .nil
  | .cons k sub rest => .cons k (sub.updateSubtree f) (rest.updateAll f)
end

mutual
/-- `mut_tree(path).update_subtree(f)` (api_map.rs:46-66). `none` models the
`mut_tree called without calling create_entry` panic. -/
def Trie.updateAt (f : List Api → List Api) : Trie → List Str → Option Trie
  | .node apis kids, [] => some (.node (f apis) (kids.updateAll f))
  | .node apis kids, k :: ks => (kids.updateKid f k ks).map (Trie.node apis)
/-- `self.map.get_mut(key).expect(..).mut_tree(key_it)`. -/
def Forest.updateKid (f : List Api → List Api) : Forest → Str → List Str → Option Forest
  | .nil, _, _ => none
  | .cons k' sub rest, k, ks =>
    if k' = k then (sub.updateAt f ks).map (fun s => .cons k' s rest)
    else (rest.updateKid f k ks).map (fun r => .cons k' sub r)
end

/-- The part of `config::ApiConfig` that matters here (config.rs, `include` and `exclude`; an
`ApiPath` is its prefix text). -/
structure ApiDef where
  incl : List Str
  excl : List Str
deriving DecidableEq

/-- `create_entry` for every include and exclude path of every API (checker.rs:169-174). -/
def createAll (apis : List (Api × ApiDef)) (t : Trie) : Trie :=
  apis.foldl
    (fun t ad => (ad.2.incl ++ ad.2.excl).foldl (fun t p => t.createEntry (splitColons p)) t) t

/-- One `for path in paths { mut_tree(path).update_subtree(f) }` loop. -/
def updatePaths (f : List Api → List Api) (paths : List Str) (t : Trie) : Option Trie :=
  paths.foldlM (fun t p => t.updateAt f (splitColons p)) t

/-- The include loop (checker.rs:175-184). -/
def applyIncludes (apis : List (Api × ApiDef)) (t : Trie) : Option Trie :=
  apis.foldlM (fun t ad => updatePaths (setInsert ad.1) ad.2.incl t) t

/-- The exclude loop (checker.rs:185-194). -/
def applyExcludes (apis : List (Api × ApiDef)) (t : Trie) : Option Trie :=
  apis.foldlM (fun t ad => updatePaths (setRemove ad.1) ad.2.excl t) t

/-- The API part of `Checker::update_config` (checker.rs:167-194). The previously loaded tree is
cleared first. `apis` lists the entries of `config.raw.apis` in iteration order. `none` is a panic. -/
def loadApis (apis : List (Api × ApiDef)) (_previous : Trie) : Option Trie := do
  let t := createAll apis Trie.empty
  let t ← applyIncludes apis t
  applyExcludes apis t

end Cackle.ApiMap
