import Verif.Model.Permissions

/-!
# Lemmas about maps and effective permissions
-/

namespace Cackle

namespace AMap
variable {K V W : Type} [DecidableEq K]

theorem get?_filter_key (m : AMap K V) (P : K → Prop) [DecidablePred P] (k : K) :
    get? (m.filter (fun e => P e.1)) k = if P k then get? m k else none := by
  induction m with
  | nil => simp [get?]
  | cons e rest ih =>
    obtain ⟨k', v⟩ := e
    by_cases hp : P k'
    · by_cases hk : k' = k
      · subst hk; simp [hp, get?]
      · simp [hp, get?, hk, ih]
    · by_cases hk : k' = k
      · subst hk; simp [hp, ih]
      · simp [hp, get?, hk, ih]

theorem get?_map_val (m : AMap K V) (f : K → V → W) (k : K) :
    get? (m.map (fun e => (e.1, f e.1 e.2))) k = (get? m k).map (f k) := by
  induction m with
  | nil => simp [get?]
  | cons e rest ih =>
    obtain ⟨k', v⟩ := e
    by_cases hk : k' = k
    · subst hk; simp [get?]
    · simp [get?, hk, ih]

theorem get?_append (m n : AMap K V) (k : K) : get? (m ++ n) k = (get? m k).or (get? n k) := by
  induction m with
  | nil => simp [get?]
  | cons e rest ih =>
    obtain ⟨k', v⟩ := e
    by_cases hk : k' = k
    · simp [get?, hk]
    · simp [get?, hk, ih]

end AMap

namespace Config

theorem mem_insertSorted {x a : Str} {l : List Str} : x ∈ insertSorted a l ↔ x = a ∨ x ∈ l := by
  induction l with
  | nil => simp [insertSorted]
  | cons b bs ih =>
    unfold insertSorted
    split
    · simp
    · simp only [List.mem_cons, ih]
      constructor
      · rintro (h | h | h)
        · exact Or.inr (Or.inl h)
        · exact Or.inl h
        · exact Or.inr (Or.inr h)
      · rintro (h | h | h)
        · exact Or.inr (Or.inl h)
        · exact Or.inl h
        · exact Or.inr (Or.inr h)

theorem mem_sortStr {x : Str} {l : List Str} : x ∈ sortStr l ↔ x ∈ l := by
  induction l with
  | nil => simp [sortStr]
  | cons a l ih =>
    have : sortStr (a :: l) = insertSorted a (sortStr l) := rfl
    rw [this, mem_insertSorted, ih]; simp

theorem mem_dedup {x : Str} {l : List Str} : x ∈ dedup l ↔ x ∈ l := by
  fun_induction dedup l with
  | case1 => simp
  | case2 a => simp
  | case3 b rest ih => rw [ih]; simp
  | case4 a b rest h ih => simp only [List.mem_cons, ih]

theorem mem_mergeVec {x : Str} {a b : List Str} : x ∈ mergeVec a b ↔ x ∈ a ∨ x ∈ b := by
  simp [mergeVec, mem_dedup, mem_sortStr]

end Config

namespace Perm
open Config
open Cackle.ApiMap (Api)

/-- The part of a package's configuration for a scope. -/
def sectionOf (c : PkgCfg) : Scope → Option PkgCfg
  | .all => some (.mk c.perms none none none)
  | .build => c.build
  | .test => c.test
  | .fromBuild => c.from_.bind Prod.fst
  | .fromTest => c.from_.bind Prod.snd

theorem insertOpt_get (m : PermMap) (pkg : Str) (s : Scope) (o : Option PkgCfg) (sel : PermSel) :
    (insertOpt m pkg s o).get? sel =
      if (⟨pkg, s⟩ : PermSel) = sel then o.or (m.get? sel) else m.get? sel := by
  cases o with
  | none => simp [insertOpt]
  | some c => simp [insertOpt]

theorem flattenPkg_get (m : PermMap) (pkg : Str) (c : PkgCfg) (q : Str) (s : Scope) :
    (flattenPkg m pkg c).get? ⟨q, s⟩ =
      if pkg = q then (sectionOf c s).or (m.get? ⟨q, s⟩) else m.get? ⟨q, s⟩ := by
  by_cases h : pkg = q
  · subst h
    cases s <;> simp [flattenPkg, insertOpt_get, sectionOf]
  · simp [flattenPkg, insertOpt_get, h]

theorem fromConfig_get_aux (pk : AMap Str PkgCfg) (hn : pk.keys.Nodup) (m : PermMap) (q : Str)
    (s : Scope) :
    (pk.foldl (fun m (p : Str × PkgCfg) => flattenPkg m p.1 p.2) m).get? ⟨q, s⟩ =
      ((pk.get? q).bind (fun c => sectionOf c s)).or (m.get? ⟨q, s⟩) := by
  induction pk generalizing m with
  | nil => simp
  | cons e rest ih =>
    obtain ⟨k, c⟩ := e
    simp only [AMap.keys, List.map_cons, List.nodup_cons] at hn
    simp only [List.foldl_cons]
    rw [ih hn.2, flattenPkg_get]
    by_cases h : k = q
    · subst h
      have : AMap.get? rest k = none := AMap.get?_eq_none_iff.mpr hn.1
      simp [this, AMap.get?]
    · simp [AMap.get?, h]

theorem fromConfig_get (cfg : Raw) (hn : cfg.packages.keys.Nodup) (q : Str) (s : Scope) :
    (fromConfig cfg).get? ⟨q, s⟩ = (cfg.packages.get? q).bind (fun c => sectionOf c s) := by
  rw [fromConfig, fromConfig_get_aux _ hn]; simp

theorem orDefault_get (m : PermMap) (sel q : PermSel) :
    (orDefault m sel).get? q =
      (m.get? q).or (if sel = q then some PkgCfg.default else none) := by
  unfold orDefault
  by_cases h : (m.get? sel).isSome
  · simp only [h, if_true]
    by_cases hq : sel = q
    · subst hq
      obtain ⟨v, hv⟩ := Option.isSome_iff_exists.mp h
      simp [hv]
    · simp [hq]
  · have hn : m.get? sel = none := by simpa using h
    by_cases hq : sel = q
    · subst hq; simp [hn]
    · simp [hn, hq]

theorem foldl_orDefault_get (sels : List PermSel) (m : PermMap) (q : PermSel) :
    (sels.foldl orDefault m).get? q =
      (m.get? q).or (if q ∈ sels then some PkgCfg.default else none) := by
  induction sels generalizing m with
  | nil => simp
  | cons s rest ih =>
    simp only [List.foldl_cons]
    rw [ih, orDefault_get]
    by_cases h : s = q
    · subst h
      cases m.get? s <;> simp
    · have h' : ¬ q = s := fun e => h e.symm
      simp [h, h']

/-- The map before inheritance: configured sections, then defaults for indexed selectors. -/
def base (cfg : Raw) (idx : List IdxPkg) : PermMap :=
  (indexSelectors idx).foldl orDefault (fromConfig cfg)

theorem base_get (cfg : Raw) (hn : cfg.packages.keys.Nodup) (idx : List IdxPkg) (q : Str)
    (s : Scope) :
    (base cfg idx).get? ⟨q, s⟩ =
      ((cfg.packages.get? q).bind (fun c => sectionOf c s)).or
        (if (⟨q, s⟩ : PermSel) ∈ indexSelectors idx then some PkgCfg.default else none) := by
  rw [base, foldl_orDefault_get, fromConfig_get cfg hn]

/-- Inheriting from an optional parent. -/
def inhOpt : Option PkgCfg → PkgCfg → PkgCfg
  | some p, c => inheritCfg c p
  | none, c => c

theorem inheritFrom_eq (L : PermMap) (sel : PermSel) : inheritFrom L sel = inhOpt (L.get? sel) := by
  funext c; unfold inheritFrom inhOpt; cases L.get? sel <;> rfl

theorem layerAll_get (m : PermMap) (g : Sandbox) (pkg : Str) (sc : Scope) :
    (layerAll m g).get? ⟨pkg, sc⟩ = if sc = .all then (m.get? ⟨pkg, sc⟩).map
        (fun c => inheritCfg c (.leaf { sandbox := g })) else none := by
  unfold layerAll
  rw [AMap.get?_map_val _ (fun _ c => inheritCfg c (.leaf { sandbox := g })),
    AMap.get?_filter_key m (fun k => k.scope = .all)]
  by_cases h : sc = .all <;> simp [h]

theorem layerDep_get (m L : PermMap) (pkg : Str) (sc : Scope) :
    (layerDep m L).get? ⟨pkg, sc⟩ = if sc = .fromBuild ∨ sc = .fromTest then
      (m.get? ⟨pkg, sc⟩).map (inhOpt (L.get? ⟨pkg, .all⟩)) else none := by
  unfold layerDep
  rw [AMap.get?_map_val _ (fun (k : PermSel) c => inheritFrom L ⟨k.pkg, .all⟩ c),
    AMap.get?_filter_key m (fun k => k.scope = .fromBuild ∨ k.scope = .fromTest)]
  by_cases h : sc = .fromBuild ∨ sc = .fromTest <;> simp [h, ← inheritFrom_eq]

theorem layerLocal_get (m L : PermMap) (pkg : Str) (sc : Scope) :
    (layerLocal m L).get? ⟨pkg, sc⟩ = if sc = .build ∨ sc = .test then
      (m.get? ⟨pkg, sc⟩).map
        (inhOpt (L.get? ⟨pkg, if sc = .build then .fromBuild else .fromTest⟩)) else none := by
  unfold layerLocal
  rw [AMap.get?_map_val _ (fun (k : PermSel) c => inheritFrom L
      ⟨k.pkg, if k.scope = .build then .fromBuild else .fromTest⟩ c),
    AMap.get?_filter_key m (fun k => k.scope = .build ∨ k.scope = .test)]
  by_cases h : sc = .build ∨ sc = .test <;> simp [h, ← inheritFrom_eq]

theorem applyInheritance_get (m : PermMap) (g : Sandbox) (pkg : Str) (s : Scope) :
    (applyInheritance m g).get? ⟨pkg, s⟩ =
      let all := (m.get? ⟨pkg, .all⟩).map (fun c => inheritCfg c (.leaf { sandbox := g }))
      let fb := (m.get? ⟨pkg, .fromBuild⟩).map (inhOpt all)
      let ft := (m.get? ⟨pkg, .fromTest⟩).map (inhOpt all)
      match s with
      | .all => all
      | .fromBuild => fb
      | .fromTest => ft
      | .build => (m.get? ⟨pkg, .build⟩).map (inhOpt fb)
      | .test => (m.get? ⟨pkg, .test⟩).map (inhOpt ft) := by
  unfold applyInheritance
  simp only []
  rw [AMap.get?_append, AMap.get?_append, layerAll_get, layerDep_get, layerLocal_get]
  cases s <;> simp [layerAll_get, layerDep_get]

end Perm
end Cackle

namespace Cackle.Perm
open Config

/-- The configured permissions of one section, or the defaults. -/
def lvl (cfg : Raw) (pkg : Str) (s : Scope) : Perms :=
  (((cfg.packages.get? pkg).bind (fun c => sectionOf c s)).map PkgCfg.perms).getD {}

/-- Effective permissions computed level by level. -/
def eff (cfg : Raw) (pkg : Str) : Scope → Perms
  | .all => inheritPerms (lvl cfg pkg .all) { sandbox := cfg.sandbox }
  | .fromBuild => inheritPerms (lvl cfg pkg .fromBuild)
      (inheritPerms (lvl cfg pkg .all) { sandbox := cfg.sandbox })
  | .fromTest => inheritPerms (lvl cfg pkg .fromTest)
      (inheritPerms (lvl cfg pkg .all) { sandbox := cfg.sandbox })
  | .build => inheritPerms (lvl cfg pkg .build) (inheritPerms (lvl cfg pkg .fromBuild)
      (inheritPerms (lvl cfg pkg .all) { sandbox := cfg.sandbox }))
  | .test => inheritPerms (lvl cfg pkg .test) (inheritPerms (lvl cfg pkg .fromTest)
      (inheritPerms (lvl cfg pkg .all) { sandbox := cfg.sandbox }))

theorem mem_indexSelectors_always (idx : List IdxPkg) (pkg : Str) (h : ∃ p ∈ idx, p.name = pkg)
    (s : Scope) (hs : s = .all ∨ s = .fromBuild ∨ s = .fromTest) :
    (⟨pkg, s⟩ : PermSel) ∈ indexSelectors idx := by
  obtain ⟨p, hp, rfl⟩ := h
  unfold indexSelectors
  refine List.mem_flatMap.mpr ⟨p, hp, ?_⟩
  rcases hs with rfl | rfl | rfl <;> simp [selectorsOf]

theorem mem_indexSelectors_build (idx : List IdxPkg) (pkg : Str) :
    (⟨pkg, .build⟩ : PermSel) ∈ indexSelectors idx ↔
      ∃ p ∈ idx, p.name = pkg ∧ p.hasBuildScript = true := by
  simp only [indexSelectors, List.mem_flatMap, selectorsOf]
  constructor
  · rintro ⟨p, hp, h⟩
    refine ⟨p, hp, ?_⟩
    cases hb : p.hasBuildScript <;> cases ht : p.hasTest <;> simp [hb, ht] at h ⊢
    · exact h.symm
    · exact h.symm
  · rintro ⟨p, hp, rfl, hb⟩
    exact ⟨p, hp, by simp [hb]⟩

theorem mem_indexSelectors_test (idx : List IdxPkg) (pkg : Str) :
    (⟨pkg, .test⟩ : PermSel) ∈ indexSelectors idx ↔
      ∃ p ∈ idx, p.name = pkg ∧ p.hasTest = true := by
  simp only [indexSelectors, List.mem_flatMap, selectorsOf]
  constructor
  · rintro ⟨p, hp, h⟩
    refine ⟨p, hp, ?_⟩
    cases hb : p.hasBuildScript <;> cases ht : p.hasTest <;> simp [hb, ht] at h ⊢
    · exact h.symm
    · exact h.symm
  · rintro ⟨p, hp, rfl, hb⟩
    exact ⟨p, hp, by simp [hb]⟩

theorem withInheritance_eq (cfg : Raw) (idx : List IdxPkg) :
    withInheritance cfg idx = applyInheritance (base cfg idx) cfg.sandbox := rfl

theorem base_perms {cfg : Raw} (hn : cfg.packages.keys.Nodup) {idx : List IdxPkg} {pkg : Str}
    {s : Scope} (h : ((base cfg idx).get? ⟨pkg, s⟩).isSome) :
    ∃ c, (base cfg idx).get? ⟨pkg, s⟩ = some c ∧ c.perms = lvl cfg pkg s := by
  obtain ⟨c, hc⟩ := Option.isSome_iff_exists.mp h
  refine ⟨c, hc, ?_⟩
  rw [base_get cfg hn] at hc
  unfold lvl
  cases hx : (cfg.packages.get? pkg).bind (fun c => sectionOf c s) with
  | some d =>
    simp [hx] at hc
    simp [hc]
  | none =>
    rw [hx] at hc
    simp only [Option.none_or] at hc
    split at hc
    · cases hc; rfl
    · cases hc

theorem eff_get (cfg : Raw) (hn : cfg.packages.keys.Nodup) (idx : List IdxPkg) (pkg : Str)
    (hidx : ∃ p ∈ idx, p.name = pkg) (s : Scope)
    (hs : ((base cfg idx).get? ⟨pkg, s⟩).isSome) :
    ∃ c, (withInheritance cfg idx).get? ⟨pkg, s⟩ = some c ∧ c.perms = eff cfg pkg s := by
  have some_of : ∀ s', (s' = .all ∨ s' = .fromBuild ∨ s' = .fromTest) →
      ((base cfg idx).get? ⟨pkg, s'⟩).isSome := by
    intro s' h'
    rw [base_get cfg hn, if_pos (mem_indexSelectors_always idx pkg hidx s' h')]
    cases (cfg.packages.get? pkg).bind (fun c => sectionOf c s') <;> simp
  obtain ⟨ca, ha, pa⟩ := base_perms hn (some_of .all (by simp))
  obtain ⟨cb, hb, pb⟩ := base_perms hn (some_of .fromBuild (by simp))
  obtain ⟨ct, ht, pt⟩ := base_perms hn (some_of .fromTest (by simp))
  rw [withInheritance_eq, applyInheritance_get]
  obtain ⟨c, hc, pc⟩ := base_perms hn hs
  cases s <;> simp only [ha, hb, ht, hc, Option.map_some, inhOpt] <;> refine ⟨_, rfl, ?_⟩ <;>
    simp [inheritCfg, PkgCfg.perms, PkgCfg.leaf, eff, ← pa, ← pb, ← pt, ← pc]

end Cackle.Perm
