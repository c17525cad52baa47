import Verif.Model.Checker
import Verif.Props.Permissions
import Verif.Props.Config

/-!
# Lemmas about the checker's permission bookkeeping
-/

namespace Cackle.AMap
variable {K V : Type} [DecidableEq K]

theorem nodup_filter (m : AMap K V) (P : K × V → Bool) (h : (keys m).Nodup) :
    (keys (m.filter P)).Nodup :=
  (List.filter_sublist.map _).nodup h

end Cackle.AMap

namespace Cackle.Perm
open Config

theorem base_nodup (cfg : Raw) (idx : List IdxPkg) : (base cfg idx).keys.Nodup := by
  unfold base
  have : ∀ (sels : List PermSel) (m : PermMap), m.keys.Nodup → (sels.foldl orDefault m).keys.Nodup := by
    intro sels
    induction sels with
    | nil => intro m h; exact h
    | cons s rest ih =>
      intro m h
      refine ih _ ?_
      unfold orDefault
      split
      · exact h
      · exact AMap.nodup_insert m s _ h
  exact this _ _ (fromConfig_nodup cfg)

theorem keys_map_snd (m : PermMap) (f : PermSel × PkgCfg → PkgCfg) :
    AMap.keys (m.map (fun e => (e.1, f e))) = AMap.keys m := by
  simp [AMap.keys, Function.comp_def]

theorem withInheritance_nodup (cfg : Raw) (idx : List IdxPkg) :
    (withInheritance cfg idx).keys.Nodup := by
  rw [withInheritance_eq]
  have hb := base_nodup cfg idx
  generalize base cfg idx = m at hb
  unfold applyInheritance layerLocal layerDep layerAll
  simp only []
  have hk : ∀ (a b : PermMap), AMap.keys (a ++ b) = AMap.keys a ++ AMap.keys b := by
    intro a b; simp [AMap.keys]
  rw [hk, hk, keys_map_snd _ (fun e => inheritCfg e.2 _), keys_map_snd, keys_map_snd]
  have hmem : ∀ (P : PermSel → Prop) [DecidablePred P] (k : PermSel),
      k ∈ AMap.keys (m.filter (fun e => P e.1)) → P k := by
    intro P _ k hk
    simp only [AMap.keys, List.mem_map, List.mem_filter] at hk
    obtain ⟨e, ⟨_, he⟩, rfl⟩ := hk
    simpa using he
  rw [List.nodup_append, List.nodup_append]
  refine ⟨⟨AMap.nodup_filter _ _ hb, AMap.nodup_filter _ _ hb, ?_⟩, AMap.nodup_filter _ _ hb, ?_⟩
  · rintro a ha b hb' rfl
    have h1 := hmem (fun k => k.scope = .all) a ha
    have h2 := hmem (fun k => k.scope = .fromBuild ∨ k.scope = .fromTest) a hb'
    rcases h2 with h2 | h2 <;> rw [h1] at h2 <;> cases h2
  · rintro a ha b hb' rfl
    have h2 := hmem (fun k => k.scope = .build ∨ k.scope = .test) a hb'
    rcases List.mem_append.mp ha with ha | ha
    · have h1 := hmem (fun k => k.scope = .all) a ha
      rcases h2 with h2 | h2 <;> rw [h1] at h2 <;> cases h2
    · have h1 := hmem (fun k => k.scope = .fromBuild ∨ k.scope = .fromTest) a ha
      rcases h2 with h2 | h2 <;> rcases h1 with h1 | h1 <;> rw [h1] at h2 <;> cases h2

/-- What is listed at a selector is in effect there. -/
theorem listed_effective (cfg : Raw) (hn : cfg.packages.keys.Nodup) (idx : List IdxPkg)
    (sel : PermSel) (c : PkgCfg) (h : (fromConfig cfg).get? sel = some c) :
    ∃ c', (withInheritance cfg idx).get? sel = some c' ∧
      ∀ a ∈ c.perms.allowApis, a ∈ c'.perms.allowApis := by
  obtain ⟨pkg, s⟩ := sel
  rw [fromConfig_get cfg hn] at h
  have hb : (base cfg idx).get? ⟨pkg, s⟩ = some c := by rw [base_get cfg hn, h]; rfl
  rw [withInheritance_eq, applyInheritance_get]
  have hi : ∀ (o : Option PkgCfg) a, a ∈ c.perms.allowApis → a ∈ (inhOpt o c).perms.allowApis := by
    intro o a ha
    cases o with
    | none => exact ha
    | some p => simp [inhOpt, inheritCfg, PkgCfg.perms, inheritPerms, mem_mergeVec]; exact .inl ha
  have h2 : ∀ p a, a ∈ c.perms.allowApis → a ∈ (inheritCfg c p).perms.allowApis :=
    fun p a ha => hi (some p) a ha
  cases s <;> simp only [hb, Option.map_some]
  · exact ⟨_, rfl, fun a ha => h2 _ a ha⟩
  all_goals exact ⟨_, rfl, fun a ha => hi _ a ha⟩

end Cackle.Perm

namespace Cackle.Checker
open Cackle Config Perm
open Cackle.ApiMap (Api)

theorem foldl_updInfo_get (f : PkgCfg → CrateInfo → CrateInfo) (perms : PermMap)
    (hn : perms.keys.Nodup) (m : AMap PermSel CrateInfo) (sel : PermSel) :
    (perms.foldl (fun m (e : PermSel × PkgCfg) => updInfo m e.1 (f e.2)) m).get? sel =
      match perms.get? sel with
      | none => m.get? sel
      | some p => some (f p ((m.get? sel).getD {})) := by
  induction perms generalizing m with
  | nil => rfl
  | cons e rest ih =>
    obtain ⟨k, p⟩ := e
    simp only [AMap.keys, List.map_cons, List.nodup_cons] at hn
    simp only [List.foldl_cons]
    rw [ih hn.2]
    by_cases h : k = sel
    · subst h
      have : AMap.get? rest k = none := AMap.get?_eq_none_iff.mpr hn.1
      simp [this, AMap.get?, updInfo]
    · simp [AMap.get?, updInfo, h]

theorem grantListed_mem (apis : List Api) (i : CrateInfo) (a : Api) :
    (a ∈ (grantListed i apis).allowed ↔ a ∈ i.allowed ∨ a ∈ apis) ∧
    (a ∈ (grantListed i apis).unused ↔ a ∈ i.unused ∨ (a ∈ apis ∧ a ∉ i.allowed)) := by
  unfold grantListed
  induction apis generalizing i with
  | nil => simp
  | cons b rest ih =>
    simp only [List.foldl_cons]
    have := ih (if b ∈ i.allowed then i
      else { allowed := setInsert b i.allowed, unused := setInsert b i.unused })
    rw [this.1, this.2]
    by_cases hb : b ∈ i.allowed
    · simp only [hb, if_true, List.mem_cons]
      constructor
      · constructor
        · rintro (h | h); exact .inl h; exact .inr (.inr h)
        · rintro (h | rfl | h); exact .inl h; exact .inl hb; exact .inr h
      · constructor
        · rintro (h | h); exact .inl h; exact .inr ⟨.inr h.1, h.2⟩
        · rintro (h | ⟨rfl | h, h2⟩); exact .inl h; exact absurd hb h2; exact .inr ⟨h, h2⟩
    · simp only [hb, if_false, mem_setInsert, List.mem_cons]
      constructor
      · constructor
        · rintro ((h | h) | h); exact .inr (.inl h); exact .inl h; exact .inr (.inr h)
        · rintro (h | h | h); exact .inl (.inr h); exact .inl (.inl h); exact .inr h
      · constructor
        · rintro ((rfl | h) | h)
          · exact .inr ⟨.inl rfl, hb⟩
          · exact .inl h
          · exact .inr ⟨.inr h.1, fun x => h.2 (.inr x)⟩
        · rintro (h | ⟨h | h, h2⟩)
          · exact .inl (.inr h)
          · exact .inl (.inl h)
          · by_cases hab : a = b
            · exact .inl (.inl hab)
            · exact .inr ⟨h, fun x => x.elim hab h2⟩

theorem grantInherited_mem (apis : List Api) (i : CrateInfo) (a : Api) :
    (a ∈ (grantInherited i apis).allowed ↔ a ∈ i.allowed ∨ a ∈ apis) ∧
    (grantInherited i apis).unused = i.unused := by
  unfold grantInherited
  induction apis generalizing i with
  | nil => simp
  | cons b rest ih =>
    simp only [List.foldl_cons]
    have := ih { i with allowed := setInsert b i.allowed }
    rw [this.1, this.2]
    simp only [mem_setInsert, List.mem_cons, and_true]
    constructor
    · rintro ((h | h) | h); exact .inr (.inl h); exact .inl h; exact .inr (.inr h)
    · rintro (h | h | h); exact .inl (.inr h); exact .inl (.inl h); exact .inr h

theorem grantInherited_unused (apis : List Api) (i : CrateInfo) :
    (grantInherited i apis).unused = i.unused := (grantInherited_mem apis i []).2

/-- The API is in the allowed set recorded for the selector. -/
def Allowed (c : State) (sel : PermSel) (a : Api) : Prop :=
  ∃ i, c.infos.get? sel = some i ∧ a ∈ i.allowed
/-- The API is in the unused set recorded for the selector. -/
def Unused (c : State) (sel : PermSel) (a : Api) : Prop :=
  ∃ i, c.infos.get? sel = some i ∧ a ∈ i.unused

/-- The API is listed in the section for the selector. -/
def Lists (cfg : Raw) (sel : PermSel) (a : Api) : Prop :=
  ∃ p, (fromConfig cfg).get? sel = some p ∧ a ∈ p.perms.allowApis
/-- The API is permitted at the selector, inheritance included. -/
def Eff (idx : List IdxPkg) (cfg : Raw) (sel : PermSel) (a : Api) : Prop :=
  ∃ p, (withInheritance cfg idx).get? sel = some p ∧ a ∈ p.perms.allowApis

theorem lists_eff {cfg : Raw} (hn : cfg.packages.keys.Nodup) (idx : List IdxPkg) {sel : PermSel}
    {a : Api} (h : Lists cfg sel a) : Eff idx cfg sel a := by
  obtain ⟨p, hp, ha⟩ := h
  obtain ⟨p', hp', h2⟩ := listed_effective cfg hn idx sel p hp
  exact ⟨p', hp', h2 a ha⟩

theorem updateConfig_get (c : State) (cfg : Raw) (sel : PermSel) :
    (updateConfig c cfg).infos.get? sel =
      let i1 := match (fromConfig cfg).get? sel with
        | none => c.infos.get? sel
        | some p => some (grantListed ((c.infos.get? sel).getD {}) p.perms.allowApis)
      match (withInheritance cfg c.idx.pkgs).get? sel with
      | none => i1
      | some p => some (grantInherited (i1.getD {}) p.perms.allowApis) := by
  show (pass2 _ _).get? sel = _
  unfold pass2 pass1
  rw [foldl_updInfo_get (fun p i => grantInherited i p.perms.allowApis) _ (withInheritance_nodup _ _),
    foldl_updInfo_get (fun p i => grantListed i p.perms.allowApis) _ (fromConfig_nodup _)]

theorem updateConfig_allowed {c : State} {cfg : Raw} (hn : cfg.packages.keys.Nodup) (sel : PermSel)
    (a : Api) : Allowed (updateConfig c cfg) sel a ↔ Allowed c sel a ∨ Eff c.idx.pkgs cfg sel a := by
  unfold Allowed
  rw [updateConfig_get]
  have hle := lists_eff hn c.idx.pkgs (sel := sel) (a := a)
  unfold Lists at hle
  unfold Eff at hle ⊢
  cases h1 : (fromConfig cfg).get? sel with
  | none =>
    cases h2 : (withInheritance cfg c.idx.pkgs).get? sel with
    | none => simp
    | some p =>
      cases h3 : c.infos.get? sel <;> simp [grantInherited_mem]
  | some q =>
    simp only [h1, Option.some.injEq, exists_eq_left'] at hle
    cases h2 : (withInheritance cfg c.idx.pkgs).get? sel with
    | none =>
      simp only [h2] at hle
      cases h3 : c.infos.get? sel <;>
        simp [grantListed_mem] <;> exact fun h => by obtain ⟨p, hp, _⟩ := hle h; cases hp
    | some p =>
      simp only [h2, Option.some.injEq, exists_eq_left'] at hle
      cases h3 : c.infos.get? sel <;> simp [grantInherited_mem, grantListed_mem]
      · exact hle
      · constructor
        · rintro ((h | h) | h)
          · exact .inl h
          · exact .inr (hle h)
          · exact .inr h
        · rintro (h | h)
          · exact .inl (.inl h)
          · exact .inr h

theorem updateConfig_unused {c : State} {cfg : Raw} (sel : PermSel) (a : Api) :
    Unused (updateConfig c cfg) sel a ↔
      Unused c sel a ∨ (Lists cfg sel a ∧ ¬ Allowed c sel a) := by
  unfold Unused Allowed Lists
  rw [updateConfig_get]
  cases h1 : (fromConfig cfg).get? sel with
  | none =>
    cases h2 : (withInheritance cfg c.idx.pkgs).get? sel <;>
      cases h3 : c.infos.get? sel <;> simp [grantInherited_unused]
  | some q =>
    cases h2 : (withInheritance cfg c.idx.pkgs).get? sel <;>
      cases h3 : c.infos.get? sel <;> simp [grantInherited_unused, grantListed_mem]

theorem markUsed_get (m : AMap PermSel CrateInfo) (sel : PermSel) (api : Api) (q : PermSel) :
    (markUsed m sel api).get? q = if sel = q then
      (m.get? q).map (fun i => { i with unused := setRemove api i.unused }) else m.get? q := by
  unfold markUsed
  cases h : m.get? sel with
  | none =>
    by_cases hq : sel = q
    · subst hq; simp [h]
    · simp [hq]
  | some i =>
    by_cases hq : sel = q
    · subst hq; simp [h]
    · simp [hq]

/-- The selector `q` is `sel` or one of its ancestors in the documented tree. -/
def InChain (q sel : PermSel) : Prop := q.pkg = sel.pkg ∧ q.scope ∈ chain sel.scope

instance (q sel : PermSel) : Decidable (InChain q sel) := by unfold InChain; infer_instance

theorem markAll_get (m : AMap PermSel CrateInfo) (sel : PermSel) (api : Api) (q : PermSel) :
    (markParents (markUsed m sel api) sel api).get? q = if InChain q sel then
      (m.get? q).map (fun i => { i with unused := setRemove api i.unused }) else m.get? q := by
  obtain ⟨pkg, s⟩ := sel
  obtain ⟨qp, qs⟩ := q
  by_cases hp : qp = pkg
  · subst hp
    cases s <;> cases qs <;>
      simp [markParents, PermSel.parent, Scope.parent, markUsed_get, InChain, chain]
  · have hp' : ¬ pkg = qp := fun e => hp e.symm
    cases s <;>
      simp [markParents, PermSel.parent, Scope.parent, markUsed_get, InChain, hp, hp']

theorem any_allowed_iff (c : State) (sel : PermSel) (a : Api) :
    (c.infos.get? sel).any (fun i => decide (a ∈ i.allowed)) = true ↔ Allowed c sel a := by
  unfold Allowed
  cases c.infos.get? sel <;> simp

/-- The selector to which a reported usage is attributed. -/
def selOf (au : ApiUsages) : PermSel := ⟨au.pkg.name, au.scope⟩

theorem apiUsed_spec {c c' : State} {au : ApiUsages} {ps : List Problem}
    (h : apiUsed c au = some (c', ps)) :
    (Allowed c (selOf au) au.api ∧ ps = [] ∧
      c' = { c with infos := markParents (markUsed c.infos (selOf au) au.api) (selOf au) au.api }) ∨
    (¬ Allowed c (selOf au) au.api ∧ c' = c) := by
  unfold apiUsed at h
  simp only [] at h
  split at h
  · rename_i h1
    simp only [Option.some.injEq, Prod.mk.injEq] at h
    exact .inl ⟨(any_allowed_iff c (selOf au) au.api).mp h1, h.2.symm, h.1.symm⟩
  · rename_i h1
    right
    refine ⟨fun h2 => h1 ((any_allowed_iff c (selOf au) au.api).mpr h2), ?_⟩
    split at h
    · cases h
    · simp only [Option.some.injEq, Prod.mk.injEq] at h
      exact h.1.symm

theorem apiUsed_allowed {c c' : State} {au : ApiUsages} {ps : List Problem}
    (h : apiUsed c au = some (c', ps)) (sel : PermSel) (a : Api) :
    Allowed c' sel a ↔ Allowed c sel a := by
  rcases apiUsed_spec h with ⟨_, _, rfl⟩ | ⟨_, rfl⟩
  · unfold Allowed
    simp only [markAll_get]
    split
    · cases c.infos.get? sel <;> simp
    · rfl
  · rfl

theorem apiUsed_unused {c c' : State} {au : ApiUsages} {ps : List Problem}
    (h : apiUsed c au = some (c', ps)) (sel : PermSel) (a : Api) :
    Unused c' sel a ↔ Unused c sel a ∧
      ¬ (Allowed c (selOf au) au.api ∧ a = au.api ∧ InChain sel (selOf au)) := by
  rcases apiUsed_spec h with ⟨h1, _, rfl⟩ | ⟨h1, rfl⟩
  · unfold Unused
    simp only [markAll_get]
    by_cases hc : InChain sel (selOf au)
    · simp only [hc, if_true, h1, true_and, and_true]
      cases c.infos.get? sel <;> simp [and_comm]
    · simp [hc]
  · simp [h1]

end Cackle.Checker
