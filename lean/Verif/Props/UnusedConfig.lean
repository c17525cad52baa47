import Verif.Props.CrateIndex

/-!
# C159 (a section that is said to be unused has no effect)
-/

namespace Cackle.CrateIndex
open Cackle Config Perm

/-- The user is told at the end of a run that the section `sel` is unused. -/
def ToldUnused (c : Checker.State) (sel : PermSel) : Prop :=
  ∃ ps, Checker.checkUnused c = some ps ∧ Problem.unusedPackageConfig sel ∈ ps

/-- `cfg'` is `cfg` without the section, as the offered edit leaves it (C72). -/
structure WithoutSection (cfg cfg' : Raw) (sel : PermSel) : Prop where
  distinct : cfg'.packages.keys.Nodup
  sandbox : cfg'.sandbox = cfg.sandbox
  sections : ∀ q s, listed cfg' q s = if q = sel.pkg ∧ (sel.scope = .all ∨ s = sel.scope) then none else listed cfg q s

/-- Something can be built whose permissions are those of this section of the package: the package itself, also as
part of build scripts and tests of others, its build script, and its tests. -/
def Applies (p : MPkg) : Scope → Prop
  | .all | .fromBuild | .fromTest => True
  | .build => CanBuild p .buildScript
  | .test => CanBuild p .test

/-- The permissions and the sandbox in force. -/
def inForce (cfg : Raw) (idx : List IdxPkg) (pkg : Str) (s : Scope) : Option Perms :=
  ((withInheritance cfg idx).get? ⟨pkg, s⟩).map (fun c => c.perms)

/-- C159 in full: removing a section that is said to be unused changes no permission and no sandbox of anything that can be
built. -/
def C159_Claim : Prop :=
  ∀ (le : Str → Str → Bool) (pkgs : List MPkg) (c : Checker.State) (sel : PermSel) (cfg' : Raw), For le pkgs c →
    ToldUnused c sel → WithoutSection c.cfg cfg' sel → ∀ p ∈ pkgs, p.dir.isSome = true → ∀ s, Applies p s →
      inForce cfg' c.idx.pkgs p.name s = inForce c.cfg c.idx.pkgs p.name s

theorem told_not_indexed {c : Checker.State} {sel : PermSel} (h : ToldUnused c sel) : sel ∉ indexSelectors c.idx.pkgs := by
  obtain ⟨ps, h, hm⟩ := h
  unfold Checker.checkUnused at h
  split at h
  · cases h
  · simp only [Option.some.injEq] at h
    subst h
    rcases List.mem_append.mp hm with hm | hm
    · obtain ⟨e, _, he⟩ := List.mem_flatMap.mp hm
      rcases List.mem_append.mp he with he | he
      · split at he
        · cases he
        · next hne =>
          have := List.mem_singleton.mp he
          simp only [Problem.unusedPackageConfig.injEq] at this
          rw [this]
          exact hne
      · split at he
        · cases he
        · cases List.mem_singleton.mp he
    · obtain ⟨e, _, he⟩ := List.mem_flatMap.mp hm
      split at he
      · cases List.mem_singleton.mp he
      · cases he

/-- **C159 (partial).** Except for benchmarks of packages without tests, a section that is said to be unused can be removed without
any effect on the permissions and sandboxes of what can be built. -/
theorem C159_no_effect_partial (le : Str → Str → Bool) (pkgs : List MPkg) (c : Checker.State) (sel : PermSel) (cfg' : Raw)
    (h : For le pkgs c) (ht : ToldUnused c sel) (hw : WithoutSection c.cfg cfg' sel) (p : MPkg) (hp : p ∈ pkgs)
    (hd : p.dir.isSome = true) (s : Scope) (hs : Applies p s)
    (hb : s = .test → ∃ q ∈ pkgs, q.name = p.name ∧ q.dir.isSome = true ∧ ∃ t ∈ q.targets, t.test = true) :
    (inForce c.cfg c.idx.pkgs p.name s).isSome = true ∧
    inForce cfg' c.idx.pkgs p.name s = inForce c.cfg c.idx.pkgs p.name s := by
  obtain ⟨d, hd⟩ := Option.isSome_iff_exists.mp hd
  have hi : Indexed c.idx.pkgs p.name := ⟨_, h.indexed hp hd, rfl⟩
  have hmem : (⟨p.name, s⟩ : PermSel) ∈ indexSelectors c.idx.pkgs := by
    cases s with
    | all | fromBuild | fromTest => exact mem_indexSelectors_always _ _ hi _ (by simp)
    | build => exact (mem_indexSelectors_build _ _).mpr ⟨_, h.indexed hp hd, rfl, (hasBuildScript_iff p).mpr hs⟩
    | test =>
      obtain ⟨q, hq, hn, hqd, hqt⟩ := hb rfl
      obtain ⟨d', hqd⟩ := Option.isSome_iff_exists.mp hqd
      exact (mem_indexSelectors_test _ _).mpr ⟨_, h.indexed hq hqd, hn, (hasTest_iff q).mpr hqt⟩
  have hnot := told_not_indexed ht
  have hall : ∀ s', (s' = .all ∨ s' = .fromBuild ∨ s' = .fromTest ∨ s' = s) →
      listed cfg' p.name s' = listed c.cfg p.name s' := by
    intro s' hs'
    have hm' : (⟨p.name, s'⟩ : PermSel) ∈ indexSelectors c.idx.pkgs := by
      rcases hs' with rfl | rfl | rfl | rfl
      · exact mem_indexSelectors_always _ _ hi _ (by simp)
      · exact mem_indexSelectors_always _ _ hi _ (by simp)
      · exact mem_indexSelectors_always _ _ hi _ (by simp)
      · exact hmem
    rw [hw.sections, if_neg]
    rintro ⟨he, hsc⟩
    rcases hsc with hsc | hsc
    · refine hnot ?_
      have : sel = ⟨p.name, .all⟩ := by rw [he, ← hsc]
      rw [this]
      exact mem_indexSelectors_always _ _ hi _ (by simp)
    · refine hnot ?_
      have : sel = ⟨p.name, s'⟩ := by rw [he, hsc]
      rw [this]
      exact hm'
  have hbase : ∀ cfg : Raw, cfg.packages.keys.Nodup → ((base cfg c.idx.pkgs).get? ⟨p.name, s⟩).isSome := by
    intro cfg hn
    rw [base_get cfg hn, if_pos hmem]
    cases (cfg.packages.get? p.name).bind (fun c => sectionOf c s) <;> simp
  obtain ⟨e, he, hpe⟩ := eff_get c.cfg h.cfg c.idx.pkgs p.name hi s (hbase _ h.cfg)
  obtain ⟨e', he', hpe'⟩ := eff_get cfg' hw.distinct c.idx.pkgs p.name hi s (hbase _ hw.distinct)
  unfold inForce
  rw [he, he']
  refine ⟨rfl, ?_⟩
  simp only [Option.map_some, Option.some.injEq]
  rw [hpe, hpe']
  have l1 := hall .all (.inl rfl)
  have l2 := hall .fromBuild (.inr (.inl rfl))
  have l3 := hall .fromTest (.inr (.inr (.inl rfl)))
  have l4 := hall s (.inr (.inr (.inr rfl)))
  cases s <;> simp only [eff, lvl_eq, l1, l2, l3, l4, hw.sandbox]

/-! Non-vacuity: a section for the build script of a package that has none, and the package itself. -/
private def ecfg : Raw :=
  { packages := [(str! "a", .mk { allowApis := [str! "fs"] } (some (.mk { allowUnsafe := true } none none none)) none none)] }
private def ecfg' : Raw := { packages := [(str! "a", .mk { allowApis := [str! "fs"] } none none none)] }
private def estate : Checker.State :=
  Checker.updateConfig { idx := toIndex (build (fun _ _ => true) exPkgs) [] [] [] } ecfg

private theorem e_selectors : (build (fun _ _ => true) exPkgs).selectors =
    [⟨str! "m", true, true⟩, ⟨str! "a", false, true⟩, ⟨str! "a", false, true⟩] := by
  rw [build_selectors]; rfl

private theorem e_told : ToldUnused estate ⟨str! "a", .build⟩ := by
  refine ⟨_, rfl, ?_⟩
  simp only [estate, Checker.updateConfig, toIndex, e_selectors]
  decide

private theorem e_without : WithoutSection ecfg ecfg' ⟨str! "a", .build⟩ := by
  refine ⟨by decide, rfl, ?_⟩
  intro q s
  by_cases hq : str! "a" = q
  · subst hq
    cases s <;> rfl
  · have : ¬ q = str! "a" := fun e => hq e.symm
    cases s <;> simp [listed, ecfg, ecfg', AMap.get?, hq, this]

example : inForce ecfg' estate.idx.pkgs (str! "a") .test = inForce ecfg estate.idx.pkgs (str! "a") .test :=
  (C159_no_effect_partial (fun _ _ => true) exPkgs estate ⟨str! "a", .build⟩ ecfg'
    ⟨⟨[], [], [], rfl⟩, by show ecfg.packages.keys.Nodup; decide⟩ e_told e_without
    { name := str! "a", version := str! "1.2.0", targets := [⟨[.lib], true⟩], dir := some [str! "a"] }
    (List.mem_cons_of_mem _ (List.mem_cons_self ..)) rfl .test ⟨_, List.mem_singleton.mpr rfl, .inl rfl⟩
    (fun _ => ⟨_, List.mem_cons_of_mem _ (List.mem_cons_self ..), rfl, rfl, _, List.mem_singleton.mpr rfl, rfl⟩)).2

/-- A package with benchmarks only, which may use the network in them. -/
private def bcfg : Raw :=
  { packages := [(str! "b", .mk {} none (some (.mk { allowApis := [str! "net"] } none none none)) none)] }
private def bcfg' : Raw := { packages := [(str! "b", .mk {} none none none)] }
private def bstate : Checker.State :=
  Checker.updateConfig { idx := toIndex (build (fun _ _ => true) benches) [] [] [] } bcfg

private theorem b_selectors : (build (fun _ _ => true) benches).selectors = [⟨str! "b", false, false⟩] := by
  rw [build_selectors]; rfl

private theorem b_without : WithoutSection bcfg bcfg' ⟨str! "b", .test⟩ := by
  refine ⟨by decide, rfl, ?_⟩
  intro q s
  by_cases hq : str! "b" = q
  · subst hq
    cases s <;> rfl
  · have : ¬ q = str! "b" := fun e => hq e.symm
    cases s <;> simp [listed, bcfg, bcfg', AMap.get?, hq, this]

/-- **C159, disagreement.** The section for the tests of a package that has only benchmarks is said to be unused, but it holds the
permissions of the benchmarks. -/
theorem C159_benchmarks : ¬ C159_Claim := by
  intro h
  have hf : For (fun _ _ => true) benches bstate := by
    refine ⟨⟨[], [], [], rfl⟩, ?_⟩
    show bcfg.packages.keys.Nodup
    decide
  have ht : ToldUnused bstate ⟨str! "b", .test⟩ := by
    refine ⟨_, rfl, ?_⟩
    simp only [bstate, Checker.updateConfig, toIndex, b_selectors]
    decide
  have := h (fun _ _ => true) benches bstate ⟨str! "b", .test⟩ bcfg' hf ht b_without _ (List.mem_singleton.mpr rfl) rfl .test
    ⟨_, List.mem_singleton.mpr rfl, .inr (List.mem_singleton.mpr rfl)⟩
  have h1 := congrArg (fun o => o.map (fun p => p.allowApis)) this
  simp only [inForce, bstate, Checker.updateConfig, toIndex, b_selectors] at h1
  revert h1
  decide

end Cackle.CrateIndex
