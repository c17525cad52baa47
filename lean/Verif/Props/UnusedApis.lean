import Verif.Props.Checker

/-!
# C160 (permissions that are said to be unused can be removed), and when a section is said to be unused (C159)
-/

namespace Cackle.Checker
open Cackle Config Perm
open Cackle.ApiMap (Api)

/-- The configuration in force at the end of a history (latest first). -/
def LastLoaded (cfg : Raw) (tr : List CEv) : Prop :=
  ∃ later earlier, tr = later ++ .loaded cfg :: earlier ∧ ∀ cfg', CEv.loaded cfg' ∉ later

/-- Every use of an API was permitted when it was seen. -/
def AllPermitted (tr : List CEv) : Prop :=
  ∀ later au earlier, tr = later ++ .used au :: earlier →
    ∃ cfg, CEv.loaded cfg ∈ earlier ∧ Grants cfg au.pkg.name au.scope au.api

/-- `cfg'` is `cfg` without the permissions that are reported as unused. -/
structure WithoutUnused (cfg cfg' : Raw) (ps : List Problem) : Prop where
  distinct : cfg'.packages.keys.Nodup
  lists : ∀ pkg s a, ListsAt cfg' pkg s a ↔ ListsAt cfg pkg s a ∧ ¬ ReportedUnused ps pkg s a

/-- C160 in full: after a run in which every use was permitted, the next run has nothing to complain about if
the permissions that are said to be unused are removed and the same uses are seen, provided the configuration permitted them before
the removal. -/
def C160_Claim : Prop :=
  ∀ (idx : Index) (c : State) (tr : List CEv) (cfg cfg' : Raw) (ps : List Problem), CRun idx c tr → LastLoaded cfg tr →
    AllPermitted tr → (∀ au, CEv.used au ∈ tr → Known idx au.pkg.name au.scope) → checkUnused c = some ps →
    WithoutUnused cfg cfg' ps → ∀ au, CEv.used au ∈ tr → Grants cfg au.pkg.name au.scope au.api →
      ∃ c', apiUsed (updateConfig { idx := idx } cfg') au = some (c', [])

/-- **C160 (partial).** It holds for runs during which the configuration is not edited. -/
theorem C160_removable_partial (idx : Index) (c : State) (cfg cfg' : Raw) (later : List CEv) (ps : List Problem)
    (h : CRun idx c (later ++ [.loaded cfg])) (hsame : ∀ cfg', CEv.loaded cfg' ∈ later → cfg' = cfg)
    (hk : ∀ au, CEv.used au ∈ later → Known idx au.pkg.name au.scope) (hps : checkUnused c = some ps)
    (hw : WithoutUnused cfg cfg' ps) (au : ApiUsages) (hu : CEv.used au ∈ later)
    (hg : Grants cfg au.pkg.name au.scope au.api) :
    Grants cfg' au.pkg.name au.scope au.api ∧ ∃ c', apiUsed (updateConfig { idx := idx } cfg') au = some (c', []) := by
  have hg' : Grants cfg' au.pkg.name au.scope au.api := by
    obtain ⟨s, hs, p, hp, ha⟩ := hg
    have hks : Known idx au.pkg.name s := by
      obtain ⟨q, hq, h1, h2, h3⟩ := hk au hu
      refine ⟨q, hq, h1, fun e => h2 ?_, fun e => h3 ?_⟩
      · subst e; revert hs; cases au.scope <;> simp [chain]
      · subst e; revert hs; cases au.scope <;> simp [chain]
    have hnot : ¬ ReportedUnused ps au.pkg.name s au.api := by
      intro hr
      exact ((C07_same_config_partial idx c cfg later h hsame hk ps hps au.pkg.name s hks au.api).mp hr).2 au hu
        ⟨rfl, rfl, hs⟩
    obtain ⟨p', hp', ha'⟩ := (hw.lists au.pkg.name s au.api).mpr ⟨⟨p, hp, ha⟩, hnot⟩
    exact ⟨s, hs, p', hp', ha'⟩
  refine ⟨hg', ?_⟩
  exact (C06_api_use_reported idx _ [.loaded cfg'] (.load cfg' hw.distinct .init) au (hk au hu)).1
    ⟨cfg', List.mem_singleton.mpr rfl, hg'⟩

private def pk : PkgId := ⟨str! "a", str! "1.0.0", true⟩
private def ix : Index := { pkgs := [⟨str! "a", true, false⟩] }
private def use : ApiUsages :=
  { pkg := pk, scope := .build, api := str! "fs", usages := [{ address := 0, symbolStart := 0, binPath := [], scope := .build, loc := ⟨[], 0, none⟩, outer := none, from_ := .symbol [], to := .symbol [], toName := [str! "std", str! "fs"], toSource := .symbol [] }] }
/-- The build script may use `fs`. -/
private def cfgBuild : Raw :=
  { packages := [(str! "a", .mk {} (some (.leaf { allowApis := [str! "fs"] })) none none)] }
/-- The whole package may use `fs`. -/
private def cfgAll : Raw := { packages := [(str! "a", .leaf { allowApis := [str! "fs"] })] }
private def cfgNone : Raw := { packages := [(str! "a", .leaf {})] }
private def c1 : State := updateConfig { idx := ix } cfgBuild
private def c2 : State := ((apiUsed c1 use).map Prod.fst).getD {}
private def c3 : State := updateConfig c2 cfgAll

private theorem use_ok : apiUsed c1 use = some (c2, []) := by
  have : (apiUsed c1 use).map Prod.snd = some [] := by decide +kernel
  unfold c2
  cases h : apiUsed c1 use with
  | none => rw [h] at this; cases this
  | some x =>
    rw [h] at this
    simp only [Option.map_some, Option.some.injEq] at this
    obtain ⟨y, z⟩ := x
    simp only at this
    subst this
    rfl

private theorem run3 : CRun ix c3 [.loaded cfgAll, .used use, .loaded cfgBuild] :=
  .load cfgAll (by decide) (.use use [] (.load cfgBuild (by decide) .init) use_ok)

private theorem told3 : checkUnused c3 = some [.unusedAllowApi ⟨str! "a", .all⟩ [str! "fs"]] := by decide +kernel

/-- **C160, disagreement.** The permission of a build script is moved to the whole package while cackle runs, after the build script was
checked. The permission is then reported as unused, but without it the build script is not permitted what it does. -/
theorem C160_moved_permission : ¬ C160_Claim := by
  intro h
  have hw : WithoutUnused cfgAll cfgNone [.unusedAllowApi ⟨str! "a", .all⟩ [str! "fs"]] := by
    refine ⟨by decide, ?_⟩
    intro pkg s a
    constructor
    · rintro ⟨p, hp, ha⟩
      exfalso
      by_cases hq : str! "a" = pkg
      · subst hq
        cases s <;> simp [listed, cfgNone, AMap.get?, PkgCfg.leaf, PkgCfg.perms, PkgCfg.build, PkgCfg.test, PkgCfg.from_] at hp
        subst hp
        cases ha
      · cases s <;> simp [listed, cfgNone, AMap.get?, hq] at hp
    · rintro ⟨⟨p, hp, ha⟩, hr⟩
      exfalso
      by_cases hq : str! "a" = pkg
      · subst hq
        cases s <;> simp [listed, cfgAll, AMap.get?, PkgCfg.leaf, PkgCfg.perms, PkgCfg.build, PkgCfg.test, PkgCfg.from_] at hp
        subst hp
        exact hr ⟨_, List.mem_singleton.mpr rfl, ha⟩
      · cases s <;> simp [listed, cfgAll, AMap.get?, hq] at hp
  obtain ⟨c', hc⟩ := h ix c3 _ cfgAll cfgNone _ run3 ⟨[], _, rfl, by simp⟩ (by
      intro later au earlier he
      match later, he with
      | [x], he =>
        simp only [List.cons_append, List.nil_append, List.cons.injEq, CEv.used.injEq] at he
        obtain ⟨_, rfl, rfl⟩ := he
        exact ⟨cfgBuild, List.mem_singleton.mpr rfl, .build, by decide, { allowApis := [str! "fs"] }, rfl, by decide⟩
      | [], he => cases he
      | [_, _], he => simp at he
      | _ :: _ :: _ :: _, he => simp at he)
    (by
      intro au hm
      simp only [List.mem_cons, reduceCtorEq, CEv.used.injEq, List.not_mem_nil, or_false, false_or] at hm
      subst hm
      exact ⟨_, List.mem_singleton.mpr rfl, rfl, fun _ => rfl, fun h => by cases h⟩)
    told3 hw use (by simp) ⟨.all, by decide, { allowApis := [str! "fs"] }, rfl, by decide⟩
  have : (apiUsed (updateConfig { idx := ix } cfgNone) use).map Prod.snd ≠ some [] := by decide +kernel
  rw [hc] at this
  exact this rfl

/-! The hypotheses of `C160_removable_partial` can be met: the section for the package lists `fs` and `net`, the build
script uses `fs`, `net` is reported, and what is left permits the build script what it does. -/

private def cfgTwo : Raw := { packages := [(str! "a", .leaf { allowApis := [str! "fs", str! "net"] })] }
private def d1 : State := updateConfig { idx := ix } cfgTwo
private def d2 : State := ((apiUsed d1 use).map Prod.fst).getD {}

example : CRun ix d2 ([.used use] ++ [.loaded cfgTwo]) ∧
    checkUnused d2 = some [.unusedAllowApi ⟨str! "a", .all⟩ [str! "net"]] ∧
    WithoutUnused cfgTwo cfgAll [.unusedAllowApi ⟨str! "a", .all⟩ [str! "net"]] ∧
    Grants cfgTwo (str! "a") .build (str! "fs") := by
  refine ⟨.use use [] (.load cfgTwo (by decide) .init) ?_, by decide +kernel, ⟨by decide, ?_⟩, ?_⟩
  · have : (apiUsed d1 use).map Prod.snd = some [] := by decide +kernel
    unfold d2
    cases h : apiUsed d1 use with
    | none => rw [h] at this; cases this
    | some x =>
      rw [h] at this
      simp only [Option.map_some, Option.some.injEq] at this
      obtain ⟨y, z⟩ := x
      simp only at this
      subst this
      exact h
  · intro pkg s a
    by_cases hq : str! "a" = pkg
    · subst hq
      constructor
      · rintro ⟨p, hp, ha⟩
        cases s <;> simp [listed, cfgAll, AMap.get?, PkgCfg.leaf, PkgCfg.perms, PkgCfg.build, PkgCfg.test, PkgCfg.from_] at hp
        subst hp
        simp only [List.mem_singleton] at ha
        subst ha
        refine ⟨⟨{ allowApis := [str! "fs", str! "net"] }, rfl, by decide⟩, ?_⟩
        rintro ⟨u, hu, hm⟩
        cases List.mem_singleton.mp hu
        revert hm; decide
      · rintro ⟨⟨p, hp, ha⟩, hr⟩
        cases s <;> simp [listed, cfgTwo, AMap.get?, PkgCfg.leaf, PkgCfg.perms, PkgCfg.build, PkgCfg.test, PkgCfg.from_] at hp
        subst hp
        simp only [List.mem_cons, List.not_mem_nil, or_false] at ha
        rcases ha with ha | ha
        · exact ⟨{ allowApis := [str! "fs"] }, rfl, by simp [ha]⟩
        · exact absurd ⟨_, List.mem_singleton.mpr rfl, List.mem_singleton.mpr ha⟩ hr
    · constructor
      · rintro ⟨p, hp, _⟩
        cases s <;> simp [listed, cfgAll, AMap.get?, hq] at hp
      · rintro ⟨⟨p, hp, _⟩, _⟩
        cases s <;> simp [listed, cfgTwo, AMap.get?, hq] at hp
  · exact ⟨.all, by decide, { allowApis := [str! "fs", str! "net"] }, rfl, by decide⟩

/-- **C159 (when it is said).** In every history a section is said to be unused exactly if some configuration that was loaded during
the run has it and there is no such package, or the package has no build script or no tests for a section for these. (A section
that was removed from the file during the run is still reported.) -/
theorem C159_told (idx : Index) (c : State) (tr : List CEv) (h : CRun idx c tr) (ps : List Problem)
    (hps : checkUnused c = some ps) (pkg : Str) (s : Scope) :
    Problem.unusedPackageConfig ⟨pkg, s⟩ ∈ ps ↔
      (∃ cfg, CEv.loaded cfg ∈ tr ∧ (listed cfg pkg s).isSome = true) ∧ ¬ Known idx pkg s := by
  have hi := run_idx h
  unfold checkUnused at hps
  split at hps
  · cases hps
  simp only [Option.some.injEq] at hps
  subst hps
  have key : (Problem.unusedPackageConfig ⟨pkg, s⟩ ∈ c.infos.flatMap (fun e =>
        (if e.1 ∈ indexSelectors c.idx.pkgs then [] else [Problem.unusedPackageConfig e.1])
        ++ (if e.2.unused = [] then [] else [.unusedAllowApi e.1 e.2.unused]))
      ++ c.permissionsNoInheritance.flatMap (fun e =>
        if e.2.perms.sandbox.kind.isSome ∧ e.1.scope ≠ .build ∧ e.1.scope ≠ .test
        then [.unusedSandboxConfiguration e.1] else [])) ↔
      (c.infos.get? ⟨pkg, s⟩).isSome = true ∧ ¬ Known idx pkg s := by
    rw [known_iff_mem, ← hi]
    constructor
    · intro hm
      rcases List.mem_append.mp hm with hm | hm
      · obtain ⟨e, hin, he⟩ := List.mem_flatMap.mp hm
        rcases List.mem_append.mp he with he | he
        · split at he
          · cases he
          · next hne =>
            have := List.mem_singleton.mp he
            simp only [Problem.unusedPackageConfig.injEq] at this
            refine ⟨?_, by rw [this]; exact hne⟩
            rw [this, AMap.get?_of_mem (run_infos_nodup h) (show (e.1, e.2) ∈ c.infos from hin)]
            rfl
        · split at he
          · cases he
          · cases List.mem_singleton.mp he
      · obtain ⟨e, _, he⟩ := List.mem_flatMap.mp hm
        split at he
        · cases List.mem_singleton.mp he
        · cases he
    · rintro ⟨h1, h2⟩
      obtain ⟨i, hi'⟩ := Option.isSome_iff_exists.mp h1
      refine List.mem_append.mpr (.inl (List.mem_flatMap.mpr ⟨(⟨pkg, s⟩, i), AMap.mem_of_get? hi', ?_⟩))
      refine List.mem_append.mpr (.inl ?_)
      rw [if_neg h2]
      exact List.mem_singleton.mpr rfl
  rw [key, run_infos_some h]
  constructor
  · rintro ⟨⟨cfg, hm, hl | hl⟩, hk⟩
    · exact ⟨⟨cfg, hm, hl⟩, hk⟩
    · exact absurd hl hk
  · rintro ⟨⟨cfg, hm, hl⟩, hk⟩
    exact ⟨⟨cfg, hm, .inl hl⟩, hk⟩

/-! A section for the tests of the package, which has none, that is removed during the run. -/
private def cfgTest : Raw := { packages := [(str! "a", .mk {} none (some (.leaf {})) none)] }

example : ∃ ps, checkUnused (updateConfig (updateConfig { idx := ix } cfgTest) cfgNone) = some ps ∧
    Problem.unusedPackageConfig ⟨str! "a", .test⟩ ∈ ps := by
  refine ⟨_, rfl, (C159_told ix _ _ (.load cfgNone (by decide) (.load cfgTest (by decide) .init)) _ rfl _ _).mpr
    ⟨⟨cfgTest, by simp, rfl⟩, ?_⟩⟩
  rintro ⟨p, hp, _, _, ht⟩
  cases List.mem_singleton.mp hp
  cases ht rfl

end Cackle.Checker
