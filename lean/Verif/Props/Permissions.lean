import Verif.Lemmas.Permissions

/-!
# C03, C04, C50: effective permissions

The specification refers to the sections of the config file directly: `listed cfg pkg s` is what the
user wrote at the selector, `chain s` is the documented inheritance chain.
-/

namespace Cackle.Perm
open Config
open Cackle.ApiMap (Api)

/-- What the config file lists at a selector (`[pkg.N]`, `[pkg.N.build]`, `[pkg.N.from.build]`, ...),
if that section exists. -/
def listed (cfg : Raw) (pkg : Str) : Scope → Option Perms
  | .all => (cfg.packages.get? pkg).map PkgCfg.perms
  | .build => (cfg.packages.get? pkg).bind (fun c => c.build.map PkgCfg.perms)
  | .test => (cfg.packages.get? pkg).bind (fun c => c.test.map PkgCfg.perms)
  | .fromBuild => (cfg.packages.get? pkg).bind
      (fun c => c.from_.bind (fun f => f.1.map PkgCfg.perms))
  | .fromTest => (cfg.packages.get? pkg).bind
      (fun c => c.from_.bind (fun f => f.2.map PkgCfg.perms))

/-- The documented inheritance chain of a selector, nearest first (CONFIG.md: permissions granted to a
package are inherited by `from.build`, which is inherited by `build`; likewise for tests). -/
def chain : Scope → List Scope
  | .all => [.all]
  | .fromBuild => [.fromBuild, .all]
  | .build => [.build, .fromBuild, .all]
  | .fromTest => [.fromTest, .all]
  | .test => [.test, .fromTest, .all]

/-- The package is known to the crate index. -/
def Indexed (idx : List IdxPkg) (pkg : Str) : Prop := ∃ p ∈ idx, p.name = pkg

/-- The selector exists: the package itself and its `from.` selectors always do; `build` and `test`
do if the package has a build script / tests or the config has such a section. -/
def Exists (cfg : Raw) (idx : List IdxPkg) (pkg : Str) : Scope → Prop
  | .build => (listed cfg pkg .build).isSome ∨ ∃ p ∈ idx, p.name = pkg ∧ p.hasBuildScript = true
  | .test => (listed cfg pkg .test).isSome ∨ ∃ p ∈ idx, p.name = pkg ∧ p.hasTest = true
  | _ => True

theorem listed_eq (cfg : Raw) (pkg : Str) (s : Scope) :
    listed cfg pkg s = ((cfg.packages.get? pkg).bind (fun c => sectionOf c s)).map PkgCfg.perms := by
  cases hp : cfg.packages.get? pkg with
  | none => cases s <;> simp [listed, hp]
  | some c =>
    cases s <;> simp [listed, hp, sectionOf, PkgCfg.perms]
    · cases c.from_ <;> simp
    · cases c.from_ <;> simp

theorem lvl_eq (cfg : Raw) (pkg : Str) (s : Scope) : lvl cfg pkg s = (listed cfg pkg s).getD {} := by
  rw [listed_eq]; rfl

theorem exists_base {cfg : Raw} (hn : cfg.packages.keys.Nodup) {idx : List IdxPkg} {pkg : Str}
    (hidx : Indexed idx pkg) {s : Scope} (hs : Exists cfg idx pkg s) :
    ((base cfg idx).get? ⟨pkg, s⟩).isSome := by
  rw [base_get cfg hn]
  cases s with
  | all | fromBuild | fromTest =>
    rw [if_pos (mem_indexSelectors_always idx pkg hidx _ (by simp))]
    cases (cfg.packages.get? pkg).bind (fun c => sectionOf c _) <;> simp
  | build =>
    rcases hs with h | h
    · rw [listed_eq] at h
      simp only [Option.isSome_map] at h
      obtain ⟨c, hc⟩ := Option.isSome_iff_exists.mp h
      simp [hc]
    · rw [if_pos ((mem_indexSelectors_build idx pkg).mpr h)]
      cases (cfg.packages.get? pkg).bind (fun c => sectionOf c _) <;> simp
  | test =>
    rcases hs with h | h
    · rw [listed_eq] at h
      simp only [Option.isSome_map] at h
      obtain ⟨c, hc⟩ := Option.isSome_iff_exists.mp h
      simp [hc]
    · rw [if_pos ((mem_indexSelectors_test idx pkg).mpr h)]
      cases (cfg.packages.get? pkg).bind (fun c => sectionOf c _) <;> simp

theorem exists_listed_iff (cfg : Raw) (pkg : Str) (s : Scope) (P : Perms → Prop) (h0 : ¬ P {}) :
    P (lvl cfg pkg s) ↔ ∃ p, listed cfg pkg s = some p ∧ P p := by
  rw [lvl_eq]
  cases h : listed cfg pkg s with
  | none => simp [h0]
  | some p => simp

/-- **C03.** For every package in the crate index, the effective permissions at an existing selector
are exactly those listed at that selector or at a selector on its documented inheritance chain. -/
theorem C03_inheritance (cfg : Raw) (hn : cfg.packages.keys.Nodup) (idx : List IdxPkg) (pkg : Str)
    (hidx : Indexed idx pkg) (s : Scope) (hs : Exists cfg idx pkg s) :
    ∃ c, (withInheritance cfg idx).get? ⟨pkg, s⟩ = some c ∧
      (∀ a, a ∈ c.perms.allowApis ↔
        ∃ s' ∈ chain s, ∃ p, listed cfg pkg s' = some p ∧ a ∈ p.allowApis) ∧
      (∀ i, i ∈ c.perms.allowBuildInstructions ↔
        ∃ s' ∈ chain s, ∃ p, listed cfg pkg s' = some p ∧ i ∈ p.allowBuildInstructions) ∧
      (c.perms.allowUnsafe = true ↔
        ∃ s' ∈ chain s, ∃ p, listed cfg pkg s' = some p ∧ p.allowUnsafe = true) ∧
      (c.perms.allowExtern = true ↔
        ∃ s' ∈ chain s, ∃ p, listed cfg pkg s' = some p ∧ p.allowExtern = true) ∧
      (c.perms.allowProcMacro = true ↔
        ∃ s' ∈ chain s, ∃ p, listed cfg pkg s' = some p ∧ p.allowProcMacro = true) := by
  obtain ⟨c, hc, hp⟩ := eff_get cfg hn idx pkg hidx s (exists_base hn hidx hs)
  refine ⟨c, hc, ?_, ?_, ?_, ?_, ?_⟩
  · intro a
    rw [hp]
    have e := fun s' => exists_listed_iff cfg pkg s' (fun p => a ∈ p.allowApis) (by simp)
    cases s <;> simp [eff, inheritPerms, mem_mergeVec, chain, ← e]
  · intro a
    rw [hp]
    have e := fun s' => exists_listed_iff cfg pkg s' (fun p => a ∈ p.allowBuildInstructions) (by simp)
    cases s <;> simp [eff, inheritPerms, mem_mergeVec, chain, ← e]
  · rw [hp]
    have e := fun s' => exists_listed_iff cfg pkg s' (fun p => p.allowUnsafe = true) (by simp)
    cases s <;> simp [eff, inheritPerms, chain, ← e]
  · rw [hp]
    have e := fun s' => exists_listed_iff cfg pkg s' (fun p => p.allowExtern = true) (by simp)
    cases s <;> simp [eff, inheritPerms, chain, ← e]
  · rw [hp]
    have e := fun s' => exists_listed_iff cfg pkg s' (fun p => p.allowProcMacro = true) (by simp)
    cases s <;> simp [eff, inheritPerms, chain, ← e]

/-- **C03, isolation.** The effective configuration of a package depends only on that package's own
section, the global sandbox and the index: two configurations that agree on these give the same
result, whatever other packages are granted. -/
theorem C03_no_leak_between_packages (cfg cfg' : Raw) (hn : cfg.packages.keys.Nodup)
    (hn' : cfg'.packages.keys.Nodup) (idx : List IdxPkg) (pkg : Str)
    (hpkg : cfg.packages.get? pkg = cfg'.packages.get? pkg) (hsb : cfg.sandbox = cfg'.sandbox)
    (s : Scope) :
    (withInheritance cfg idx).get? ⟨pkg, s⟩ = (withInheritance cfg' idx).get? ⟨pkg, s⟩ := by
  have hb : ∀ s', (base cfg idx).get? ⟨pkg, s'⟩ = (base cfg' idx).get? ⟨pkg, s'⟩ := by
    intro s'; rw [base_get cfg hn, base_get cfg' hn', hpkg]
  rw [withInheritance_eq, withInheritance_eq, applyInheritance_get, applyInheritance_get, hsb]
  simp only [hb]

/-- The nearest setting on the chain: `f` picks an optional field out of a sandbox section, the
global `[sandbox]` is last. -/
def nearest {α : Type} (cfg : Raw) (pkg : Str) (f : Sandbox → Option α) (s : Scope) : Option α :=
  (((chain s).filterMap (fun s' => (listed cfg pkg s').bind (fun p => f p.sandbox)))
    ++ (f cfg.sandbox).toList).head?

/-- The full English claim C04, including environment variables to pass. -/
def C04_Claim : Prop :=
  ∀ (cfg : Raw) (_ : cfg.packages.keys.Nodup) (idx : List IdxPkg) (pkg : Str) (_ : Indexed idx pkg)
    (s : Scope) (_ : Exists cfg idx pkg s),
    let sb := sandboxFor (withInheritance cfg idx) ⟨pkg, s⟩
    sb.kind = nearest cfg pkg Sandbox.kind s ∧
    sb.allowNetwork = nearest cfg pkg Sandbox.allowNetwork s ∧
    ∀ f ∈ [Sandbox.extraArgs, Sandbox.bindWritable, Sandbox.makeWritable, Sandbox.passEnv],
      ∀ x, x ∈ f sb ↔ x ∈ f cfg.sandbox ∨
        ∃ s' ∈ chain s, ∃ p, listed cfg pkg s' = some p ∧ x ∈ f p.sandbox

theorem lvl_opt {α : Type} (cfg : Raw) (pkg : Str) (s : Scope) (f : Sandbox → Option α)
    (h0 : f {} = none) :
    (listed cfg pkg s).bind (fun p => f p.sandbox) = f (lvl cfg pkg s).sandbox := by
  rw [lvl_eq]
  cases listed cfg pkg s <;> simp [h0]

theorem nearest_eq {α : Type} (cfg : Raw) (pkg : Str) (f : Sandbox → Option α) (h0 : f {} = none)
    (s : Scope) :
    nearest cfg pkg f s =
      match s with
      | .all => (f (lvl cfg pkg .all).sandbox).or (f cfg.sandbox)
      | .fromBuild => (f (lvl cfg pkg .fromBuild).sandbox).or
          ((f (lvl cfg pkg .all).sandbox).or (f cfg.sandbox))
      | .fromTest => (f (lvl cfg pkg .fromTest).sandbox).or
          ((f (lvl cfg pkg .all).sandbox).or (f cfg.sandbox))
      | .build => (f (lvl cfg pkg .build).sandbox).or ((f (lvl cfg pkg .fromBuild).sandbox).or
          ((f (lvl cfg pkg .all).sandbox).or (f cfg.sandbox)))
      | .test => (f (lvl cfg pkg .test).sandbox).or ((f (lvl cfg pkg .fromTest).sandbox).or
          ((f (lvl cfg pkg .all).sandbox).or (f cfg.sandbox))) := by
  have hstep : ∀ s' (l : List Scope), (((s' :: l).filterMap
      (fun s' => (listed cfg pkg s').bind (fun p => f p.sandbox))) ++ (f cfg.sandbox).toList).head?
      = (f (lvl cfg pkg s').sandbox).or ((l.filterMap
      (fun s' => (listed cfg pkg s').bind (fun p => f p.sandbox))
        ++ (f cfg.sandbox).toList).head?) := by
    intro s' l
    rw [← lvl_opt cfg pkg s' f h0]
    cases h : (listed cfg pkg s').bind (fun p => f p.sandbox) <;> simp [h]
  have hnil : (([] : List Scope).filterMap
      (fun s' => (listed cfg pkg s').bind (fun p => f p.sandbox))
        ++ (f cfg.sandbox).toList).head? = f cfg.sandbox := by
    cases f cfg.sandbox <;> simp
  unfold nearest
  cases s <;> simp only [chain, hstep, hnil]

theorem ite_isNone_eq_or {α : Type} (a b : Option α) : (if a.isNone then b else a) = a.or b := by
  cases a <;> simp

/-- **C04 (partial).** Kind and network come from the nearest section that sets them, the three
lists of arguments and writable directories are the union over the chain and `[sandbox]`.
Missing: the list of environment variables (`pass_env`), see `C04_pass_env_not_inherited`. -/
theorem C04_sandbox_partial (cfg : Raw) (hn : cfg.packages.keys.Nodup) (idx : List IdxPkg)
    (pkg : Str) (hidx : Indexed idx pkg) (s : Scope) (hs : Exists cfg idx pkg s) :
    let sb := sandboxFor (withInheritance cfg idx) ⟨pkg, s⟩
    sb.kind = nearest cfg pkg Sandbox.kind s ∧
    sb.allowNetwork = nearest cfg pkg Sandbox.allowNetwork s ∧
    ∀ f ∈ [Sandbox.extraArgs, Sandbox.bindWritable, Sandbox.makeWritable],
      ∀ x, x ∈ f sb ↔ x ∈ f cfg.sandbox ∨
        ∃ s' ∈ chain s, ∃ p, listed cfg pkg s' = some p ∧ x ∈ f p.sandbox := by
  obtain ⟨c, hc, hp⟩ := eff_get cfg hn idx pkg hidx s (exists_base hn hidx hs)
  have hsb : sandboxFor (withInheritance cfg idx) ⟨pkg, s⟩ = (eff cfg pkg s).sandbox := by
    simp [sandboxFor, hc, hp]
  simp only [hsb]
  refine ⟨?_, ?_, ?_⟩
  · rw [nearest_eq cfg pkg Sandbox.kind rfl]
    cases s <;> simp only [eff, inheritPerms, Sandbox.inherit, ite_isNone_eq_or]
  · rw [nearest_eq cfg pkg Sandbox.allowNetwork rfl]
    cases s <;> simp only [eff, inheritPerms, Sandbox.inherit, ite_isNone_eq_or]
  · intro f hf x
    simp only [List.mem_cons, List.not_mem_nil, or_false] at hf
    rcases hf with rfl | rfl | rfl
    · have e := fun s' => exists_listed_iff cfg pkg s' (fun p => x ∈ p.sandbox.extraArgs) (by simp)
      cases s <;> simp [eff, inheritPerms, Sandbox.inherit, mem_mergeVec, chain, ← e] <;> grind
    · have e := fun s' => exists_listed_iff cfg pkg s' (fun p => x ∈ p.sandbox.bindWritable) (by simp)
      cases s <;> simp [eff, inheritPerms, Sandbox.inherit, mem_mergeVec, chain, ← e] <;> grind
    · have e := fun s' => exists_listed_iff cfg pkg s' (fun p => x ∈ p.sandbox.makeWritable) (by simp)
      cases s <;> simp [eff, inheritPerms, Sandbox.inherit, mem_mergeVec, chain, ← e] <;> grind

/-- A configuration with `[sandbox] pass_env = ["X"]` and a package with a build script. -/
def passEnvWitness : Raw :=
  { sandbox := { kind := some .bubblewrap, passEnv := [str! "X"] } }

/-- **C04, disagreement.** `pass_env` is the one sandbox list that is not inherited: a variable listed
in the global `[sandbox]` is not passed to a package's build script. -/
theorem C04_pass_env_not_inherited : ¬ C04_Claim := by
  intro h
  have := (h passEnvWitness (by simp [passEnvWitness, AMap.keys]) [⟨str! "p", true, false⟩] (str! "p")
    ⟨_, List.mem_cons_self .., rfl⟩ .build (Or.inr ⟨_, List.mem_cons_self .., rfl, rfl⟩)).2.2 Sandbox.passEnv (by simp) (str! "X")
  revert this
  decide

/-- What is passed is exactly what the selector itself lists. -/
theorem C04_pass_env_actual_partial (cfg : Raw) (hn : cfg.packages.keys.Nodup) (idx : List IdxPkg)
    (pkg : Str) (hidx : Indexed idx pkg) (s : Scope) (hs : Exists cfg idx pkg s) :
    (sandboxFor (withInheritance cfg idx) ⟨pkg, s⟩).passEnv =
      ((listed cfg pkg s).map (fun p => p.sandbox.passEnv)).getD [] := by
  obtain ⟨c, hc, hp⟩ := eff_get cfg hn idx pkg hidx s (exists_base hn hidx hs)
  have : (sandboxFor (withInheritance cfg idx) ⟨pkg, s⟩).passEnv = (lvl cfg pkg s).sandbox.passEnv := by
    simp only [sandboxFor, hc, Option.map_some, Option.getD_some, hp]
    cases s <;> rfl
  rw [this, lvl_eq]
  cases listed cfg pkg s <;> rfl

/-! ## C50: the scope used for an API usage -/

/-- The English reading of C50: own build script / tests, someone else's, or any other binary. -/
def SpecScope (usePkg : PkgId) (bin : CrateSel) (s : Scope) : Prop :=
  (s = .build ↔ bin.kind = .buildScript ∧ usePkg = bin.pkgId) ∧
  (s = .fromBuild ↔ bin.kind = .buildScript ∧ usePkg ≠ bin.pkgId) ∧
  (s = .test ↔ bin.kind = .test ∧ usePkg = bin.pkgId) ∧
  (s = .fromTest ↔ bin.kind = .test ∧ usePkg ≠ bin.pkgId) ∧
  (s = .all ↔ bin.kind = .primary)

/-- **C50.** The scope is the specified one. -/
theorem C50_scope (usePkg : PkgId) (bin : CrateSel) :
    SpecScope usePkg bin (determine usePkg bin) := by
  obtain ⟨bp, bk⟩ := bin
  by_cases h : usePkg = bp <;> cases bk <;> simp [SpecScope, determine, h]

/-- **C50.** An API granted at `pkg.N` is effective whatever binary the code of package N ends up in
(for every selector that exists). -/
theorem C50_unconditional_grant (cfg : Raw) (hn : cfg.packages.keys.Nodup) (idx : List IdxPkg)
    (usePkg : PkgId) (bin : CrateSel) (hidx : Indexed idx usePkg.name)
    (hs : Exists cfg idx usePkg.name (determine usePkg bin)) (a : Api) (p : Perms)
    (hl : listed cfg usePkg.name .all = some p) (ha : a ∈ p.allowApis) :
    ∃ c, (withInheritance cfg idx).get? ⟨usePkg.name, determine usePkg bin⟩ = some c ∧
      a ∈ c.perms.allowApis := by
  obtain ⟨c, hc, h, _⟩ := C03_inheritance cfg hn idx usePkg.name hidx _ hs
  refine ⟨c, hc, (h a).mpr ⟨.all, ?_, p, hl, ha⟩⟩
  cases determine usePkg bin <;> simp [chain]

/-! Non-vacuity: a package with sections at several levels. -/

private def demoCfg : Raw :=
  { sandbox := { kind := some .bubblewrap },
    packages := [
      (str! "foo", .mk { allowApis := [str! "fs"], sandbox := { allowNetwork := some false } }
        (some (.leaf { allowApis := [str! "net"], sandbox := { allowNetwork := some true } })) none
        (some (some (.leaf { allowUnsafe := true }), none))),
      (str! "bar", .leaf { allowApis := [str! "process"] })] }

private def demoIdx : List IdxPkg := [⟨str! "foo", true, true⟩, ⟨str! "bar", false, true⟩]

private def apisAt (p : Str) (s : Scope) : Option (List Str) :=
  ((withInheritance demoCfg demoIdx).get? ⟨p, s⟩).map (fun c => c.perms.allowApis)

example : demoCfg.packages.keys.Nodup := by decide
example : Indexed demoIdx (str! "foo") := ⟨_, List.mem_cons_self .., rfl⟩
example : Exists demoCfg demoIdx (str! "foo") .build := Or.inl (by decide)
example : apisAt (str! "foo") .build = some [str! "fs", str! "net"] := by decide
example : apisAt (str! "foo") .fromBuild = some [str! "fs"] := by decide
example : apisAt (str! "bar") .test = some [str! "process"] := by decide
example : apisAt (str! "bar") .build = none := by decide
example : (sandboxFor (withInheritance demoCfg demoIdx) ⟨str! "foo", .build⟩).allowNetwork
    = some true := by decide
example : (sandboxFor (withInheritance demoCfg demoIdx) ⟨str! "foo", .test⟩).kind
    = some .bubblewrap := by decide

end Cackle.Perm
