import Verif.Lemmas.Permissions
import Verif.Props.Permissions
import Verif.Model.Validation

/-!
# C05, C38, C39, C40: config versions, validation, imports, paths
-/

namespace Cackle.Perm
open Config
open Cackle.ApiMap (Api)

/-! ## C05: updating the version -/

/-- Two loaded configurations lead to the same decisions: same API definitions, same sections, same
sandboxes (default and rustc), same build-script policy, and for every index and crate the same
answers about unsafe and extern. -/
def SameBehaviour (c c' : Raw) : Prop :=
  c.apis = c'.apis ∧ c.packages = c'.packages ∧ c.sandbox = c'.sandbox ∧
  c.rustcSandbox = c'.rustcSandbox ∧
  c.common.explicitBuildScripts = c'.common.explicitBuildScripts ∧
  ∀ idx sel,
    unsafePermitted (withInheritance c idx) sel = unsafePermitted (withInheritance c' idx) sel ∧
    externPermitted (withInheritance c idx) sel c.common.version =
      externPermitted (withInheritance c' idx) sel c'.common.version

/-- The English claim C05 for the update to version `n`. -/
def C05_Claim (n : Nat) : Prop :=
  ∀ (builtIns : AMap Api ApiCfg) (doc c : Raw), doc.common.version + 1 = n →
    parseRaw builtIns doc = some c →
    ∃ c', parseRaw builtIns (updatePreserving n doc) = some c' ∧ SameBehaviour c c'

theorem withInheritance_congr {c c' : Raw} (hp : c.packages = c'.packages)
    (hs : c.sandbox = c'.sandbox) (idx : List IdxPkg) :
    withInheritance c idx = withInheritance c' idx := by
  simp [withInheritance, fromConfig, hp, hs]

/-- **C05, 1 → 2.** Updating a version-1 configuration to version 2 with the preserving edit keeps
every decision. -/
theorem C05_update_to_2 : C05_Claim 2 := by
  intro builtIns doc c hv hc
  have hv1 : doc.common.version = 1 := by omega
  unfold parseRaw at hc ⊢
  simp only [mergeBuiltIns, Option.pure_def, Option.bind_eq_bind, Option.bind_assoc,
    Option.bind_some, Option.bind_eq_some_iff, Option.some.injEq] at hc ⊢
  obtain ⟨apis, h1, rfl⟩ := hc
  have h1' : (updatePreserving 2 doc).common.importStd = doc.common.importStd := by
    simp only [updatePreserving, patch2, if_true]; split <;> rfl
  have h2' : (updatePreserving 2 doc).apis = doc.apis := by
    simp only [updatePreserving, patch2, if_true]; split <;> rfl
  rw [h1', h2']
  refine ⟨_, ⟨apis, h1, rfl⟩, ?_⟩
  have e1 : patchStart 1 = 2 := by decide
  have e2 : patchStart 2 = 3 := by decide
  by_cases hk : doc.rustcSandbox.kind.isNone
  · refine ⟨?_, ?_, ?_, ?_, ?_, fun idx sel => ⟨?_, ?_⟩⟩ <;>
      simp [applyRuntimePatches, hv1, updatePreserving, patch2, hk, patches, e1, e2,
        withInheritance, fromConfig, unsafePermitted, externPermitted]
  · refine ⟨?_, ?_, ?_, ?_, ?_, fun idx sel => ⟨?_, ?_⟩⟩ <;>
      simp [applyRuntimePatches, hv1, updatePreserving, patch2, hk, patches, e1, e2,
        withInheritance, fromConfig, unsafePermitted, externPermitted]

/-- A version-2 configuration that grants unsafe to one package. -/
def version2Witness : Raw :=
  { common := { version := 2 }, packages := [(str! "p", .leaf { allowUnsafe := true })] }

/-- **C05, 2 → 3, disagreement.** The edit offered as preserving behaviour when going from version 2
to version 3 does not: permission to use `extern` follows from `allow_unsafe` up to version 2, and is
lost by the update. -/
theorem C05_update_to_3_changes_behaviour : ¬ C05_Claim 3 := by
  intro h
  obtain ⟨c', h1, _, _, _, _, _, h2⟩ := h [] version2Witness _ (by decide) rfl
  have h3 := (h2 [⟨str! "p", false, false⟩] ⟨⟨str! "p", [], true⟩, .primary⟩).2
  have : c' = { updatePreserving 3 version2Witness with } := by
    have : parseRaw [] (updatePreserving 3 version2Witness) =
      some { updatePreserving 3 version2Witness with } := rfl
    rw [this] at h1; exact (Option.some.inj h1).symm
  subst this
  revert h3
  decide

theorem applyRuntimePatches_2 (c : Raw) (h : c.common.version = 2) : applyRuntimePatches c = c := by
  have e1 : patchStart 2 = 3 := by decide
  simp [applyRuntimePatches, h, e1, patches]

theorem applyRuntimePatches_3 (c : Raw) (h : c.common.version = 3) : applyRuntimePatches c = c := by
  have e1 : patchStart 3 = 4 := by decide
  simp [applyRuntimePatches, h, e1, patches]

/-- **C05, 2 → 3 (partial).** Everything except the extern decision is preserved, and that too for
every crate whose effective `allow_extern` equals its effective `allow_unsafe`. -/
theorem C05_update_to_3_partial (builtIns : AMap Api ApiCfg) (doc c : Raw)
    (hv : doc.common.version = 2) (hc : parseRaw builtIns doc = some c) :
    ∃ c', parseRaw builtIns (updatePreserving 3 doc) = some c' ∧
      c.apis = c'.apis ∧ c.packages = c'.packages ∧ c.sandbox = c'.sandbox ∧
      c.rustcSandbox = c'.rustcSandbox ∧
      c.common.explicitBuildScripts = c'.common.explicitBuildScripts ∧
      ∀ idx sel,
        unsafePermitted (withInheritance c idx) sel = unsafePermitted (withInheritance c' idx) sel ∧
        ((∀ p, (withInheritance c idx).get? (forNonBuildOutput sel) = some p →
            p.perms.allowExtern = p.perms.allowUnsafe) →
          externPermitted (withInheritance c idx) sel c.common.version =
            externPermitted (withInheritance c' idx) sel c'.common.version) := by
  unfold parseRaw at hc ⊢
  simp only [mergeBuiltIns, Option.pure_def, Option.bind_eq_bind, Option.bind_assoc,
    Option.bind_some, Option.bind_eq_some_iff, Option.some.injEq] at hc ⊢
  obtain ⟨apis, h1, rfl⟩ := hc
  have h1' : (updatePreserving 3 doc).common.importStd = doc.common.importStd := rfl
  have h2' : (updatePreserving 3 doc).apis = doc.apis := rfl
  rw [h1', h2']
  refine ⟨_, ⟨apis, h1, rfl⟩, ?_⟩
  have hv3 : (updatePreserving 3 doc).common.version = 3 := rfl
  rw [applyRuntimePatches_2 { doc with apis := apis, common := { doc.common with importStd := [] } } hv,
    applyRuntimePatches_3 { updatePreserving 3 doc with
      apis := apis
      common := { (updatePreserving 3 doc).common with importStd := [] } } hv3]
  refine ⟨rfl, rfl, rfl, rfl, rfl, fun idx sel => ⟨?_, ?_⟩⟩
  · exact congrArg (fun m => unsafePermitted m sel) (withInheritance_congr rfl rfl idx)
  · intro h
    unfold externPermitted
    simp only [withInheritance, fromConfig, updatePreserving, hv] at h ⊢
    simp only [Nat.reduceEqDiff, if_false]
    cases hg : AMap.get? (applyInheritance (List.foldl orDefault
      (List.foldl (fun m p => flattenPkg m p.1 p.2) [] doc.packages) (indexSelectors idx))
        doc.sandbox) (forNonBuildOutput sel) with
    | none => rfl
    | some p => simp [h p hg]

/-- The kind of sandbox for rustc that the notes about the versions promise: the one that is set for rustc; otherwise none in
version 1, and from version 2 on the one in `[sandbox]`. -/
def RustcKind (doc : Raw) (kind : Option SandboxKind) : Prop :=
  (doc.rustcSandbox.kind ≠ none → kind = doc.rustcSandbox.kind) ∧
  (doc.rustcSandbox.kind = none → doc.common.version = 1 → kind = some .disabled) ∧
  (doc.rustcSandbox.kind = none → 2 ≤ doc.common.version → kind = doc.sandbox.kind)

/-- **C05 (the sandbox of rustc).** In each version rustc is sandboxed as the notes about the versions say. -/
theorem C05_rustc_sandbox (builtIns : AMap Api ApiCfg) (doc c : Raw) (h1 : 1 ≤ doc.common.version) (h3 : doc.common.version ≤ 3)
    (hc : parseRaw builtIns doc = some c) : RustcKind doc c.rustcSandbox.kind := by
  unfold parseRaw at hc
  simp only [mergeBuiltIns, Option.pure_def, Option.bind_eq_bind, Option.bind_assoc,
    Option.bind_some, Option.bind_eq_some_iff, Option.some.injEq] at hc
  obtain ⟨apis, _, rfl⟩ := hc
  have hv : doc.common.version = 1 ∨ doc.common.version = 2 ∨ doc.common.version = 3 := by omega
  have e1 : patchStart 1 = 2 := by decide
  unfold RustcKind
  rcases hv with hv | hv | hv
  · cases hk : doc.rustcSandbox.kind with
    | none => simp [applyRuntimePatches, hv, e1, patches, patch2, hk, Sandbox.inherit]
    | some k => simp [applyRuntimePatches, hv, e1, patches, patch2, hk, Sandbox.inherit]
  · rw [applyRuntimePatches_2 { doc with apis := apis, common := { doc.common with importStd := [] } } hv]
    cases hk : doc.rustcSandbox.kind <;> simp [hv, Sandbox.inherit, hk]
  · rw [applyRuntimePatches_3 { doc with apis := apis, common := { doc.common with importStd := [] } } hv]
    cases hk : doc.rustcSandbox.kind <;> simp [hv, Sandbox.inherit, hk]

/-! Non-vacuity of C05. -/
example : (parseRaw [] { sandbox := { kind := some .bubblewrap } }).map
    (fun c => c.rustcSandbox.kind) = some (some .disabled) := by decide
example : (parseRaw [] (updatePreserving 2 { sandbox := { kind := some .bubblewrap } })).map
    (fun c => c.rustcSandbox.kind) = some (some .disabled) := by decide
example : (parseRaw [] { sandbox := { kind := some .bubblewrap }, common := { version := 2 } }).map
    (fun c => c.rustcSandbox.kind) = some (some .bubblewrap) := by decide

/-! ## C38: validation -/

/-- The sections that the config file contains for a package, with nesting information. -/
def sectionCfg (cfg : Raw) (pkg : Str) : Scope → Option PkgCfg
  | .all => cfg.packages.get? pkg
  | .build => (cfg.packages.get? pkg).bind PkgCfg.build
  | .test => (cfg.packages.get? pkg).bind PkgCfg.test
  | .fromBuild => (cfg.packages.get? pkg).bind (fun c => c.from_.bind Prod.fst)
  | .fromTest => (cfg.packages.get? pkg).bind (fun c => c.from_.bind Prod.snd)

/-- The English reading of C38. -/
structure WellFormed (cfg : Raw) : Prop where
  version : 1 ≤ cfg.common.version ∧ cfg.common.version ≤ 3
  granted : ∀ pkg s c, sectionCfg cfg pkg s = some c →
    ∀ a ∈ c.perms.allowApis, ∃ d, cfg.apis.get? a = some d
  noDup : ∀ pkg s c, sectionCfg cfg pkg s = some c → c.perms.allowApis.Nodup
  depth : ∀ pkg s c, s ≠ .all → sectionCfg cfg pkg s = some c →
    c.build = none ∧ c.test = none ∧ c.from_ = none

theorem checkApis_nil (known l used : List Api) :
    checkApis known l used = [] ↔ (∀ a ∈ l, a ∈ known) ∧ (∀ a ∈ l, a ∉ used) ∧ l.Nodup := by
  induction l generalizing used with
  | nil => simp [checkApis]
  | cons a l ih =>
    by_cases h1 : a ∈ known <;> by_cases h2 : a ∈ used
    · simp [checkApis, h1, h2]
    · simp only [checkApis, h1, h2, if_true, if_false, List.nil_append, ih, mem_setInsert]
      simp only [List.mem_cons, List.nodup_cons, not_or]
      constructor
      · rintro ⟨g1, g2, g3⟩
        refine ⟨?_, ?_, ?_, g3⟩
        · rintro b (rfl | hb)
          · exact h1
          · exact g1 b hb
        · rintro b (rfl | hb)
          · exact h2
          · exact (g2 b hb).2
        · intro ha; exact (g2 a ha).1 rfl
      · rintro ⟨g1, g2, g3, g4⟩
        refine ⟨fun b hb => g1 b (Or.inr hb), fun b hb => ⟨?_, g2 b (Or.inr hb)⟩, g4⟩
        rintro rfl; exact g3 hb
    · simp [checkApis, h1, h2]
    · simp [checkApis, h1, h2]

end Cackle.Perm

namespace Cackle.AMap
variable {K V : Type} [DecidableEq K]

theorem keys_insert_mem (m : AMap K V) (k : K) (v : V) (x : K) :
    x ∈ keys (insert m k v) ↔ x = k ∨ x ∈ keys m := by
  rw [← get?_isSome_iff, ← get?_isSome_iff, get?_insert]
  by_cases h : k = x
  · simp [h]
  · have : ¬ x = k := fun e => h e.symm
    simp [h, this]

theorem nodup_insert (m : AMap K V) (k : K) (v : V) (h : (keys m).Nodup) :
    (keys (insert m k v)).Nodup := by
  induction m with
  | nil => simp [insert, keys]
  | cons e rest ih =>
    obtain ⟨k', v'⟩ := e
    simp only [keys, List.map_cons, List.nodup_cons] at h
    by_cases hk : k' = k
    · simp only [insert, hk, if_true, keys, List.map_cons, List.nodup_cons]
      rw [← hk]; exact h
    · simp only [insert, hk, if_false]
      show (k' :: keys (insert rest k v)).Nodup
      rw [List.nodup_cons, keys_insert_mem]
      refine ⟨?_, ih h.2⟩
      rintro (rfl | hm)
      · exact hk rfl
      · exact h.1 hm

end Cackle.AMap

namespace Cackle.Perm
open Config
open Cackle.ApiMap (Api)

theorem insertOpt_nodup (m : PermMap) (pkg : Str) (s : Scope) (o : Option PkgCfg)
    (h : m.keys.Nodup) : (insertOpt m pkg s o).keys.Nodup := by
  cases o with
  | none => exact h
  | some c => exact AMap.nodup_insert _ _ _ h

theorem fromConfig_nodup (cfg : Raw) : (fromConfig cfg).keys.Nodup := by
  have : ∀ (l : AMap Str PkgCfg) (m : PermMap), m.keys.Nodup →
      (l.foldl (fun m (p : Str × PkgCfg) => flattenPkg m p.1 p.2) m).keys.Nodup := by
    intro l
    induction l with
    | nil => intro m h; exact h
    | cons e rest ih =>
      intro m h
      refine ih _ ?_
      unfold flattenPkg
      exact AMap.nodup_insert _ _ _ (insertOpt_nodup _ _ _ _ (insertOpt_nodup _ _ _ _
        (insertOpt_nodup _ _ _ _ (insertOpt_nodup _ _ _ _ h))))
  exact this _ _ (by simp [AMap.keys])

theorem checkEntry_nil (known : List Api) (e : PermSel × PkgCfg) :
    checkEntry known e = [] ↔
      (∀ a ∈ e.2.perms.allowApis, a ∈ known) ∧ e.2.perms.allowApis.Nodup ∧
      e.2.build = none ∧ e.2.test = none ∧ e.2.from_ = none := by
  unfold checkEntry
  simp only [List.append_eq_nil_iff, checkApis_nil]
  cases e.2.build <;> cases e.2.test <;> cases e.2.from_ <;> simp

/-- **C38.** A configuration passes validation if and only if it is well-formed. -/
theorem C38_validation (cfg : Raw) (hn : cfg.packages.keys.Nodup) :
    validate cfg = [] ↔ WellFormed cfg := by
  have hget : ∀ pkg s c, (fromConfig cfg).get? ⟨pkg, s⟩ = some c ↔
      ((cfg.packages.get? pkg).bind (fun c => sectionOf c s)) = some c := by
    intro pkg s c; rw [fromConfig_get cfg hn]
  have hsec : ∀ pkg s, s ≠ .all → sectionCfg cfg pkg s =
      (cfg.packages.get? pkg).bind (fun c => sectionOf c s) := by
    intro pkg s hs; cases s <;> first | exact absurd rfl hs | rfl
  have hver : (if cfg.common.version < 1 ∨ cfg.common.version > maxVersion
      then [ConfigProblem.unsupportedVersion cfg.common.version] else []) = [] ↔
      (1 ≤ cfg.common.version ∧ cfg.common.version ≤ 3) := by
    unfold maxVersion
    split <;> simp <;> omega
  have hkey : ∀ a, a ∈ cfg.apis.keys ↔ ∃ d, cfg.apis.get? a = some d := by
    intro a; rw [← AMap.get?_isSome_iff, Option.isSome_iff_exists]
  unfold validate
  rw [List.append_eq_nil_iff, hver, List.flatMap_eq_nil_iff]
  constructor
  · rintro ⟨hv, hall⟩
    have hE : ∀ pkg s c, (cfg.packages.get? pkg).bind (fun c => sectionOf c s) = some c →
        (∀ a ∈ c.perms.allowApis, a ∈ cfg.apis.keys) ∧ c.perms.allowApis.Nodup ∧
        c.build = none ∧ c.test = none ∧ c.from_ = none := by
      intro pkg s c h
      exact (checkEntry_nil _ (⟨pkg, s⟩, c)).mp (hall _ (AMap.mem_of_get? ((hget pkg s c).mpr h)))
    have hA : ∀ pkg c, cfg.packages.get? pkg = some c →
        (∀ a ∈ c.perms.allowApis, a ∈ cfg.apis.keys) ∧ c.perms.allowApis.Nodup := by
      intro pkg c h
      have := hE pkg .all (.mk c.perms none none none) (by simp [h, sectionOf])
      exact ⟨this.1, this.2.1⟩
    refine ⟨hv, ?_, ?_, ?_⟩
    · intro pkg s c hs a ha
      rw [← hkey]
      by_cases h : s = .all
      · subst h; exact (hA pkg c hs).1 a ha
      · rw [hsec pkg s h] at hs; exact (hE pkg s c hs).1 a ha
    · intro pkg s c hs
      by_cases h : s = .all
      · subst h; exact (hA pkg c hs).2
      · rw [hsec pkg s h] at hs; exact (hE pkg s c hs).2.1
    · intro pkg s c h hs
      rw [hsec pkg s h] at hs; exact (hE pkg s c hs).2.2
  · rintro ⟨hv, hg, hd, hdep⟩
    refine ⟨hv, ?_⟩
    rintro ⟨⟨pkg, s⟩, c⟩ hmem
    have hc := (hget pkg s c).mp (AMap.get?_of_mem (fromConfig_nodup cfg) hmem)
    rw [checkEntry_nil]
    by_cases h : s = .all
    · subst h
      obtain ⟨c0, h0, h1⟩ := Option.bind_eq_some_iff.mp hc
      simp only [sectionOf, Option.some.injEq] at h1
      subst h1
      refine ⟨fun a ha => (hkey a).mpr (hg pkg .all c0 h0 a ha), hd pkg .all c0 h0, rfl, rfl, rfl⟩
    · rw [← hsec pkg s h] at hc
      exact ⟨fun a ha => (hkey a).mpr (hg pkg s c hc a ha), hd pkg s c hc, hdep pkg s c h hc⟩

def okCfg : Raw :=
  { common := { version := 3 }, apis := [(str! "fs", {})],
    packages := [(str! "p", .mk { allowApis := [str! "fs"] } (some (.leaf { allowApis := [str! "fs"] }))
      none none)] }
def badCfg : Raw :=
  { common := { version := 3 }, apis := [(str! "fs", {})],
    packages := [(str! "p", .mk {} (some (.leaf { allowApis := [str! "fs", str! "net", str! "fs"] }))
      none none)] }
example : okCfg.packages.keys.Nodup ∧ validate okCfg = [] := by decide
example : validate badCfg =
    [.unknownPermission (str! "net"), .duplicateAllowedApi (str! "fs")] := by decide

/-! ## C40: relative paths -/

/-- All writable-directory paths of a sandbox section are absolute. -/
def AbsSandbox (s : Sandbox) : Prop :=
  (∀ p ∈ s.bindWritable, isAbsolute p = true) ∧ (∀ p ∈ s.makeWritable, isAbsolute p = true)

/-- The English claim C40, for a workspace root given as an absolute path. -/
def C40_Claim : Prop :=
  ∀ (root : Str) (cfg cfg' : Raw), isAbsolute root = true → cfg.makeAbs (some root) = some cfg' →
    AbsSandbox cfg'.sandbox ∧ AbsSandbox cfg'.rustcSandbox ∧
    ∀ pkg s c, sectionCfg cfg' pkg s = some c → AbsSandbox c.perms.sandbox

/-- **C40, disagreement.** Paths in `[sandbox]` stay relative. -/
theorem C40_global_paths_stay_relative : ¬ C40_Claim := by
  intro h
  have := (h (str! "/w") { sandbox := { makeWritable := [str! "out"] } } _ (by decide) rfl).1.2
    (str! "out") (by simp)
  revert this; decide

/-- **C40, disagreement.** Paths in `pkg.N.from.build.sandbox` stay relative even if `[sandbox]` lists
none. -/
theorem C40_from_paths_stay_relative : ∃ (cfg cfg' : Raw),
    cfg.sandbox = {} ∧ cfg.rustcSandbox = {} ∧ cfg.makeAbs (some (str! "/w")) = some cfg' ∧
    ∃ c, sectionCfg cfg' (str! "p") .fromBuild = some c ∧ ¬ AbsSandbox c.perms.sandbox := by
  refine ⟨{ packages := [(str! "p", .mk {} none none (some (some
    (.leaf { sandbox := { bindWritable := [str! "out"] } }), none)))] }, _, rfl, rfl, rfl, _, rfl, ?_⟩
  intro h
  have := h.1 (str! "out") (by simp [PkgCfg.leaf, PkgCfg.perms])
  revert this; decide

theorem absPaths_abs {root : Str} (hr : isAbsolute root = true) {ps qs : List Str}
    (h : absPaths (some root) ps = some qs) : ∀ q ∈ qs, isAbsolute q = true := by
  have happ : ∀ t, isAbsolute (root ++ t) = true := by
    intro t
    cases root with
    | nil => simp [isAbsolute] at hr
    | cons c cs =>
      simp only [isAbsolute] at hr ⊢
      split at hr
      · rename_i heq; simp only [List.cons.injEq] at heq; simp [heq.1]
      · cases hr
  induction ps generalizing qs with
  | nil => simp [absPaths] at h; subst h; simp
  | cons p ps ih =>
    simp only [absPaths, List.mapM_cons, Option.pure_def, Option.bind_eq_bind] at h
    obtain ⟨q0, h0, h1⟩ := Option.bind_eq_some_iff.mp h
    obtain ⟨qs0, h2, h3⟩ := Option.bind_eq_some_iff.mp h1
    simp only [Option.some.injEq] at h3
    subst h3
    intro q hq
    rcases List.mem_cons.mp hq with rfl | hq
    · split at h0
      · simp only [Option.some.injEq] at h0; subst h0; assumption
      · simp only [Option.map_some, Option.some.injEq] at h0
        subst h0; rw [List.append_assoc]; exact happ _
    · exact ih (qs := qs0) h2 q hq

theorem Sandbox_makeAbs {root : Str} (hr : isAbsolute root = true) {s s' : Sandbox}
    (h : s.makeAbs (some root) = some s') : AbsSandbox s' := by
  simp only [Sandbox.makeAbs, Option.pure_def, Option.bind_eq_bind] at h
  obtain ⟨b, h0, h1⟩ := Option.bind_eq_some_iff.mp h
  obtain ⟨m, h2, h3⟩ := Option.bind_eq_some_iff.mp h1
  simp only [Option.some.injEq] at h3
  subst h3
  exact ⟨absPaths_abs hr h0, absPaths_abs hr h2⟩

theorem PkgCfg_makeAbs {root : Str} (hr : isAbsolute root = true) {c c' : PkgCfg}
    (h : c.makeAbs (some root) = some c') :
    AbsSandbox c'.perms.sandbox ∧
    (∀ d, c'.build = some d → ∃ e : PkgCfg, e.makeAbs (some root) = some d) ∧
    (∀ d, c'.test = some d → ∃ e : PkgCfg, e.makeAbs (some root) = some d) := by
  obtain ⟨p, b, t, f⟩ := c
  simp only [PkgCfg.makeAbs, Option.pure_def, Option.bind_eq_bind] at h
  obtain ⟨s, h0, h1⟩ := Option.bind_eq_some_iff.mp h
  have hs := Sandbox_makeAbs hr h0
  cases b with
  | none =>
    cases t with
    | none =>
      simp only [Option.bind_some, Option.some.injEq] at h1
      subst h1
      exact ⟨hs, fun d hd => by simp [PkgCfg.build] at hd, fun d hd => by simp [PkgCfg.test] at hd⟩
    | some t =>
      simp only [Option.bind_some] at h1
      obtain ⟨t', h2, h3⟩ := Option.bind_eq_some_iff.mp h1
      obtain ⟨t'', h4, rfl⟩ := Option.map_eq_some_iff.mp h2
      simp only [Option.some.injEq] at h3
      subst h3
      refine ⟨hs, fun d hd => by simp [PkgCfg.build] at hd, fun d hd => ?_⟩
      simp only [PkgCfg.test, Option.some.injEq] at hd
      exact ⟨t, hd ▸ h4⟩
  | some b =>
    simp only at h1
    obtain ⟨b', h2, h3⟩ := Option.bind_eq_some_iff.mp h1
    obtain ⟨b'', h4, rfl⟩ := Option.map_eq_some_iff.mp h2
    cases t with
    | none =>
      simp only [Option.bind_some, Option.some.injEq] at h3
      subst h3
      refine ⟨hs, fun d hd => ?_, fun d hd => by simp [PkgCfg.test] at hd⟩
      simp only [PkgCfg.build, Option.some.injEq] at hd
      exact ⟨b, hd ▸ h4⟩
    | some t =>
      simp only at h3
      obtain ⟨t', h5, h6⟩ := Option.bind_eq_some_iff.mp h3
      obtain ⟨t'', h7, rfl⟩ := Option.map_eq_some_iff.mp h5
      simp only [Option.some.injEq] at h6
      subst h6
      refine ⟨hs, fun d hd => ?_, fun d hd => ?_⟩
      · simp only [PkgCfg.build, Option.some.injEq] at hd
        exact ⟨b, hd ▸ h4⟩
      · simp only [PkgCfg.test, Option.some.injEq] at hd
        exact ⟨t, hd ▸ h7⟩

theorem mapM_get {root : Option Str} {pk pk' : AMap Str PkgCfg}
    (h : pk.mapM (fun (p : Str × PkgCfg) => (p.2.makeAbs root).map (fun c => (p.1, c))) = some pk')
    (q : Str) (c' : PkgCfg) (hq : pk'.get? q = some c') : ∃ c : PkgCfg, c.makeAbs root = some c' := by
  induction pk generalizing pk' with
  | nil => simp at h; subst h; simp at hq
  | cons e rest ih =>
    simp only [List.mapM_cons, Option.pure_def, Option.bind_eq_bind] at h
    obtain ⟨p0, h0, h1⟩ := Option.bind_eq_some_iff.mp h
    obtain ⟨r0, h2, h3⟩ := Option.bind_eq_some_iff.mp h1
    simp only [Option.some.injEq] at h3
    subst h3
    obtain ⟨c0, h4, rfl⟩ := Option.map_eq_some_iff.mp h0
    by_cases hk : e.1 = q
    · simp [AMap.get?, hk] at hq; subst hq; exact ⟨_, h4⟩
    · simp only [AMap.get?, hk, if_false] at hq; exact ih h2 hq

/-- **C40 (partial).** Paths listed for a package itself, its build script or its tests become
absolute. Missing: `from.build`, `from.test`, `[sandbox]` and `[rustc.sandbox]`. -/
theorem C40_paths_partial (root : Str) (hr : isAbsolute root = true) (cfg cfg' : Raw)
    (h : cfg.makeAbs (some root) = some cfg') (pkg : Str) (s : Scope)
    (hs : s = .all ∨ s = .build ∨ s = .test) (c : PkgCfg) (hc : sectionCfg cfg' pkg s = some c) :
    AbsSandbox c.perms.sandbox := by
  simp only [Raw.makeAbs, Option.pure_def, Option.bind_eq_bind] at h
  obtain ⟨pk, h0, h1⟩ := Option.bind_eq_some_iff.mp h
  simp only [Option.some.injEq] at h1
  subst h1
  rcases hs with rfl | rfl | rfl
  · obtain ⟨c0, h2⟩ := mapM_get h0 pkg c hc
    exact (PkgCfg_makeAbs hr h2).1
  · obtain ⟨c1, h2, h3⟩ := Option.bind_eq_some_iff.mp hc
    obtain ⟨c0, h4⟩ := mapM_get h0 pkg c1 h2
    obtain ⟨e, he⟩ := (PkgCfg_makeAbs hr h4).2.1 c h3
    exact (PkgCfg_makeAbs hr he).1
  · obtain ⟨c1, h2, h3⟩ := Option.bind_eq_some_iff.mp hc
    obtain ⟨c0, h4⟩ := mapM_get h0 pkg c1 h2
    obtain ⟨e, he⟩ := (PkgCfg_makeAbs hr h4).2.2 c h3
    exact (PkgCfg_makeAbs hr he).1

end Cackle.Perm
