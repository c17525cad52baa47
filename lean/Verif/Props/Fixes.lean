import Verif.Lemmas.Fixes

/-!
# C128: problems that go away along with an accepted edit

After an edit was accepted, a problem is dropped without asking if one of the edits offered for it does not change the new
file (`resolve_problems_with_empty_diff`, problem_store.rs:88-122). The edits are those for the configuration that was
loaded before.
-/

namespace Cackle.Fixes
open Cackle Config Perm Toml
open Cackle.ApiMap (Api)
open Cackle.Editor (Edit load Reach withTable Effective)

/-! ## Specification -/

/-- The package may use the API. -/
def MayUse (r : Raw) (idx : List IdxPkg) (u : ApiUsages) : Prop :=
  ∃ p, Effective r idx u.pkg.name u.scope p ∧ u.api ∈ p.allowApis

/-- The used functions are not in the API. -/
def NotInApi (r : Raw) (u : ApiUsages) : Prop :=
  ∃ d, r.apis.get? u.api = some d ∧ ∀ x ∈ u.usages, ¬ Prefix.InDef d x.toName

/-- The functions that use the API are part of it. -/
def CallersInApi (r : Raw) (u : ApiUsages) : Prop :=
  ∃ d, r.apis.get? u.api = some d ∧ ∀ x ∈ u.usages, ∃ l, Prefix.HasNames x.from_ l ∧ ∃ name ∈ l, Prefix.InDef d name

/-- With this configuration the problem does not arise again, or (a failed program) the program runs with another
configuration than the one with which it failed. -/
def Handled (sandboxOf : Str → Sandbox) (r : Raw) (idx : List IdxPkg) : Problem → Prop
  | .message _ | .usesBuildScript _ | .unusedSandboxConfiguration _ => False
  | .missingConfiguration _ => r.common.version = maxVersion
  | .selectSandbox => r.sandbox.kind.isSome
  | .importStdApi api => ∃ b d, builtIns.get? api = some b ∧ r.apis.get? api = some d ∧ (∀ x ∈ b.incl, x ∈ d.incl) ∧
      ∀ x ∈ b.excl, x ∈ d.excl
  | .availableApi pkg api cfg => ∀ exports ids, .availableApi pkg api cfg ∉ Exports.unusedImports exports ids r
  | .disallowedApiUsage u => MayUse r idx u ∨ NotInApi r u
  | .offTreeApiUsage u _ => MayUse r idx u ∨ NotInApi r u ∨ CallersInApi r u
  | .executionFailed crate out => sandboxFor (withInheritance r idx) (forNonBuildOutput crate) ≠ sandboxOf out
  | .unusedAllowApi sel apis => ∀ p, listed r sel.pkg sel.scope = some p → ∀ a ∈ apis, a ∉ p.allowApis
  | .unusedPackageConfig sel => listed r sel.pkg sel.scope = none
  | .possibleExportedApi pkg api sym => ∀ c : Checker.State,
      Checker.exportProblem (Checker.updateConfig c r) (pkg, api, sym) = []
  | .newConfigVersionAvailable v => r.common.version = v
  | P => Editor.Gone r idx P

/-- The selector whose permissions the problem is about. -/
def about : Problem → Option PermSel
  | .disallowedApiUsage u | .offTreeApiUsage u _ => some ⟨u.pkg.name, u.scope⟩
  | .executionFailed crate _ => some (forNonBuildOutput crate)
  | P => Editor.target P

/-- The English claim C128, for the configurations and problems in `D`. -/
def C128_Claim (D : Raw → Problem → Prop) : Prop :=
  ∀ (F : Type) (t : Texts F) (bwrap : Bool) (k : Nat) (order : List (List Str) → List (List Str))
    (sandboxOf : Str → Sandbox) (n : Nat) (doc : Entries) (old r : Raw) (idx : List IdxPkg) (P : Problem),
    (∀ a b, t.print a = t.print b → a = b) → (∀ l, (order l).Perm l) →
    load builtIns (n + 2) doc = some r → r.packages.keys.Nodup →
    (∀ sel, about P = some sel → Indexed idx sel.pkg ∧ Exists r idx sel.pkg sel.scope) → D r P →
    Ui.Settled (env t bwrap k order sandboxOf) old doc P → Handled sandboxOf r idx P

/-- The restrictions: extern needs version 3; the failed program is a build script; the used functions have one name only;
the API excludes none of the names of the callers; no colons in the parts of names. -/
def Ordinary (r : Raw) : Problem → Prop
  | .disallowedExtern _ _ => 3 ≤ r.common.version
  | .executionFailed crate _ => crate.kind = .buildScript
  | .disallowedApiUsage u => ∀ x ∈ u.usages, (∀ l, Prefix.HasNames x.to l → ∀ name ∈ l, name ≠ [] → name = x.toName) ∧
      Prefix.Plain x.to
  | .offTreeApiUsage u _ => ∀ x ∈ u.usages, (∀ l, Prefix.HasNames x.to l → ∀ name ∈ l, name ≠ [] → name = x.toName) ∧
      Prefix.Plain x.to ∧ Prefix.Plain x.from_ ∧ ∀ d, r.apis.get? u.api = some d → ∀ l, Prefix.HasNames x.from_ l →
        ∀ name ∈ l, ¬ ∃ p ∈ d.excl, ApiMap.PrefixOf p name
  | _ => True

/-! ## Proof -/

theorem settled_fix {F : Type} {t : Texts F} {bwrap : Bool} {k : Nat} {order : List (List Str) → List (List Str)}
    {sandboxOf : Str → Sandbox} {doc : Entries} {old : Raw} {P : Problem} (hp : ∀ a b, t.print a = t.print b → a = b)
    (h : Ui.Settled (env t bwrap k order sandboxOf) old doc P) :
    ∃ fs, fixes k order sandboxOf old.apis P = some fs ∧ ∃ f ∈ fs, f.resolveIfEmpty = true ∧ f.apply bwrap doc = some doc := by
  obtain ⟨ed, h1, h2, h3, h4⟩ := h
  obtain ⟨f, hf, rfl⟩ := List.mem_map.mp h1
  cases hfs : fixes k order sandboxOf old.apis P with
  | none => rw [hfs] at hf; cases hf
  | some fs =>
    rw [hfs] at hf
    refine ⟨fs, rfl, f, hf, h2, ?_⟩
    have h4 := hp _ _ h4
    unfold Fix.toEditM at h3 h4
    dsimp only at h3 h4
    cases ha : f.apply bwrap doc with
    | none => rw [ha] at h3; cases h3
    | some d => rw [ha] at h4; exact congrArg some h4

theorem mayUse_of_allow {n : Nat} {doc : Entries} {r : Raw} {idx : List IdxPkg} {u : ApiUsages} {s : Scope}
    (hl : load builtIns (n + 2) doc = some r) (hn : r.packages.keys.Nodup) (hi : Indexed idx u.pkg.name)
    (hex : Exists r idx u.pkg.name u.scope) (hs : s ∈ chain u.scope)
    (ha : (Edit.allowApi ⟨u.pkg.name, s⟩ u.api).apply doc = some doc) : MayUse r idx u := by
  obtain ⟨r', h1, _, _, h2⟩ := Editor.C19_exact_grant builtIns n doc doc r _ _ hl hn ha
  rw [hl] at h1
  cases h1
  obtain ⟨p, p', h3, h4, _, h5⟩ := h2 idx u.pkg.name u.scope hi hex
  exact ⟨p', h4, (h5 _).mpr (.inr ⟨rfl, rfl, hs⟩)⟩

theorem notInApi_of_exclude {k : Nat} {order : List (List Str) → List (List Str)} (ho : ∀ l, (order l).Perm l) {n : Nat}
    {doc : Entries} {old r : Raw} {u : ApiUsages} (hl : load builtIns (n + 2) doc = some r)
    (hu : ∀ x ∈ u.usages, (∀ l, Prefix.HasNames x.to l → ∀ name ∈ l, name ≠ [] → name = x.toName) ∧ Prefix.Plain x.to)
    {f : Fix} (hf : f ∈ pathFixes k order old.apis false u) {bwrap : Bool} (ha : f.apply bwrap doc = some doc) :
    NotInApi r u := by
  obtain ⟨s, hs⟩ := mem_pathFixes hf
  simp only [Bool.false_eq_true, if_false] at hs
  subst hs
  have hm : Edit.excludeFromApi u.api s ∈ Prefix.excludeFixes k order old.apis u := by
    rw [← (pathFixes_edit k order old.apis u).2]
    exact List.mem_filterMap.mpr ⟨_, hf, rfl⟩
  obtain ⟨_, p, _, he, hpre⟩ := Prefix.mem_excludeFixes ho hm
  cases he
  obtain ⟨r', h1, hadd, _⟩ := Editor.C70_exact_edit builtIns n doc doc r (.excludeFromApi u.api _) (.inl rfl) hl ha
  rw [hl] at h1
  cases h1
  obtain ⟨_, d, hd', _, hex, _⟩ := hadd
  refine ⟨d, hd', fun x hx hin => hin.2 ⟨_, (hex _).mpr (.inr (List.mem_singleton.mpr rfl)), ?_⟩⟩
  have hmem : x.to ∈ Prefix.ends false u.usages := List.mem_map.mpr ⟨x, hx, rfl⟩
  obtain ⟨l, hl, name, hn, hpn⟩ := hpre.2.2 _ hmem
  have hne : name ≠ [] := by
    rintro rfl
    exact hpre.2.1 (List.prefix_nil.mp hpn)
  rw [← (hu x hx).1 l hl name hn hne]
  unfold ApiMap.PrefixOf
  rw [Prefix.split_pathText p hpre.2.1 (hpre.plain (fun f hf => by
    obtain ⟨y, hy, rfl⟩ := List.mem_map.mp hf
    exact (hu y hy).2))]
  exact hpn

theorem callersInApi_of_include {k : Nat} {order : List (List Str) → List (List Str)} (ho : ∀ l, (order l).Perm l) {n : Nat}
    {doc : Entries} {old r : Raw} {u : ApiUsages} (hl : load builtIns (n + 2) doc = some r)
    (hu : ∀ x ∈ u.usages, Prefix.Plain x.from_ ∧ ∀ d, r.apis.get? u.api = some d → ∀ l, Prefix.HasNames x.from_ l →
        ∀ name ∈ l, ¬ ∃ p ∈ d.excl, ApiMap.PrefixOf p name)
    {f : Fix} (hf : f ∈ pathFixes k order old.apis true u) {bwrap : Bool} (ha : f.apply bwrap doc = some doc) :
    CallersInApi r u := by
  obtain ⟨s, hs⟩ := mem_pathFixes hf
  simp only [if_true] at hs
  subst hs
  have hm : Edit.extendApi u.api s ∈ Prefix.includeFixes k order old.apis u := by
    rw [← (pathFixes_edit k order old.apis u).1]
    exact List.mem_filterMap.mpr ⟨_, hf, rfl⟩
  obtain ⟨_, p, _, he, hpre⟩ := Prefix.mem_includeFixes ho hm
  cases he
  obtain ⟨r', h1, hadd, _⟩ := Editor.C70_exact_edit builtIns n doc doc r (.extendApi u.api _) (.inl rfl) hl ha
  rw [hl] at h1
  cases h1
  obtain ⟨_, d, hd', hin, _⟩ := hadd
  refine ⟨d, hd', fun x hx => ?_⟩
  have hmem : x.from_ ∈ Prefix.ends true u.usages := List.mem_map.mpr ⟨x, hx, rfl⟩
  obtain ⟨l, hl, name, hn, hpn⟩ := hpre.2.2 _ hmem
  refine ⟨l, hl, name, hn, ⟨_, (hin _).mpr (.inr (List.mem_singleton.mpr rfl)), ?_⟩, (hu x hx).2 d hd' l hl name hn⟩
  unfold ApiMap.PrefixOf
  rw [Prefix.split_pathText p hpre.2.1 (hpre.plain (fun f hf => by
    obtain ⟨y, hy, rfl⟩ := List.mem_map.mp hf
    exact (hu y hy).1))]
  exact hpn

/-- An edit of one section that changes nothing, for the problems of C64. -/
theorem gone_of_target {n : Nat} {doc : Entries} {r : Raw} {idx : List IdxPkg} {P : Problem} {sel : PermSel}
    (hl : load builtIns (n + 2) doc = some r) (hn : r.packages.keys.Nodup) (ht : Editor.target P = some sel)
    (hi : Indexed idx sel.pkg) (hex : Exists r idx sel.pkg sel.scope)
    (hv : ∀ crate locs, P = .disallowedExtern crate locs → 3 ≤ r.common.version)
    {incl excl : ApiUsages → List Edit} {sandboxOf : Str → Sandbox} {es : List Edit}
    (hes : Editor.fixes incl excl sandboxOf P = some es) {e : Edit} (he : e ∈ es)
    (hr : Reach (Editor.pkgPath sel) doc) (ha : e.apply doc = some doc) : Editor.Gone r idx P := by
  obtain ⟨es', h1, _, h2⟩ := Editor.C64_fix_works_partial builtIns n doc r idx P sel hl hn ht hi hex ⟨hr, hv⟩ incl excl sandboxOf
  rw [hes] at h1
  cases h1
  obtain ⟨doc', r', h3, h4, h5⟩ := h2 e he
  rw [ha] at h3
  cases h3
  rw [hl] at h4
  cases h4
  exact h5

theorem sandbox_changed {n : Nat} {doc : Entries} {r : Raw} {idx : List IdxPkg} {crate : CrateSel} {sb : Sandbox}
    (hl : load builtIns (n + 2) doc = some r) (hn : r.packages.keys.Nodup) (hk : crate.kind = .buildScript)
    (hi : Indexed idx crate.pkgId.name) (hex : Exists r idx crate.pkgId.name (forNonBuildOutput crate).scope)
    {f : Fix} (hf : f ∈ executionFixes crate sb) {bwrap : Bool} (ha : f.apply bwrap doc = some doc) :
    sandboxFor (withInheritance r idx) (forNonBuildOutput crate) ≠ sb := by
  have hsel : forNonBuildOutput crate = ⟨crate.pkgId.name, .build⟩ := by simp [forNonBuildOutput, hk]
  rw [hsel] at hex ⊢
  rw [Editor.sandboxFor_eff (sel := ⟨crate.pkgId.name, .build⟩) hn hi hex]
  have key : ∀ (f : Entries → Option Entries) (g : Sandbox → Sandbox),
      Editor.PermEdit f (fun p => { p with sandbox := g p.sandbox }) →
      withTable f (Editor.pkgPath ⟨crate.pkgId.name, .build⟩) doc = some doc →
      ∃ s, (lvl r crate.pkgId.name .build).sandbox = g s := by
    intro f g hf hw
    obtain ⟨r', hr', e'⟩ := Editor.edited_apply hf hl hw
    rw [hl] at hr'
    cases hr'
    have := e'.lvl crate.pkgId.name .build
    simp only [if_true] at this
    exact ⟨_, congrArg Perms.sandbox this⟩
  unfold executionFixes at hf
  split at hf
  · rename_i hkind
    rcases List.mem_append.mp hf with hf | hf
    · split at hf
      · cases hf
      · rename_i hnet
        simp only [List.mem_singleton] at hf
        subst hf
        obtain ⟨s, hs⟩ := key _ (fun s => { s with allowNetwork := some true }) Editor.permEdit_network
          (by rw [← Editor.withTable_append]; exact ha)
        rintro rfl
        apply hnet
        simp [eff, inheritPerms, hs, Sandbox.inherit]
    · simp only [List.mem_singleton] at hf
      subst hf
      obtain ⟨s, hs⟩ := key _ (fun s => { s with kind := some .disabled }) Editor.permEdit_disable
          (by rw [← Editor.withTable_append]; exact ha)
      rintro rfl
      apply hkind
      simp [eff, inheritPerms, hs, Sandbox.inherit]
  · cases hf

/-- **C128 (partial).** For all configuration files, problems and terminals: a problem that is dropped because one of its
edits would not change the new configuration file does not arise with this file.

What is missing: see `Ordinary`; extern in older versions and failed tests are in `C128_extern` and `C128_test`. -/
theorem C128_settled_partial : C128_Claim Ordinary := by
  intro F t bwrap k order sandboxOf n doc old r idx P hp ho hl hn habout hord hs
  obtain ⟨fs, h1, f, hf, hres, ha⟩ := settled_fix hp hs
  obtain ⟨r0, hr0, hpr⟩ := load_iff.mp hl
  cases P with
  | message m => cases h1; cases hf
  | usesBuildScript p => cases h1; cases hf
  | unusedSandboxConfiguration p => cases h1; cases hf
  | missingConfiguration m =>
    cases h1
    show r.common.version = maxVersion
    rw [parseRaw_version hpr]
    simp only [List.mem_cons, List.not_mem_nil, or_false] at hf
    rcases hf with rfl | rfl
    · have ha : recommended doc = some doc := ha
      unfold recommended at ha
      simp only [Option.bind_eq_some_iff] at ha
      obtain ⟨d1, a1, d2, a2, d3, a3, a4⟩ := ha
      have e1 := Editor.readDoc_setVersion hr0 a1
      have e2 := Editor.readDoc_toggle e1 a2
      have e3 := Editor.readDoc_toggle e2 a3
      have e4 := Editor.readDoc_toggle e3 a4
      rw [hr0] at e4
      exact congrArg (fun r : Raw => r.common.version) (Option.some.inj e4)
    · have e1 := Editor.readDoc_setVersion hr0 ha
      rw [hr0] at e1
      exact congrArg (fun r : Raw => r.common.version) (Option.some.inj e1)
  | selectSandbox =>
    cases h1
    have hk : ∃ kd, setSandboxKind bwrap kd doc = some doc := by
      simp only [List.mem_cons, List.not_mem_nil, or_false] at hf
      rcases hf with rfl | rfl <;> exact ⟨_, ha⟩
    obtain ⟨kd, hk⟩ := hk
    have e1 := readDoc_setSandbox hr0 hk
    rw [hr0] at e1
    have e2 := congrArg (fun r : Raw => r.sandbox.kind) (Option.some.inj e1)
    show r.sandbox.kind.isSome
    rw [(Editor.parseRaw_packages hpr []).2.2, e2]
    rfl
  | importStdApi api =>
    cases h1
    simp only [List.mem_cons, List.not_mem_nil, or_false] at hf
    rcases hf with rfl | rfl | rfl
    · have e1 := Editor.readDoc_toggle hr0 ha
      rw [hr0] at e1
      have e2 : r0.common.importStd = if api ∈ r0.common.importStd then r0.common.importStd.erase api
        else r0.common.importStd ++ [api] := congrArg (fun r : Raw => r.common.importStd) (Option.some.inj e1)
      exfalso
      split at e2
      · rename_i hm
        have h2 := List.length_erase_of_mem hm
        have h3 := List.length_pos_of_mem hm
        rw [← e2] at h2
        omega
      · have := congrArg List.length e2
        simp at this
    · obtain ⟨r', b, h2, h3, ⟨_, d, h4, h5, h6, _⟩, _⟩ := Editor.C70_inline_std builtIns n doc doc r api hl ha
      rw [hl] at h2
      cases h2
      exact ⟨b, d, h3, h4, fun x hx => (h5 x).mpr (.inr hx), fun x hx => (h6 x).mpr (.inr hx)⟩
    · cases hres
  | availableApi pkg api cfg =>
    cases h1
    obtain ⟨es, h2, _, h3⟩ := Editor.C71_available_gone builtIns n doc doc r hl pkg api cfg (fun _ => []) (fun _ => []) sandboxOf
    cases h2
    have : ∃ e ∈ [Edit.importApi pkg.name api, .inlineApi pkg.name api cfg, .ignoreApi pkg.name], e.apply doc = some doc := by
      simp only [List.mem_cons, List.not_mem_nil, or_false] at hf
      rcases hf with rfl | rfl | rfl
      · exact ⟨.importApi pkg.name api, by simp, ha⟩
      · exact ⟨.inlineApi pkg.name api cfg, by simp, ha⟩
      · cases hres
    obtain ⟨e, he, hae⟩ := this
    obtain ⟨r', h4, h5⟩ := h3 e he hae
    rw [hl] at h4
    cases h4
    intro exports ids hm
    exact ((h5 exports ids _).mp hm).2 ⟨pkg, api, cfg, rfl, rfl⟩
  | disallowedApiUsage u =>
    obtain ⟨hi, hex⟩ := habout _ rfl
    simp only [fixes, allowFixes_eq, Option.map_some, Option.some.injEq] at h1
    subst h1
    rcases List.mem_append.mp hf with hf | hf
    · obtain ⟨s, hs, rfl⟩ := List.mem_map.mp hf
      exact .inl (mayUse_of_allow hl hn hi hex hs ha)
    · exact .inr (notInApi_of_exclude ho hl hord hf ha)
  | offTreeApiUsage u x =>
    obtain ⟨hi, hex⟩ := habout _ rfl
    simp only [fixes, allowFixes_eq, Option.map_some, Option.some.injEq] at h1
    subst h1
    rcases List.mem_append.mp hf with hf | hf
    · rcases List.mem_append.mp hf with hf | hf
      · exact .inr (.inr (callersInApi_of_include ho hl (fun x hx => ⟨(hord x hx).2.2.1, (hord x hx).2.2.2⟩) hf ha))
      · exact .inr (.inl (notInApi_of_exclude ho hl (fun x hx => ⟨(hord x hx).1, (hord x hx).2.1⟩) hf ha))
    · obtain ⟨s, hs, rfl⟩ := List.mem_map.mp hf
      exact .inl (mayUse_of_allow hl hn hi hex hs ha)
  | executionFailed crate out =>
    obtain ⟨hi, hex⟩ := habout _ rfl
    cases h1
    exact sandbox_changed hl hn hord hi hex hf ha
  | unusedAllowApi sel apis =>
    cases h1
    simp only [List.mem_singleton] at hf
    subst hf
    intro p hlp
    have ha : Editor.withOptTable (Editor.removeApis apis) (Editor.pkgPath sel) doc = some doc := ha
    have hpk := (Editor.parseRaw_packages hpr []).2.1
    rcases Editor.edit_doc_opt (Editor.permEdit_removeApis apis) hr0 ha with ⟨_, hnone⟩ | ⟨c, hc, h'⟩
    · rw [listed_eq, hpk, hnone] at hlp
      cases hlp
    · rw [hr0] at h'
      have h2 := congrArg (fun r : Raw => r.packages.get? sel.pkg) (Option.some.inj h')
      simp only [AMap.get?_insert, if_true] at h2
      rw [listed_eq, hpk, h2, Option.bind_some, Editor.listed_modOpt, if_pos rfl] at hlp
      rw [hc] at h2
      have h3 : (sectionOf c sel.scope).map PkgCfg.perms = some p := by
        rw [Option.some.inj h2, Editor.listed_modOpt, if_pos rfl]
        exact hlp
      rw [h3] at hlp
      simp only [Option.map_some, Option.some.injEq] at hlp
      exact foldl_erase_self apis p.allowApis (congrArg Perms.allowApis hlp)
  | unusedPackageConfig sel =>
    cases h1
    simp only [List.mem_singleton] at hf
    subst hf
    obtain ⟨r', h2, _, h3⟩ := Editor.C72_remove_section builtIns n doc doc r sel hl ha
    rw [hl] at h2
    cases h2
    have := h3 sel.pkg sel.scope
    rwa [if_pos ⟨rfl, .inr rfl⟩] at this
  | possibleExportedApi pkg api sym =>
    cases h1
    intro c
    have : ∃ e ∈ [Edit.extendApi api (pkg.name ++ [':', ':'] ++ api), .noDetectApi api pkg.name],
        e.apply doc = some doc ∧ Reach [str! "api", api] doc := by
      simp only [List.mem_cons, List.not_mem_nil, or_false] at hf
      rcases hf with rfl | rfl
      · exact ⟨_, List.mem_cons_self .., ha, withTable_reach ha⟩
      · exact ⟨.noDetectApi api pkg.name, by simp, ha, withTable_reach ha⟩
    obtain ⟨e, he, hae, hr⟩ := this
    obtain ⟨es, h2, _, h3⟩ := Editor.C71_possible_export_gone builtIns n doc r hl c pkg api sym hr (fun _ => []) (fun _ => []) sandboxOf
    cases h2
    obtain ⟨doc', r', h4, h5, h6⟩ := h3 e he
    rw [hae] at h4
    cases h4
    rw [hl] at h5
    cases h5
    exact h6
  | newConfigVersionAvailable v =>
    show r.common.version = v
    rw [parseRaw_version hpr]
    simp only [fixes, knownVersion, Option.some.injEq] at h1
    subst h1
    split at hf
    · rename_i m hm
      split at hm
      · rename_i hv
        cases hm
        simp only [List.mem_cons, List.not_mem_nil, or_false] at hf
        have hv' : (v.toNat : Int) = v := Int.toNat_of_nonneg hv.1
        rcases hf with rfl | rfl
        · have e1 := Editor.readDoc_setVersion hr0 ha
          rw [hr0] at e1
          rw [← hv']
          exact congrArg (fun r : Raw => r.common.version) (Option.some.inj e1)
        · have e1 := Editor.readDoc_updatePreserving hr0 ha
          rw [hr0] at e1
          have e2 := congrArg (fun r : Raw => r.common.version) (Option.some.inj e1)
          rw [← hv']
          exact e2
      · cases hm
    · cases hf
  | isProcMacro pkg =>
    obtain ⟨hi, hex⟩ := habout _ rfl
    cases h1
    simp only [List.mem_singleton] at hf
    subst hf
    exact gone_of_target (P := .isProcMacro pkg) hl hn rfl hi hex (fun _ _ h => by cases h) (incl := fun _ => []) (excl := fun _ => [])
      (sandboxOf := sandboxOf) rfl (List.mem_singleton.mpr rfl) (withTable_reach ha) ha
  | disallowedUnsafe crate locs =>
    obtain ⟨hi, hex⟩ := habout _ rfl
    cases h1
    simp only [List.mem_singleton] at hf
    subst hf
    exact gone_of_target (P := .disallowedUnsafe crate locs) hl hn rfl hi hex (fun _ _ h => by cases h) (incl := fun _ => [])
      (excl := fun _ => []) (sandboxOf := sandboxOf) rfl (List.mem_singleton.mpr rfl) (withTable_reach ha) ha
  | disallowedExtern crate locs =>
    obtain ⟨hi, hex⟩ := habout _ rfl
    cases h1
    simp only [List.mem_singleton] at hf
    subst hf
    exact gone_of_target (P := .disallowedExtern crate locs) hl hn rfl hi hex (fun _ _ _ => hord) (incl := fun _ => [])
      (excl := fun _ => []) (sandboxOf := sandboxOf) rfl (List.mem_singleton.mpr rfl) (withTable_reach ha) ha
  | disallowedBuildInstruction pkg i =>
    by_cases hc : str! "cargo:" <+: i
    · obtain ⟨hi, hex⟩ := habout ⟨pkg.name, .build⟩ (if_pos hc)
      simp only [fixes, Option.map_eq_some_iff] at h1
      obtain ⟨pats, h1, rfl⟩ := h1
      obtain ⟨pat, hpat, rfl⟩ := List.mem_map.mp hf
      exact gone_of_target (P := .disallowedBuildInstruction pkg i) (e := .allowBuildInstruction ⟨pkg.name, .build⟩ pat) hl hn
        (if_pos hc) hi hex (fun _ _ h => by cases h) (incl := fun _ => []) (excl := fun _ => []) (sandboxOf := sandboxOf) (by simp only [Editor.fixes, h1]; rfl)
        (List.mem_map.mpr ⟨pat, hpat, rfl⟩) (withTable_reach ha) ha
    · intro crate out _ hm
      unfold BuildScript.build at hm
      cases out with
      | none => simp at hm
      | some out =>
        simp only [List.mem_flatMap] at hm
        obtain ⟨line, _, hm⟩ := hm
        split at hm
        · rename_i hst
          classical
          rw [BuildScript.checkDirective_eq] at hm
          split at hm
          · cases hm
          · simp only [List.mem_singleton, Problem.disallowedBuildInstruction.injEq] at hm
            apply hc
            rw [hm.2]
            exact (BuildScript.startsWith_iff ..).mp hst
        · cases hm


/-- The edits are those of `Model/Editor.lean`, and in addition those for the first set-up and for new versions. -/
theorem fixes_edit (k : Nat) (order : List (List Str) → List (List Str)) (sandboxOf : Str → Sandbox) (apis : AMap Api ApiCfg)
    (P : Problem) : (fixes k order sandboxOf apis P).map (·.filterMap Fix.edit) =
      Editor.fixes (Prefix.includeFixes k order apis) (Prefix.excludeFixes k order apis) sandboxOf P := by
  cases P with
  | disallowedApiUsage u =>
    simp only [fixes, Editor.fixes, allowFixes_eq, Editor.allowApiFixes_eq, Option.map_some, List.filterMap_append,
      (pathFixes_edit k order apis u).2, List.filterMap_map]
    rw [← List.filterMap_eq_map]
    rfl
  | offTreeApiUsage u x =>
    simp only [fixes, Editor.fixes, allowFixes_eq, Editor.allowApiFixes_eq, Option.map_some, List.filterMap_append,
      (pathFixes_edit k order apis u).1, (pathFixes_edit k order apis u).2, List.filterMap_map]
    have : (chain u.scope).filterMap (Fix.edit ∘ fun s => Fix.allowApi u.pkg s u.api) =
        (chain u.scope).map (fun s => Edit.allowApi ⟨u.pkg.name, s⟩ u.api) := by
      rw [← List.filterMap_eq_map]
      rfl
    rw [this]
  | executionFailed crate out =>
    simp only [fixes, Editor.fixes, Option.map_some, executionFixes, Editor.executionFixes]
    split
    · split <;> rfl
    · rfl
  | disallowedBuildInstruction pkg i =>
    simp only [fixes, Editor.fixes, Option.map_map]
    congr 1
    funext l
    simp only [Function.comp, List.filterMap_map]
    rw [← List.filterMap_eq_map]
    rfl
  | newConfigVersionAvailable v =>
    simp only [fixes, Editor.fixes, Option.map_some]
    split <;> rfl
  | _ => rfl

/-- For the problems that are reported, `fixes_for_problem` does not panic. -/
theorem fixes_some (k : Nat) (order : List (List Str) → List (List Str)) (sandboxOf : Str → Sandbox) (apis : AMap Api ApiCfg)
    (P : Problem) (h : ∀ pkg i, P = .disallowedBuildInstruction pkg i → str! "cargo:" <+: i) :
    (fixes k order sandboxOf apis P).isSome := by
  cases P with
  | disallowedBuildInstruction pkg i =>
    obtain ⟨l, h1, _⟩ := BuildScript.C18_patterns i (h pkg i rfl)
    simp [fixes, h1]
  | disallowedApiUsage u => simp [fixes, allowFixes_eq]
  | offTreeApiUsage u x => simp [fixes, allowFixes_eq]
  | _ => rfl

theorem env_sane {F : Type} (t : Texts F) (bwrap : Bool) (k : Nat) (order : List (List Str) → List (List Str))
    (sandboxOf : Str → Sandbox) : (env t bwrap k order sandboxOf).Sane := by
  intro c p ed hed q hq
  obtain ⟨f, hf, rfl⟩ := List.mem_map.mp hed
  have hq : q ∈ f.repl := hq
  cases hfs : fixes k order sandboxOf c.apis p with
  | none => rw [hfs] at hf; cases hf
  | some fs =>
    rw [hfs] at hf
    have hf : f ∈ fs := hf
    have hm : ∃ m, p = .missingConfiguration m := by
      have hc : f = .createCustom ∨ f = .createRecommended := by
        cases f <;> first
          | exact .inl rfl
          | exact .inr rfl
          | cases hq
      cases p with
      | missingConfiguration m => exact ⟨m, rfl⟩
      | disallowedApiUsage u =>
        simp only [fixes, allowFixes_eq, Option.map_some, Option.some.injEq] at hfs
        subst hfs
        exfalso
        rcases List.mem_append.mp hf with hf | hf
        · obtain ⟨s, _, rfl⟩ := List.mem_map.mp hf
          rcases hc with hc | hc <;> cases hc
        · obtain ⟨s, rfl⟩ := mem_pathFixes hf
          rcases hc with hc | hc <;> cases hc
      | offTreeApiUsage u x =>
        simp only [fixes, allowFixes_eq, Option.map_some, Option.some.injEq] at hfs
        subst hfs
        exfalso
        rcases List.mem_append.mp hf with hf | hf
        · rcases List.mem_append.mp hf with hf | hf <;> obtain ⟨s, rfl⟩ := mem_pathFixes hf <;>
            rcases hc with hc | hc <;> cases hc
        · obtain ⟨s, _, rfl⟩ := List.mem_map.mp hf
          rcases hc with hc | hc <;> cases hc
      | executionFailed crate out =>
        cases hfs
        exfalso
        unfold executionFixes at hf
        split at hf
        · split at hf <;> rcases hc with rfl | rfl <;> simp at hf
        · cases hf
      | disallowedBuildInstruction pkg i =>
        simp only [fixes, Option.map_eq_some_iff] at hfs
        obtain ⟨l, _, rfl⟩ := hfs
        obtain ⟨s, _, rfl⟩ := List.mem_map.mp hf
        rcases hc with hc | hc <;> cases hc
      | newConfigVersionAvailable v =>
        cases hfs
        exfalso
        split at hf <;> rcases hc with rfl | rfl <;> simp at hf
      | _ =>
        cases hfs
        exfalso
        rcases hc with rfl | rfl <;> simp at hf
    obtain ⟨m, rfl⟩ := hm
    cases f <;> first
      | cases hq; done
      | skip
    · simp only [Fix.repl, List.mem_cons, List.mem_map] at hq
      rcases hq with rfl | ⟨a, _, rfl⟩ <;> simp [Problem.Same]
    · simp only [Fix.repl, List.mem_cons, List.not_mem_nil, or_false] at hq
      subst hq
      simp [Problem.Same]

theorem live_not_dead {s : Store.State} {j : Nat} {q : Problem} (h : (j, q) ∈ Store.live s) (hd : Store.Dead s j) : False := by
  unfold Store.live at h
  obtain ⟨⟨p, i⟩, h1, h2⟩ := List.mem_filterMap.mp h
  simp only [Option.map_eq_some_iff, Prod.mk.injEq] at h2
  obtain ⟨p', rfl, rfl, rfl⟩ := h2
  have := List.mem_zipIdx' h1
  unfold Store.Dead at hd
  rw [List.getElem?_eq_some_iff] at hd
  obtain ⟨_, hd⟩ := hd
  rw [← this.2] at hd
  cases hd

/-- **C128 (partial), in the user interface.** In every execution: when the user accepts an edit and the new file is a valid
configuration, any other problem that disappears with it does not arise with the new file. -/
theorem C128_accept_partial {F : Type} [DecidableEq F] (t : Texts F) (bwrap : Bool) (k : Nat)
    (order : List (List Str) → List (List Str)) (sandboxOf : Str → Sandbox)
    (hp : ∀ a b, t.print a = t.print b → a = b) (ho : ∀ l, (order l).Perm l)
    (x : Ui.Sys F Raw) (tr : List (Ui.Sys F Raw × Ui.Act F Raw)) (h : Ui.Exec (env t bwrap k order sandboxOf) x tr)
    (hl : Ui.Listening x) (ms : List Ui.Mode) (hm : x.ui.modes = .selectEdit :: ms) (key : Ui.Key) (hk : Ui.Accepts key)
    (id : Nat) (p : Problem) (hsel : (Store.live x.ui.store)[x.ui.problemIndex]? = some (id, p)) (f : Fix)
    (hf : ((fixes k order sandboxOf x.ui.config.apis p).getD [])[x.ui.editIndex]? = some f) (doc doc' : Entries)
    (hd : t.parse (x.ui.file.getD t.blank) = some doc) (ha : f.apply bwrap doc = some doc') :
    ∃ x', Ui.act (env t bwrap k order sandboxOf) x (.iter true (.key key)) = some x' ∧
      x'.ui.file = some (t.print doc') ∧ Store.Dead x'.ui.store id ∧
      ∀ n r idx, load builtIns (n + 2) doc' = some r → r.packages.keys.Nodup →
        ∀ j q, (j, q) ∈ Store.live x.ui.store → j ≠ id → Store.Dead x'.ui.store j →
          ∃ q', Store.Grown q q' ∧
            ((∀ sel, about q' = some sel → Indexed idx sel.pkg ∧ Exists r idx sel.pkg sel.scope) → Ordinary r q' →
              Handled sandboxOf r idx q') := by
  have hap : (f.toEditM bwrap).apply x.ui.comment doc = (doc', true) := by
    simp only [Fix.toEditM, ha]
  have := (Ui.C89_accept (env t bwrap k order sandboxOf) (env_sane t bwrap k order sandboxOf) x tr h hl ms hm key hk id p hsel
    (f.toEditM bwrap) (by
      show (List.map _ _)[x.ui.editIndex]? = _
      rw [List.getElem?_map, hf]
      rfl) true).1 doc hd (by rw [hap]) rfl
  obtain ⟨x', h1, h2, h3, _, _, h4⟩ := this
  rw [hap] at h3 h4
  refine ⟨x', h1, h3, h4.gone, ?_⟩
  intro n r idx hr hn j q hj hne hdead
  obtain ⟨q', h5, _, h6⟩ := h4.others j q hj hne
  refine ⟨q', h5, fun hab hord => ?_⟩
  have hset : Ui.Settled (env t bwrap k order sandboxOf) x.ui.config doc' q' := by
    apply Classical.byContradiction
    intro hns
    exact live_not_dead (h6 hns) hdead
  exact C128_settled_partial F t bwrap k order sandboxOf n doc' x.ui.config r idx q' hp ho hr hn hab hord hset

/-! ## Witnesses -/

/-- The file is the document, nothing else is of interest. -/
def plainTexts : Texts Entries :=
  { parse := some, blank := [], print := fun e => e, mentions := fun _ _ => false, typed := fun _ s => s, frames := fun _ _ => none }

private def foo : PkgId := ⟨str! "foo", str! "1.0.0", true⟩

private def externDoc : Entries :=
  [(str! "common", .table [(str! "version", .int 2)]),
   (str! "pkg", .table [(str! "foo", .table [(str! "allow_extern", .bool true)])])]

private def getRaw (doc : Entries) : Raw := (load builtIns 2 doc).getD {}

private theorem getRaw_load {doc : Entries} (h : (load builtIns 2 doc).isSome) : load builtIns 2 doc = some (getRaw doc) := by
  unfold getRaw
  cases hx : load builtIns 2 doc with
  | none => rw [hx] at h; cases h
  | some r => rfl

/-- **C128, disagreement.** With version 2, `allow_extern` has no effect, yet the problem is dropped if it is there. -/
theorem C128_extern : ¬ C128_Claim (fun _ P => ∃ crate locs, P = .disallowedExtern crate locs) := by
  intro h
  have := h Entries plainTexts true 0 id (fun _ => {}) 0 externDoc {} (getRaw externDoc) [⟨str! "foo", false, false⟩]
    (.disallowedExtern ⟨foo, .primary⟩ []) (fun _ _ h => h) (fun _ => .refl _) (getRaw_load (by decide +kernel))
    (by decide +kernel) (by
      intro sel hsel
      cases hsel
      exact ⟨⟨_, List.mem_cons_self .., rfl⟩, trivial⟩) ⟨_, _, rfl⟩
    ⟨_, List.mem_cons_self .., rfl, rfl, rfl⟩
  simp only [Handled, Editor.Gone] at this
  revert this
  decide +kernel

private def testDoc : Entries :=
  [(str! "common", .table [(str! "version", .int 3)]), (str! "sandbox", .table [(str! "kind", .str (str! "Bubblewrap"))]),
   (str! "pkg", .table [(str! "foo", .table [(str! "build", .table [(str! "sandbox", .table [(str! "kind", .str (str! "Disabled"))])])])])]

/-- **C128, disagreement.** When the sandbox of the build script of a package has been disabled, the problem that one of its
tests failed is dropped, although the test still runs in the same sandbox. -/
theorem C128_test : ¬ C128_Claim (fun _ P => ∃ pkg out, P = .executionFailed ⟨pkg, .test⟩ out) := by
  intro h
  have := h Entries plainTexts true 0 id (fun _ => { kind := some .bubblewrap }) 0 testDoc {} (getRaw testDoc)
    [⟨str! "foo", true, true⟩] (.executionFailed ⟨foo, .test⟩ []) (fun _ _ h => h) (fun _ => .refl _)
    (getRaw_load (by decide +kernel)) (by decide +kernel) (by
      intro sel hsel
      cases hsel
      exact ⟨⟨_, List.mem_cons_self .., rfl⟩, .inr ⟨_, List.mem_cons_self .., rfl, rfl⟩⟩) ⟨_, _, rfl⟩
    ⟨(Fix.disableSandbox ⟨str! "foo", .build⟩).toEditM true, List.mem_cons_of_mem _ (List.mem_cons_self ..), rfl, rfl, rfl⟩
  simp only [Handled] at this
  revert this
  decide +kernel

/-! Non-vacuity of C128: after `fs` was granted to `foo`, the same problem for another version of `foo` is dropped; one about
another API is not. -/

private def fsDoc : Entries :=
  [(str! "common", .table [(str! "version", .int 3)]),
   (str! "pkg", .table [(str! "foo", .table [(str! "allow_apis", .array [.str (str! "fs")])])])]
private def uses (api : Api) (version : Str) : Problem :=
  .disallowedApiUsage { pkg := { foo with version := version }, scope := .all, api := api, usages := [] }

example : Ui.Settled (env plainTexts true 0 id (fun _ => {})) {} fsDoc (uses (str! "fs") (str! "2.0.0")) :=
  ⟨_, List.mem_cons_self .., rfl, rfl, rfl⟩
example : (getRaw fsDoc).packages.keys.Nodup ∧ (load builtIns 2 fsDoc).isSome ∧ Ordinary (getRaw fsDoc) (uses (str! "fs") (str! "2.0.0")) :=
  ⟨by decide +kernel, by decide +kernel, by intro x hx; cases hx⟩
example : (fixes 0 id (fun _ => {}) [] (uses (str! "net") (str! "2.0.0"))).map (·.map (fun f => decide ((f.apply true fsDoc).isSome))) =
    some [true] := rfl
example : (((Fix.allowApi foo .all (str! "net")).apply true fsDoc).bind (readDoc 2)).map (fun r => listed r (str! "foo") .all) =
    some (some { allowApis := [str! "fs", str! "net"] }) := rfl

/-- **C128, what is offered for a program that failed.** Allowing the network is offered if and only if the program was in a sandbox
without network, and disabling the sandbox if and only if it was in a sandbox; there is nothing else. -/
theorem C128_execution_offers (k : Nat) (order : List (List Str) → List (List Str)) (sandboxOf : Str → Sandbox)
    (apis : AMap Api ApiCfg) (crate : CrateSel) (out : Str) :
    ∃ fs, fixes k order sandboxOf apis (.executionFailed crate out) = some fs ∧
      (∀ f, f ∈ fs → f = .allowNetwork ⟨crate.pkgId.name, .build⟩ ∨ f = .disableSandbox ⟨crate.pkgId.name, .build⟩) ∧
      (.allowNetwork ⟨crate.pkgId.name, .build⟩ ∈ fs ↔
        (sandboxOf out).kind ≠ some .disabled ∧ (sandboxOf out).allowNetwork ≠ some true) ∧
      (.disableSandbox ⟨crate.pkgId.name, .build⟩ ∈ fs ↔ (sandboxOf out).kind ≠ some .disabled) := by
  refine ⟨_, rfl, ?_⟩
  generalize sandboxOf out = sb
  by_cases hk : sb.kind = some .disabled
  · simp [executionFixes, hk]
  · cases hn : sb.allowNetwork with
    | none => simp [executionFixes, hk, hn]
    | some b => cases b <;> simp [executionFixes, hk, hn]

example : fixes 2 id (fun _ => { kind := some .bubblewrap }) [] (.executionFailed ⟨⟨str! "foo", [], true⟩, .buildScript⟩ []) =
    some [.allowNetwork ⟨str! "foo", .build⟩, .disableSandbox ⟨str! "foo", .build⟩] := rfl

end Cackle.Fixes
