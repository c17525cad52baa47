import Verif.Lemmas.Checker

/-!
# C158 (a sandbox configuration that is said to make no sense has no effect)
-/

namespace Cackle.Checker
open Cackle Config Perm

/-- The kind of sandbox that the config file sets at a selector. -/
def setKind (cfg : Raw) (sel : PermSel) : Option SandboxKind :=
  (listed cfg sel.pkg sel.scope).bind (fun p => p.sandbox.kind)

/-- `cfg'` is `cfg` without the kind of sandbox at `sel`. -/
structure WithoutKind (cfg cfg' : Raw) (sel : PermSel) : Prop where
  distinct : cfg'.packages.keys.Nodup
  sandbox : cfg'.sandbox = cfg.sandbox
  removed : setKind cfg' sel = none
  kept : ∀ s, s ≠ sel → setKind cfg' s = setKind cfg s
  sections : ∀ (pkg : Str) (s : Scope), (listed cfg' pkg s).isSome = (listed cfg pkg s).isSome

/-- The user is told at the end of a run that the configuration of the sandbox at `sel` makes no sense. -/
def Told (c : State) (sel : PermSel) : Prop :=
  ∃ ps, checkUnused c = some ps ∧ Problem.unusedSandboxConfiguration sel ∈ ps

/-- The section for what is run of a package. -/
def runScope : CrateKind → Scope
  | .primary => .all
  | .buildScript => .build
  | .test => .test

/-- The kind of sandbox in which a program of a package is run. -/
def runKind (cfg : Raw) (idx : List IdxPkg) (crate : CrateSel) : Option SandboxKind :=
  (sandboxFor (withInheritance cfg idx) (forNonBuildOutput crate)).kind

/-- The program exists: a binary of a package, a build script or a test. -/
def Program (idx : List IdxPkg) (crate : CrateSel) : Prop :=
  ∃ p ∈ idx, p.name = crate.pkgId.name ∧ (crate.kind = .buildScript → p.hasBuildScript = true) ∧
    (crate.kind = .test → p.hasTest = true)

/-- C158 in full: no program is run in another sandbox without the configuration that makes no sense. -/
def C158_Claim : Prop :=
  ∀ (c : State) (sel : PermSel) (cfg' : Raw), c.cfg.packages.keys.Nodup → Told c sel → WithoutKind c.cfg cfg' sel →
    ∀ crate, Program c.idx.pkgs crate → runKind cfg' c.idx.pkgs crate = runKind c.cfg c.idx.pkgs crate

theorem runKind_eq {cfg : Raw} (hn : cfg.packages.keys.Nodup) {idx : List IdxPkg} {crate : CrateSel}
    (hp : Program idx crate) :
    runKind cfg idx crate = nearest cfg crate.pkgId.name Sandbox.kind (runScope crate.kind) := by
  obtain ⟨p, hm, hname, hb, ht⟩ := hp
  have hs : forNonBuildOutput crate = ⟨crate.pkgId.name, runScope crate.kind⟩ := by
    cases hk : crate.kind <;> simp [forNonBuildOutput, runScope, hk]
  have he : Exists cfg idx crate.pkgId.name (runScope crate.kind) := by
    cases hk : crate.kind with
    | primary => trivial
    | buildScript => exact .inr ⟨p, hm, hname, hb hk⟩
    | test => exact .inr ⟨p, hm, hname, ht hk⟩
  unfold runKind
  rw [hs]
  exact (C04_sandbox_partial cfg hn idx _ ⟨p, hm, hname⟩ _ he).1

/-- The kinds set along the chain of a selector, nearest first, and then the global one. -/
def kinds (cfg : Raw) (pkg : Str) (s : Scope) : List SandboxKind :=
  (chain s).filterMap (fun s' => setKind cfg ⟨pkg, s'⟩) ++ cfg.sandbox.kind.toList

theorem runKind_head {cfg : Raw} (hn : cfg.packages.keys.Nodup) {idx : List IdxPkg} {crate : CrateSel}
    (hp : Program idx crate) : runKind cfg idx crate = (kinds cfg crate.pkgId.name (runScope crate.kind)).head? := by
  rw [runKind_eq hn hp]; rfl

/-- **C158 (when it is said).** The message appears for exactly the selectors with a kind of sandbox that are neither for a build
script nor for tests. -/
theorem C158_told (c : State) (hn : c.cfg.packages.keys.Nodup) (ho : c.outstanding = []) (sel : PermSel) :
    Told c sel ↔ (setKind c.cfg sel).isSome = true ∧ sel.scope ≠ .build ∧ sel.scope ≠ .test := by
  have hl : (fromConfig c.cfg).get? sel = (c.cfg.packages.get? sel.pkg).bind (fun p => sectionOf p sel.scope) :=
    fromConfig_get c.cfg hn sel.pkg sel.scope
  have hk : setKind c.cfg sel = ((fromConfig c.cfg).get? sel).bind (fun p => p.perms.sandbox.kind) := by
    rw [setKind, listed_eq, hl]
    cases (c.cfg.packages.get? sel.pkg).bind (fun p => sectionOf p sel.scope) <;> rfl
  constructor
  · rintro ⟨ps, h, hm⟩
    unfold checkUnused at h
    rw [if_neg (by simp [ho])] at h
    simp only [Option.some.injEq] at h
    subst h
    rcases List.mem_append.mp hm with hm | hm
    · exfalso
      obtain ⟨e, _, he⟩ := List.mem_flatMap.mp hm
      rcases List.mem_append.mp he with he | he
      · split at he
        · cases he
        · cases List.mem_singleton.mp he
      · split at he
        · cases he
        · cases List.mem_singleton.mp he
    · obtain ⟨e, hin, he⟩ := List.mem_flatMap.mp hm
      split at he
      · next hc =>
        have := List.mem_singleton.mp he
        simp only [Problem.unusedSandboxConfiguration.injEq] at this
        subst this
        have hg : (fromConfig c.cfg).get? e.1 = some e.2 := AMap.get?_of_mem (fromConfig_nodup c.cfg) hin
        rw [hk, hg]
        exact hc
      · cases he
  · rintro ⟨h1, h2, h3⟩
    rw [hk] at h1
    cases hg : (fromConfig c.cfg).get? sel with
    | none => rw [hg] at h1; cases h1
    | some p =>
      rw [hg] at h1
      refine ⟨_, by unfold checkUnused; rw [if_neg (by simp [ho])], ?_⟩
      refine List.mem_append.mpr (.inr (List.mem_flatMap.mpr ⟨(sel, p), AMap.mem_of_get? hg, ?_⟩))
      rw [if_pos ⟨h1, h2, h3⟩]
      exact List.mem_singleton.mpr rfl

theorem kinds_other {cfg cfg' : Raw} {sel : PermSel} (h : WithoutKind cfg cfg' sel) (pkg : Str) (l : List Scope)
    (hl : ∀ s ∈ l, (⟨pkg, s⟩ : PermSel) ≠ sel) :
    l.filterMap (fun s => setKind cfg' ⟨pkg, s⟩) = l.filterMap (fun s => setKind cfg ⟨pkg, s⟩) := by
  induction l with
  | nil => rfl
  | cons s l ih =>
    simp only [List.filterMap_cons, h.kept _ (hl s (List.mem_cons_self ..)),
      ih (fun s' hs => hl s' (List.mem_cons_of_mem _ hs))]

theorem chain_nodup (s : Scope) : (chain s).Nodup := by cases s <;> decide

/-- What would decide without the setting: the sections that are further away, and then `[sandbox]`. -/
def fallback (cfg : Raw) (pkg : Str) (farther : List Scope) : Option SandboxKind :=
  (farther.filterMap (fun s => setKind cfg ⟨pkg, s⟩) ++ cfg.sandbox.kind.toList).head?

/-- **C158 (partial).** Removing the kind of sandbox at a selector changes how a program is run exactly if the selector is one
that the program inherits from, no section that is nearer to the program sets a kind, and what is set further away is
something else. In all other cases it has no effect. -/
theorem C158_effect_partial (cfg cfg' : Raw) (sel : PermSel) (hn : cfg.packages.keys.Nodup) (h : WithoutKind cfg cfg' sel)
    (hs : (setKind cfg sel).isSome = true) (idx : List IdxPkg) (crate : CrateSel) (hp : Program idx crate) :
    runKind cfg' idx crate ≠ runKind cfg idx crate ↔
      sel.pkg = crate.pkgId.name ∧ ∃ nearer farther, chain (runScope crate.kind) = nearer ++ sel.scope :: farther ∧
        (∀ s ∈ nearer, setKind cfg ⟨sel.pkg, s⟩ = none) ∧ fallback cfg sel.pkg farther ≠ setKind cfg sel := by
  rw [runKind_head h.distinct hp, runKind_head hn hp]
  unfold kinds
  rw [h.sandbox]
  obtain ⟨k, hk⟩ := Option.isSome_iff_exists.mp hs
  by_cases hon : sel.pkg = crate.pkgId.name ∧ sel.scope ∈ chain (runScope crate.kind)
  · obtain ⟨hpkg, hin⟩ := hon
    obtain ⟨nearer, farther, hc⟩ := List.append_of_mem hin
    have hnd := chain_nodup (runScope crate.kind)
    rw [hc] at hnd
    have hne1 : ∀ s ∈ nearer, (⟨crate.pkgId.name, s⟩ : PermSel) ≠ sel := by
      intro s hs' he
      have : s = sel.scope := by rw [← he]
      subst this
      exact (List.nodup_append.mp hnd).2.2 _ hs' _ (List.mem_cons_self ..) rfl
    have hne2 : ∀ s ∈ farther, (⟨crate.pkgId.name, s⟩ : PermSel) ≠ sel := by
      intro s hs' he
      have : s = sel.scope := by rw [← he]
      subst this
      exact (List.nodup_cons.mp (List.nodup_append.mp hnd).2.1).1 hs'
    have hsel : (⟨crate.pkgId.name, sel.scope⟩ : PermSel) = sel := by rw [← hpkg]
    rw [hc, List.filterMap_append, List.filterMap_append, kinds_other h _ _ hne1, List.filterMap_cons, List.filterMap_cons,
      kinds_other h _ _ hne2, hsel, h.removed, hk]
    simp only [hpkg, true_and]
    cases hnear : nearer.filterMap (fun s => setKind cfg ⟨crate.pkgId.name, s⟩) with
    | cons x xs =>
      simp only [List.cons_append, List.head?_cons, ne_eq, not_true, false_iff]
      rintro ⟨n', f', hc', hnone, _⟩
      have heq : nearer = n' := by
        have hnd' := hnd
        have e := hc'
        rw [hc'] at hnd'
        have h1 : sel.scope ∉ nearer := fun hm => hne1 _ hm hsel
        have h2 : sel.scope ∉ n' := fun hm =>
          (List.nodup_append.mp hnd').2.2 _ hm _ (List.mem_cons_self ..) rfl
        have t1 : (nearer ++ sel.scope :: farther).takeWhile (fun s => s ≠ sel.scope) = nearer := by
          rw [List.takeWhile_append_of_pos (by intro a ha; simp; intro hh; exact h1 (hh ▸ ha))]
          simp
        have t2 : (n' ++ sel.scope :: f').takeWhile (fun s => s ≠ sel.scope) = n' := by
          rw [List.takeWhile_append_of_pos (by intro a ha; simp; intro hh; exact h2 (hh ▸ ha))]
          simp
        rw [← t1, e, t2]
      subst heq
      have hx : x ∈ nearer.filterMap (fun s => setKind cfg ⟨crate.pkgId.name, s⟩) := by rw [hnear]; exact List.mem_cons_self ..
      obtain ⟨s, hs1, hs2⟩ := List.mem_filterMap.mp hx
      rw [hnone s hs1] at hs2
      cases hs2
    | nil =>
      have hnone : ∀ s ∈ nearer, setKind cfg ⟨crate.pkgId.name, s⟩ = none := by
        intro s hs'
        cases hq : setKind cfg ⟨crate.pkgId.name, s⟩ with
        | none => rfl
        | some v =>
          have : v ∈ nearer.filterMap (fun s => setKind cfg ⟨crate.pkgId.name, s⟩) := List.mem_filterMap.mpr ⟨s, hs', hq⟩
          rw [hnear] at this
          cases this
      simp only [List.nil_append, List.cons_append, List.head?_cons]
      constructor
      · intro hne
        exact ⟨nearer, farther, rfl, hnone, hne⟩
      · rintro ⟨n', f', hc', _, hne⟩
        have heq : farther = f' := by
          have hnd' := hnd
          rw [hc'] at hnd'
          have h1 : sel.scope ∉ nearer := fun hm => hne1 _ hm hsel
          have h2 : sel.scope ∉ n' := fun hm =>
            (List.nodup_append.mp hnd').2.2 _ hm _ (List.mem_cons_self ..) rfl
          have t1 : (nearer ++ sel.scope :: farther).dropWhile (fun s => s ≠ sel.scope) = sel.scope :: farther := by
            rw [List.dropWhile_append_of_pos (by intro a ha; simp; intro hh; exact h1 (hh ▸ ha))]
            simp
          have t2 : (n' ++ sel.scope :: f').dropWhile (fun s => s ≠ sel.scope) = sel.scope :: f' := by
            rw [List.dropWhile_append_of_pos (by intro a ha; simp; intro hh; exact h2 (hh ▸ ha))]
            simp
          rw [hc', t2] at t1
          exact (List.cons.inj t1).2.symm
        subst heq
        exact hne
  · constructor
    · intro hne
      exfalso
      refine hne ?_
      rw [kinds_other h _ _ ?_]
      intro s hs' he
      exact hon ⟨by rw [← he], by rw [← he]; exact hs'⟩
    · rintro ⟨hpkg, n', f', hc', _⟩
      exact absurd ⟨hpkg, by rw [hc']; simp⟩ hon

/-- The sandbox is switched off for a package with a build script. -/
private def exCfg : Raw :=
  { sandbox := { kind := some .bubblewrap }
    packages := [(str! "foo", .mk { sandbox := { kind := some .disabled } } none none none)] }
private def exCfg' : Raw := { exCfg with packages := [(str! "foo", .mk {} none none none)] }
private def exIdx : List IdxPkg := [⟨str! "foo", true, false⟩]

private theorem ex_without : WithoutKind exCfg exCfg' ⟨str! "foo", .all⟩ := by
  refine ⟨by decide, rfl, by decide, ?_, ?_⟩
  · rintro ⟨pkg, s⟩ hs
    by_cases hp : str! "foo" = pkg
    · subst hp
      cases s <;> first | exact absurd rfl hs | rfl
    · cases s <;> simp [setKind, listed, exCfg, exCfg', AMap.get?, hp]
  · intro pkg s
    by_cases hp : str! "foo" = pkg
    · subst hp
      cases s <;> rfl
    · cases s <;> simp [listed, exCfg, exCfg', AMap.get?, hp]

/-- **C158, disagreement.** `[pkg.foo.sandbox] kind = "Disabled"` is said to make no sense, but it is inherited by the build
script of the package: with it, the build script is run without a sandbox. -/
theorem C158_inherited : ¬ C158_Claim := by
  intro h
  have hc : (runKind exCfg' exIdx ⟨⟨str! "foo", str! "1.0.0", true⟩, .buildScript⟩, runKind exCfg exIdx
      ⟨⟨str! "foo", str! "1.0.0", true⟩, .buildScript⟩) = (some .bubblewrap, some .disabled) := by decide
  have := h { cfg := exCfg, idx := { pkgs := exIdx } } ⟨str! "foo", .all⟩ exCfg' (by decide)
    ((C158_told _ (by decide) rfl _).mpr (by decide)) ex_without ⟨⟨str! "foo", str! "1.0.0", true⟩, .buildScript⟩
    ⟨_, List.mem_singleton.mpr rfl, rfl, fun _ => rfl, fun h => by cases h⟩
  rw [Prod.mk.injEq] at hc
  rw [hc.1, hc.2] at this
  cases this

/-! Non-vacuity: with the setting of the example the build script of the package is run in another sandbox. -/
example : runKind exCfg' exIdx ⟨⟨str! "foo", str! "1.0.0", true⟩, .buildScript⟩ ≠
    runKind exCfg exIdx ⟨⟨str! "foo", str! "1.0.0", true⟩, .buildScript⟩ :=
  (C158_effect_partial exCfg exCfg' ⟨str! "foo", .all⟩ (by decide) ex_without (by decide) exIdx _
    ⟨_, List.mem_singleton.mpr rfl, rfl, fun _ => rfl, fun h => by cases h⟩).mpr
    ⟨rfl, [.build, .fromBuild], [], rfl, by decide, by decide⟩

end Cackle.Checker
