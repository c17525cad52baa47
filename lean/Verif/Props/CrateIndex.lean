import Verif.Lemmas.CrateIndex
import Verif.Props.Permissions
import Verif.Props.Attribution
import Verif.Props.Imports

/-!
# C115 to C118: from the packages that cargo reports to what is checked

* C115: every proc macro in the dependency tree has to be allowed.
* C116: whatever is built from a package has the permissions and the sandbox configured for it.
* C117: a file in the directory of a package belongs to that package.
* C118: APIs are imported from the newest version of a package.
-/

namespace Cackle.CrateIndex
open Cackle Config Perm
open Cackle.ApiMap (Api)

/-! ## Specification -/

/-- The package is a proc macro. -/
def IsMacro (p : MPkg) : Prop := ∃ t ∈ p.targets, TargetKind.procMacro ∈ t.kinds

/-- The config has `allow_proc_macro = true` for the package. -/
def MacroAllowed (cfg : Raw) (name : Str) : Prop :=
  ∃ q, listed cfg name .all = some q ∧ q.allowProcMacro = true

/-- What cargo can build from a package: the package itself, its build script, and test programs. Test
programs are built from targets that are tested, and from benchmarks. -/
def CanBuild (p : MPkg) : CrateKind → Prop
  | .primary => True
  | .buildScript => ∃ t ∈ p.targets, TargetKind.customBuild ∈ t.kinds
  | .test => ∃ t ∈ p.targets, t.test = true ∨ TargetKind.bench ∈ t.kinds

/-- The section of the config for what is built. -/
def sectionFor : CrateKind → Scope
  | .primary => .all
  | .buildScript => .build
  | .test => .test

/-- No two packages have the same name and version. -/
def DistinctIds (pkgs : List MPkg) : Prop :=
  ∀ p ∈ pkgs, ∀ q ∈ pkgs, p.name = q.name → p.version = q.version → p = q

/-- No two packages have the same directory. -/
def DistinctDirs (pkgs : List MPkg) : Prop := ∀ p ∈ pkgs, ∀ q ∈ pkgs, p.dir = q.dir → p = q

/-- A checker for these packages, whatever else is in it. -/
structure For (le : Str → Str → Bool) (pkgs : List MPkg) (c : Checker.State) : Prop where
  idx : ∃ deps libs sysroot, c.idx = toIndex (build le pkgs) deps libs sysroot
  cfg : c.cfg.packages.keys.Nodup

theorem For.pkgs_eq {le : Str → Str → Bool} {pkgs : List MPkg} {c : Checker.State} (h : For le pkgs c) :
    c.idx.pkgs = (located pkgs).map (fun e => ⟨e.1.name, hasBuildScript e.1, hasTest e.1⟩) := by
  obtain ⟨a, b, s, he⟩ := h.idx
  rw [he]
  exact build_selectors le pkgs

theorem For.indexed {le : Str → Str → Bool} {pkgs : List MPkg} {c : Checker.State} (h : For le pkgs c) {p : MPkg} {d : PathC}
    (hp : p ∈ pkgs) (hd : p.dir = some d) : ⟨p.name, hasBuildScript p, hasTest p⟩ ∈ c.idx.pkgs := by
  rw [h.pkgs_eq]
  exact List.mem_map.mpr ⟨(p, d), mem_located.mpr ⟨hp, hd⟩, rfl⟩

/-! ## C115 -/

/-- The full claim. -/
def C115_Claim : Prop :=
  ∀ (le : Str → Str → Bool) (pkgs : List MPkg) (c : Checker.State), For le pkgs c →
    ∀ p ∈ pkgs, p.dir.isSome = true → IsMacro p → ¬ MacroAllowed c.cfg p.name →
      .isProcMacro (pkgId pkgs p) ∈ Checker.baseProblems c

/-- Two packages with the same name and version: a proc macro from one source and a library from another. -/
def twins : List MPkg :=
  [{ name := str! "m", version := str! "1.0.0", targets := [⟨[.procMacro], true⟩], dir := some [str! "registry"] },
   { name := str! "m", version := str! "1.0.0", targets := [⟨[.lib], true⟩], dir := some [str! "git"] }]

/-- The claim is false: of two packages with the same name and version but different sources only one is in
the table of packages, so a proc macro is not reported. -/
theorem C115_same_version_unreported : ¬ C115_Claim := by
  intro h
  have := h (fun _ _ => true) twins
    { idx := toIndex (build (fun _ _ => true) twins) [] [] [] } ⟨⟨[], [], [], rfl⟩, by simp [AMap.keys]⟩
    { name := str! "m", version := str! "1.0.0", targets := [⟨[.procMacro], true⟩], dir := some [str! "registry"] }
    (by simp [twins]) rfl ⟨_, List.mem_singleton.mpr rfl, List.mem_singleton.mpr rfl⟩
    (by rintro ⟨q, hq, _⟩; simp [listed, AMap.get?] at hq)
  have hp : procMacros (build (fun _ _ => true) twins) = [] := by
    simp only [procMacros, build_infos]
    decide
  simp [Checker.baseProblems, toIndex, hp] at this

/-- **C115**, if no two packages have the same name and version: the problems found when the config is
loaded are exactly the proc macros that the config does not allow. -/
theorem C115_proc_macros_partial (le : Str → Str → Bool) (pkgs : List MPkg) (hu : DistinctIds pkgs) (c : Checker.State)
    (h : For le pkgs c) (x : PkgId) :
    .isProcMacro x ∈ Checker.baseProblems c ↔
      ∃ p ∈ pkgs, p.dir.isSome = true ∧ IsMacro p ∧ ¬ MacroAllowed c.cfg p.name ∧ x = pkgId pkgs p := by
  have hperm : ∀ p ∈ pkgs, p.dir.isSome = true →
      ((c.permissions.get? ⟨p.name, .all⟩).any (fun q => q.perms.allowProcMacro) = true ↔ MacroAllowed c.cfg p.name) := by
    intro p hp hd
    obtain ⟨d, hd⟩ := Option.isSome_iff_exists.mp hd
    obtain ⟨q, hq, _, _, _, _, hm⟩ := C03_inheritance c.cfg h.cfg c.idx.pkgs p.name ⟨_, h.indexed hp hd, rfl⟩ .all trivial
    rw [Checker.State.permissions, hq]
    simpa [MacroAllowed, chain] using hm
  have hmac : ∀ x, x ∈ c.idx.procMacros ↔ ∃ p ∈ pkgs, p.dir.isSome = true ∧ IsMacro p ∧ x = pkgId pkgs p := by
    intro x
    obtain ⟨a, b, s, he⟩ := h.idx
    rw [he, show (toIndex (build le pkgs) a b s).procMacros = procMacros (build le pkgs) from rfl, mem_procMacros]
    rw [build_infos]
    constructor
    · rintro ⟨d, hg⟩
      obtain ⟨⟨p, d'⟩, hm, hk, hv⟩ := get_fold_some (val := fun e : MPkg × PathC => (⟨e.2, isProcMacro e.1⟩ : Info)) hg
      obtain ⟨hp, hd⟩ := mem_located.mp hm
      simp only [Info.mk.injEq] at hv
      exact ⟨p, hp, by simp [hd], (isProcMacro_iff p).mp hv.2, hk.symm⟩
    · rintro ⟨p, hp, hd, hm, rfl⟩
      obtain ⟨d, hd⟩ := Option.isSome_iff_exists.mp hd
      refine ⟨d, ?_⟩
      have := get_fold_of_mem (key := fun e : MPkg × PathC => pkgId pkgs e.1)
        (val := fun e : MPkg × PathC => (⟨e.2, isProcMacro e.1⟩ : Info)) (l := located pkgs) (a := (p, d))
        (by
          rintro ⟨q, d'⟩ hq hk
          obtain ⟨hq, hd'⟩ := mem_located.mp hq
          obtain ⟨h1, h2⟩ := pkgId_eq hk
          have he := hu q hq p hp h1 h2
          subst he
          rw [hd] at hd'
          cases hd'
          rfl)
        (mem_located.mpr ⟨hp, hd⟩) []
      rw [this, (isProcMacro_iff p).mpr hm]
  simp only [Checker.baseProblems, List.mem_map, List.mem_filter]
  constructor
  · rintro ⟨y, ⟨hy, hn⟩, he⟩
    cases he
    obtain ⟨p, hp, hd, hm, rfl⟩ := (hmac _).mp hy
    refine ⟨p, hp, hd, hm, ?_, rfl⟩
    intro ha
    rw [pkgId_name, (hperm p hp hd).mpr ha] at hn
    simp at hn
  · rintro ⟨p, hp, hd, hm, ha, rfl⟩
    refine ⟨_, ⟨(hmac _).mpr ⟨p, hp, hd, hm, rfl⟩, ?_⟩, rfl⟩
    rw [pkgId_name]
    cases hx : (c.permissions.get? ⟨p.name, .all⟩).any (fun q => q.perms.allowProcMacro)
    · rfl
    · exact absurd ((hperm p hp hd).mp hx) ha

/-- A proc macro and a library. -/
def exPkgs : List MPkg :=
  [{ name := str! "m", version := str! "1.0.0", targets := [⟨[.procMacro], true⟩, ⟨[.customBuild], false⟩], dir := some [str! "m"] },
   { name := str! "a", version := str! "1.2.0", targets := [⟨[.lib], true⟩], dir := some [str! "a"] },
   { name := str! "a", version := str! "1.1.0", targets := [⟨[.lib], true⟩], dir := some [str! "a", str! "old"] }]

def exState : Checker.State := { idx := toIndex (build (fun _ _ => true) exPkgs) [] [] [str! "sys"] }

theorem exFor : For (fun _ _ => true) exPkgs exState := ⟨⟨[], [], [str! "sys"], rfl⟩, by simp [exState, AMap.keys]⟩

theorem exDistinct : DistinctIds exPkgs := by
  intro p hp q hq h1 h2
  simp only [exPkgs, List.mem_cons, List.not_mem_nil, or_false] at hp hq
  rcases hp with rfl | rfl | rfl <;> rcases hq with rfl | rfl | rfl <;> first | rfl | (exfalso; revert h1 h2; decide)

example : .isProcMacro ⟨str! "m", str! "1.0.0", true⟩ ∈ Checker.baseProblems exState :=
  (C115_proc_macros_partial _ exPkgs exDistinct exState exFor _).mpr
    ⟨_, List.mem_cons_self .., rfl, ⟨_, List.mem_cons_self .., List.mem_singleton.mpr rfl⟩,
      by rintro ⟨q, hq, _⟩; simp [exState, listed, AMap.get?] at hq, by decide⟩

/-! ## C116 -/

/-- The full claim: unsafe code is permitted, and the sandbox and its network chosen, as the config says. -/
def C116_Claim : Prop :=
  ∀ (le : Str → Str → Bool) (pkgs : List MPkg) (c : Checker.State), For le pkgs c →
    ∀ p ∈ pkgs, p.dir.isSome = true → ∀ kind, CanBuild p kind →
      (unsafePermitted c.permissions ⟨pkgId pkgs p, kind⟩ = true ↔
        ∃ s ∈ chain (sectionFor kind), ∃ q, listed c.cfg p.name s = some q ∧ q.allowUnsafe = true) ∧
      (sandboxFor c.permissions (forNonBuildOutput ⟨pkgId pkgs p, kind⟩)).kind =
        nearest c.cfg p.name Sandbox.kind (sectionFor kind) ∧
      (sandboxFor c.permissions (forNonBuildOutput ⟨pkgId pkgs p, kind⟩)).allowNetwork =
        nearest c.cfg p.name Sandbox.allowNetwork (sectionFor kind)

/-- A package that has benchmarks only, and a config that asks for a sandbox. -/
def benches : List MPkg :=
  [{ name := str! "b", version := str! "0.1.0", targets := [⟨[.bench], false⟩], dir := some [str! "b"] }]

/-- The claim is false: a benchmark is built like a test, but benchmarks are not counted as tests, so the
sandbox configured for everything is not applied to it. -/
theorem C116_bench_without_sandbox : ¬ C116_Claim := by
  intro h
  have := (h (fun _ _ => true) benches
    { cfg := { sandbox := { kind := some .bubblewrap } }, idx := toIndex (build (fun _ _ => true) benches) [] [] [] }
    ⟨⟨[], [], [], rfl⟩, by simp [AMap.keys]⟩ _ (List.mem_singleton.mpr rfl) rfl .test
    ⟨_, List.mem_singleton.mpr rfl, .inr (List.mem_singleton.mpr rfl)⟩).2.1
  have hs : (build (fun _ _ => true) benches).selectors = [⟨str! "b", false, false⟩] := by
    rw [build_selectors]; rfl
  simp only [Checker.State.permissions, toIndex, hs] at this
  revert this
  decide

/-- **C116** for everything except benchmarks of packages without tests: the permission to use unsafe code,
the kind of the sandbox and its network access are what the config says for the package, whichever package
cargo reports and whatever is built from it. -/
theorem C116_permissions_partial (le : Str → Str → Bool) (pkgs : List MPkg) (c : Checker.State) (h : For le pkgs c)
    (p : MPkg) (hp : p ∈ pkgs) (hd : p.dir.isSome = true) (kind : CrateKind) (hb : CanBuild p kind)
    (ht : kind = .test → ∃ q ∈ pkgs, q.name = p.name ∧ q.dir.isSome = true ∧ ∃ t ∈ q.targets, t.test = true) :
    (unsafePermitted c.permissions ⟨pkgId pkgs p, kind⟩ = true ↔
      ∃ s ∈ chain (sectionFor kind), ∃ q, listed c.cfg p.name s = some q ∧ q.allowUnsafe = true) ∧
    (sandboxFor c.permissions (forNonBuildOutput ⟨pkgId pkgs p, kind⟩)).kind =
      nearest c.cfg p.name Sandbox.kind (sectionFor kind) ∧
    (sandboxFor c.permissions (forNonBuildOutput ⟨pkgId pkgs p, kind⟩)).allowNetwork =
      nearest c.cfg p.name Sandbox.allowNetwork (sectionFor kind) := by
  obtain ⟨d, hd⟩ := Option.isSome_iff_exists.mp hd
  have hi : Indexed c.idx.pkgs p.name := ⟨_, h.indexed hp hd, rfl⟩
  have hs : forNonBuildOutput ⟨pkgId pkgs p, kind⟩ = ⟨p.name, sectionFor kind⟩ := by cases kind <;> rfl
  have he : Exists c.cfg c.idx.pkgs p.name (sectionFor kind) := by
    cases kind with
    | primary => trivial
    | buildScript => exact .inr ⟨_, h.indexed hp hd, rfl, (hasBuildScript_iff p).mpr hb⟩
    | test =>
      obtain ⟨q, hq, hn, hqd, hqt⟩ := ht rfl
      obtain ⟨d', hqd⟩ := Option.isSome_iff_exists.mp hqd
      exact .inr ⟨_, h.indexed hq hqd, hn, (hasTest_iff q).mpr hqt⟩
  obtain ⟨e, hg, _, _, hu, _, _⟩ := C03_inheritance c.cfg h.cfg c.idx.pkgs p.name hi (sectionFor kind) he
  have h4 := C04_sandbox_partial c.cfg h.cfg c.idx.pkgs p.name hi (sectionFor kind) he
  simp only [Checker.State.permissions]
  refine ⟨?_, ?_, ?_⟩
  · rw [unsafePermitted, hs, hg]
    simpa using hu
  · rw [hs]; exact h4.1
  · rw [hs]; exact h4.2.1

-- the build script of the proc macro of the example
example : (sandboxFor { exState with cfg := { sandbox := { kind := some .bubblewrap } } }.permissions
    ⟨str! "m", .build⟩).kind = some .bubblewrap :=
  (C116_permissions_partial (fun _ _ => true) exPkgs
    { exState with cfg := { sandbox := { kind := some .bubblewrap } } } ⟨⟨[], [], [str! "sys"], rfl⟩, by simp [AMap.keys]⟩
    _ (List.mem_cons_self ..) rfl .buildScript
    ⟨_, List.mem_cons_of_mem _ (List.mem_singleton.mpr rfl), List.mem_singleton.mpr rfl⟩ (by intro h; cases h)).2.1

/-! ## C117 -/

/-- **C117.** After any sequence of requests and reloads of the config: a path that no compilation listed
and that is not in the standard library belongs to the package in whose directory it is, even if that
directory is inside the directory of another package. Directories are absolute, and no two packages share
one. -/
theorem C117_owner (P : Checker.Parts) (le : Str → Str → Bool) (pkgs : List MPkg) (hu : DistinctDirs pkgs)
    (c : Checker.State) (h : For le pkgs c) (hc : c.paths = []) (hne : ∀ p ∈ pkgs, p.dir ≠ some [])
    (events : List Checker.Event) (path : PathC) (hl : ∀ pkg, ¬ Checker.Listed events pkg path)
    (hstd : ¬ Checker.InStd c.idx.sysroot path) :
    (∀ p ∈ pkgs, ∀ d, p.dir = some d → d <+: path →
      (∀ q ∈ pkgs, ∀ d', q.dir = some d' → d' <+: path → d'.length ≤ d.length) →
      Checker.pkgIdsFromPath (events.foldl (Checker.Event.apply P) c) path = some [pkgId pkgs p]) ∧
    ((∀ p ∈ pkgs, ∀ d, p.dir = some d → ¬ d <+: path) →
      Checker.pkgIdsFromPath (events.foldl (Checker.Event.apply P) c) path = none) := by
  have hdirs : c.idx.dirs = (build le pkgs).dirs := by
    obtain ⟨a, b, s, he⟩ := h.idx
    rw [he]; rfl
  have hkey : ∀ d, d ∈ c.idx.dirs.keys → ∃ p ∈ pkgs, p.dir = some d := by
    intro d hk
    rw [hdirs, build_dirs] at hk
    obtain ⟨⟨d', v⟩, hm, hd'⟩ := List.mem_map.mp hk
    simp only at hd'
    subst hd'
    have hg := AMap.get?_of_mem (nodup_fold (fun e : MPkg × PathC => e.2) (fun e => pkgId pkgs e.1) (located pkgs)
      (m := []) (by simp [AMap.keys])) hm
    obtain ⟨⟨p, d''⟩, hp, hk', _⟩ := get_fold_some hg
    simp only at hk'
    subst hk'
    exact ⟨p, (mem_located.mp hp).1, (mem_located.mp hp).2⟩
  have hget : ∀ p ∈ pkgs, ∀ d, p.dir = some d → c.idx.dirs.get? d = some (pkgId pkgs p) := by
    intro p hp d hd
    rw [hdirs, build_dirs]
    exact get_fold_of_mem (key := fun e : MPkg × PathC => e.2) (val := fun e => pkgId pkgs e.1) (a := (p, d))
      (by
        rintro ⟨q, d'⟩ hq hk
        obtain ⟨hq, hd'⟩ := mem_located.mp hq
        simp only at hk
        subst hk
        rw [hu q hq p hp (by rw [hd', hd])])
      (mem_located.mpr ⟨hp, hd⟩) []
  have hroot : [] ∉ c.idx.dirs.keys := by
    intro hk
    obtain ⟨p, hp, hd⟩ := hkey [] hk
    exact hne p hp hd
  obtain ⟨_, _, h33⟩ := Checker.C33_owner P c hc hroot events path
  obtain ⟨h1, h2⟩ := h33 hl hstd
  refine ⟨?_, ?_⟩
  · intro p hp d hd hpre hmax
    refine h1 d _ ⟨hpre, ?_, ?_⟩ (hget p hp d hd)
    · exact List.mem_map.mpr ⟨_, AMap.mem_of_get? (hget p hp d hd), rfl⟩
    · intro d' hpre' hk
      obtain ⟨q, hq, hd'⟩ := hkey d' hk
      exact hmax q hq d' hd' hpre'
  · intro hno
    refine h2 ?_
    intro d hpre hk
    obtain ⟨p, hp, hd⟩ := hkey d hk
    exact hno p hp d hd hpre

-- a C file of the older version, whose directory is inside that of the newer one
example (P : Checker.Parts) : Checker.pkgIdsFromPath exState [str! "a", str! "old", str! "x.c"] =
    some [⟨str! "a", str! "1.1.0", false⟩] := by
  have hu : DistinctDirs exPkgs := by
    intro p hp q hq h1
    simp only [exPkgs, List.mem_cons, List.not_mem_nil, or_false] at hp hq
    rcases hp with rfl | rfl | rfl <;> rcases hq with rfl | rfl | rfl <;> first | rfl | (exfalso; revert h1; decide)
  have := (C117_owner P _ exPkgs hu exState exFor rfl
    (by
      intro p hp
      simp only [exPkgs, List.mem_cons, List.not_mem_nil, or_false] at hp
      rcases hp with rfl | rfl | rfl <;> decide)
    [] [str! "a", str! "old", str! "x.c"]
    (by rintro pkg ⟨_, _, _, hm, _⟩; cases hm)
    (by
      rw [← Checker.isInRustStd_iff]
      decide +kernel)).1
    _ (List.mem_cons_of_mem _ (List.mem_cons_of_mem _ (List.mem_singleton.mpr rfl))) _ rfl (by decide)
    (by
      intro q hq d hd _
      simp only [exPkgs, List.mem_cons, List.not_mem_nil, or_false] at hq
      rcases hq with rfl | rfl | rfl <;> cases hd <;> decide)
  exact this

/-! ## C118 -/

/-- `q` is a newest package called `n`. -/
def Newest (le : Str → Str → Bool) (pkgs : List MPkg) (n : Str) (q : MPkg) : Prop :=
  q ∈ pkgs ∧ q.name = n ∧ q.dir.isSome = true ∧
    ∀ r ∈ pkgs, r.name = n → r.dir.isSome = true → le r.version q.version = true

theorem mem_byName {le : Str → Str → Bool} {pkgs : List MPkg} {n : Str} {x : PkgId} :
    x ∈ ((build le pkgs).byName.get? n).getD [] ↔
      ∃ p ∈ pkgs, p.name = n ∧ p.dir.isSome = true ∧ x = pkgId pkgs p := by
  rw [build_byName, List.mem_mergeSort]
  simp only [List.mem_map, List.mem_filter]
  constructor
  · rintro ⟨⟨p, d⟩, ⟨hm, hn⟩, rfl⟩
    obtain ⟨hp, hd⟩ := mem_located.mp hm
    exact ⟨p, hp, by simpa using hn, by simp [hd], rfl⟩
  · rintro ⟨p, hp, hn, hd, rfl⟩
    obtain ⟨d, hd⟩ := Option.isSome_iff_exists.mp hd
    exact ⟨(p, d), ⟨mem_located.mpr ⟨hp, hd⟩, by simpa using hn⟩, rfl⟩

theorem newest_eq (x : Idx) (n : Str) : newest x n = ((x.byName.get? n).getD []).getLast? := by
  unfold newest
  cases x.byName.get? n <;> simp

/-- **C118.** For every name, if versions are totally ordered: the exported APIs are read from the directory
of a newest package of that name, and there are none if no package has the name. -/
theorem C118_newest (le : Str → Str → Bool) (htr : ∀ a b c, le a b = true → le b c = true → le a c = true)
    (htot : ∀ a b, (le a b || le b a) = true) (pkgs : List MPkg)
    (read : PathC → Option (AMap Api ApiCfg)) (n : Str) :
    (∃ q d, Newest le pkgs n q ∧ q.dir = some d ∧ exportsOf (build le pkgs) read n = read d) ∨
    ((¬ ∃ p ∈ pkgs, p.name = n ∧ p.dir.isSome = true) ∧ exportsOf (build le pkgs) read n = none) := by
  cases hn : newest (build le pkgs) n with
  | none =>
    right
    refine ⟨?_, by simp [exportsOf, hn]⟩
    rintro ⟨p, hp, hpn, hd⟩
    rw [newest_eq, List.getLast?_eq_none_iff] at hn
    have := mem_byName (le := le).mpr ⟨p, hp, hpn, hd, rfl⟩
    rw [hn] at this
    cases this
  | some x =>
    left
    rw [newest_eq] at hn
    obtain ⟨q, hq, hqn, hqd, rfl⟩ := mem_byName.mp (List.mem_of_getLast? hn)
    obtain ⟨d, hd⟩ := Option.isSome_iff_exists.mp hqd
    have hmax : ∀ r ∈ pkgs, r.name = n → r.dir.isSome = true → le r.version q.version = true := by
      intro r hr hrn hrd
      have hm := mem_byName (le := le).mpr ⟨r, hr, hrn, hrd, rfl⟩
      have hs : ((((build le pkgs).byName.get? n).getD [])).Pairwise (fun a b => le a.version b.version = true) := by
        rw [build_byName]
        exact List.pairwise_mergeSort (fun a b c => htr a.version b.version c.version) (fun a b => htot a.version b.version) _
      rcases last_max hs hn _ hm with he | he
      · have := (pkgId_eq he).2
        rw [this]
        simpa using htot q.version q.version
      · exact he
    have hsome : ∃ i, (build le pkgs).infos.get? (pkgId pkgs q) = some i := by
      rw [build_infos, get_fold (fun e : MPkg × PathC => pkgId pkgs e.1)]
      cases hl : ((located pkgs).filter (fun e => pkgId pkgs e.1 = pkgId pkgs q)).getLast? with
      | none =>
        rw [List.getLast?_eq_none_iff, List.filter_eq_nil_iff] at hl
        exact absurd (decide_eq_true rfl) (hl (q, d) (mem_located.mpr ⟨hq, hd⟩))
      | some b => exact ⟨_, rfl⟩
    obtain ⟨i, hi⟩ := hsome
    have hi' := hi
    rw [build_infos] at hi'
    obtain ⟨⟨q', d'⟩, hm, hk, hv⟩ := get_fold_some hi'
    obtain ⟨hq', hd'⟩ := mem_located.mp hm
    obtain ⟨h1, h2⟩ := pkgId_eq hk
    refine ⟨q', d', ⟨hq', h1.trans hqn, by simp [hd'], ?_⟩, hd', ?_⟩
    · intro r hr hrn hrd
      rw [h2]
      exact hmax r hr hrn hrd
    · simp [exportsOf, newest_eq, hn, pkgDir, hi, ← hv]

/-- A comparison of versions for the example. -/
def exLe (a b : Str) : Bool := decide (a.foldl (fun n c => n * 256 + c.toNat) 0 ≤ b.foldl (fun n c => n * 256 + c.toNat) 0)

-- the newer of the two versions of `a` is not the last one in the list
example (read : PathC → Option (AMap Api ApiCfg)) :
    exportsOf (build exLe exPkgs) read (str! "a") = read [str! "a"] := by
  rcases C118_newest exLe (by simp only [exLe, decide_eq_true_eq]; omega)
    (by simp only [exLe, Bool.or_eq_true, decide_eq_true_eq]; omega) exPkgs read (str! "a") with
    ⟨q, d, ⟨hq, hn, _, hmax⟩, hd, he⟩ | ⟨hno, _⟩
  · rw [he]
    have := hmax _ (List.mem_cons_of_mem _ (List.mem_cons_self ..)) rfl rfl
    simp only [exPkgs, List.mem_cons, List.not_mem_nil, or_false] at hq
    rcases hq with rfl | rfl | rfl
    · exact absurd hn (by decide)
    · cases hd; rfl
    · exact absurd this (by decide)
  · exact absurd ⟨_, List.mem_cons_of_mem _ (List.mem_cons_self ..), rfl, rfl⟩ hno

end Cackle.CrateIndex
