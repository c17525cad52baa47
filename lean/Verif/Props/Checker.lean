import Verif.Lemmas.Checker
import Verif.Props.StoreSpec

/-!
# C06, C07, C09: what the checker reports

The history of a checker is the list of configurations loaded and of API usages examined, latest
first. The specification is stated with `listed` and `chain` (what is written in the config file, and
the documented inheritance tree) from `Props/Permissions.lean`.
-/

namespace Cackle.Checker
open Cackle Config Perm
open Cackle.ApiMap (Api)

/-- What happened to a checker. -/
inductive CEv where
  | loaded (cfg : Raw)
  | used (au : ApiUsages)

/-- All states of a checker and their histories (latest first): configurations are loaded, API usages
are examined, and source paths and linker invocations are recorded. Config tables have distinct keys
(they are maps). -/
inductive CRun (idx : Index) : State → List CEv → Prop where
  | init : CRun idx { idx := idx } []
  | load {c : State} {tr : List CEv} (cfg : Raw) (hn : cfg.packages.keys.Nodup) :
      CRun idx c tr → CRun idx (updateConfig c cfg) (.loaded cfg :: tr)
  | use {c c' : State} {tr : List CEv} (au : ApiUsages) (ps : List Problem) :
      CRun idx c tr → apiUsed c au = some (c', ps) → CRun idx c' (.used au :: tr)
  | other {c : State} {tr : List CEv} (paths : AMap PathC (List PkgId)) (out : List LinkInfo) :
      CRun idx c tr → CRun idx { c with paths := paths, outstanding := out } tr

/-- The config file grants the API to the package at the scope: it is listed at the selector or at
one it inherits from. -/
def Grants (cfg : Raw) (pkg : Str) (s : Scope) (a : Api) : Prop :=
  ∃ s' ∈ chain s, ∃ p, listed cfg pkg s' = some p ∧ a ∈ p.allowApis

/-- The selector is known to the crate index: the package is, and it has a build script / tests if the
selector is for these. -/
def Known (idx : Index) (pkg : Str) (s : Scope) : Prop :=
  ∃ p ∈ idx.pkgs, p.name = pkg ∧ (s = .build → p.hasBuildScript = true) ∧
    (s = .test → p.hasTest = true)

theorem Known.indexed {idx : Index} {pkg : Str} {s : Scope} (h : Known idx pkg s) :
    Indexed idx.pkgs pkg := by
  obtain ⟨p, hp, h1, _⟩ := h
  exact ⟨p, hp, h1⟩

theorem Known.exists_ {idx : Index} {pkg : Str} {s : Scope} (h : Known idx pkg s) (cfg : Raw) :
    Exists cfg idx.pkgs pkg s := by
  obtain ⟨p, hp, h1, h2, h3⟩ := h
  cases s with
  | build => exact .inr ⟨p, hp, h1, h2 rfl⟩
  | test => exact .inr ⟨p, hp, h1, h3 rfl⟩
  | all | fromBuild | fromTest => trivial

theorem known_iff_mem (idx : Index) (pkg : Str) (s : Scope) :
    Known idx pkg s ↔ (⟨pkg, s⟩ : PermSel) ∈ indexSelectors idx.pkgs := by
  cases s with
  | build =>
    rw [mem_indexSelectors_build]; simp [Known]
  | test =>
    rw [mem_indexSelectors_test]; simp [Known]
  | all | fromBuild | fromTest =>
    constructor
    · intro h
      exact mem_indexSelectors_always _ _ h.indexed _ (by simp)
    · intro h
      simp only [indexSelectors, List.mem_flatMap] at h
      obtain ⟨p, hp, h⟩ := h
      refine ⟨p, hp, ?_, by simp, by simp⟩
      simp only [selectorsOf] at h
      cases hb : p.hasBuildScript <;> cases ht : p.hasTest <;> simp [hb, ht] at h <;> exact h.symm

theorem eff_iff_grants {idx : Index} {cfg : Raw} (hn : cfg.packages.keys.Nodup) {pkg : Str} {s : Scope}
    (hk : Known idx pkg s) (a : Api) : Eff idx.pkgs cfg ⟨pkg, s⟩ a ↔ Grants cfg pkg s a := by
  obtain ⟨c, hc, h1, _⟩ := C03_inheritance cfg hn idx.pkgs pkg hk.indexed s (hk.exists_ cfg)
  unfold Eff Grants
  rw [hc]
  simp only [Option.some.injEq, exists_eq_left']
  exact h1 a

theorem run_idx {idx : Index} {c : State} {tr : List CEv} (h : CRun idx c tr) : c.idx = idx := by
  induction h with
  | init => rfl
  | load cfg hn h ih => exact ih
  | use au ps h hu ih =>
    rcases apiUsed_spec hu with ⟨_, _, rfl⟩ | ⟨_, rfl⟩ <;> exact ih
  | other => assumption

theorem run_nodup {idx : Index} {c : State} {tr : List CEv} (h : CRun idx c tr) (cfg : Raw)
    (hm : CEv.loaded cfg ∈ tr) : cfg.packages.keys.Nodup := by
  induction h with
  | init => simp at hm
  | load cfg' hn h ih =>
    rcases List.mem_cons.mp hm with hm | hm
    · cases hm; exact hn
    · exact ih hm
  | use au ps h hu ih =>
    rcases List.mem_cons.mp hm with hm | hm
    · cases hm
    · exact ih hm
  | other _ _ _ ih => exact ih hm

theorem run_allowed {idx : Index} {c : State} {tr : List CEv} (h : CRun idx c tr) (sel : PermSel)
    (a : Api) : Allowed c sel a ↔ ∃ cfg, CEv.loaded cfg ∈ tr ∧ Eff idx.pkgs cfg sel a := by
  induction h with
  | init => simp [Allowed]
  | load cfg hn h ih =>
    rw [updateConfig_allowed hn, ih, run_idx h]
    constructor
    · rintro (⟨cfg', h1, h2⟩ | h1)
      · exact ⟨cfg', List.mem_cons_of_mem _ h1, h2⟩
      · exact ⟨cfg, List.mem_cons_self .., h1⟩
    · rintro ⟨cfg', h1, h2⟩
      rcases List.mem_cons.mp h1 with h1 | h1
      · cases h1; exact .inr h2
      · exact .inl ⟨cfg', h1, h2⟩
  | use au ps h hu ih =>
    rw [apiUsed_allowed hu, ih]
    simp
  | other _ _ _ ih => exact ih

/-! ## C06 -/

/-- The usage refers to a name provided by a package that is not a dependency (`deps` are the crate
names of the transitive dependencies). -/
def OffTree (c : State) (deps : List Str) (u : ApiUsage) (pkg : PkgId) : Prop :=
  ∃ first, u.toName.head? = some first ∧ first ∉ deps ∧ c.idx.libs.get? first = some pkg

/-- The function containing the usage was defined in a source file of the package whose crate name the
used name starts with. -/
def Excused (c : State) (u : ApiUsage) : Prop :=
  ∃ loc, u.outer = some loc ∧ ∃ owners, pkgIdsFromPath c (pathOf loc.file) = some owners ∧
    ∃ id ∈ owners, u.toName.head? = some (crateName id)

/-- The function containing the usage is in a source file that belongs to no known package. -/
def UnknownOwner (c : State) (u : ApiUsage) : Prop :=
  ∃ loc, u.outer = some loc ∧ pkgIdsFromPath c (pathOf loc.file) = none

theorem toNameFromOuter_spec (c : State) (u : ApiUsage) :
    (toNameFromOuter c u = none ↔ UnknownOwner c u) ∧
    (toNameFromOuter c u = some true ↔ Excused c u) := by
  unfold toNameFromOuter UnknownOwner Excused
  cases h : u.outer with
  | none => simp
  | some loc =>
    cases h2 : pkgIdsFromPath c (pathOf loc.file) with
    | none => simp [h2]
    | some ids => simp [h2]

theorem classify_spec (c : State) (deps : List Str) (u : ApiUsage) :
    (classify c deps u = none ↔ (∃ pkg, OffTree c deps u pkg) ∧ UnknownOwner c u) ∧
    (classify c deps u = some .onTree ↔ ∀ pkg, ¬ OffTree c deps u pkg) ∧
    (classify c deps u = some .ignored ↔ (∃ pkg, OffTree c deps u pkg) ∧ Excused c u) ∧
    (∀ pkg, classify c deps u = some (.offTree pkg) ↔
      OffTree c deps u pkg ∧ ¬ Excused c u ∧ ¬ UnknownOwner c u) := by
  have hs := toNameFromOuter_spec c u
  unfold classify OffTree
  cases h : u.toName.head? with
  | none => simp
  | some first =>
    by_cases hd : first ∈ deps
    · simp [hd]
    · cases hl : c.idx.libs.get? first with
      | none => simp [hd, hl]
      | some pkg =>
        cases ht : toNameFromOuter c u with
        | none =>
          have h1 : UnknownOwner c u := hs.1.mp ht
          have h2 : ¬ Excused c u := fun e => by rw [hs.2.mpr e] at ht; cases ht
          simp [hd, hl, h1, h2]
        | some b =>
          have h1 : ¬ UnknownOwner c u := fun e => by rw [hs.1.mpr e] at ht; cases ht
          cases b with
          | true =>
            have h2 : Excused c u := hs.2.mp ht
            simp [hd, hl, h1, h2]
          | false =>
            have h2 : ¬ Excused c u := fun e => by rw [hs.2.mpr e] at ht; cases ht
            simp [hd, hl, h1, h2]

theorem pushOff_perm (off : AMap PkgId (List ApiUsage)) (pkg : PkgId) (u : ApiUsage) :
    ((pushOff off pkg u).flatMap Prod.snd).Perm (off.flatMap Prod.snd ++ [u]) := by
  unfold pushOff
  induction off with
  | nil => simp [AMap.insert]
  | cons e rest ih =>
    obtain ⟨k, us⟩ := e
    by_cases h : k = pkg
    · subst h
      simp only [AMap.insert, AMap.get?, if_true, List.flatMap_cons, Option.getD_some,
        List.append_assoc]
      exact List.Perm.append_left us (List.perm_append_comm)
    · simp only [AMap.insert, AMap.get?, h, if_false, List.flatMap_cons, List.append_assoc]
      exact List.Perm.append_left us ih

theorem mem_insert {K V : Type} [DecidableEq K] {m : AMap K V} {q : K} {w : V} {e : K × V}
    (h : e ∈ AMap.insert m q w) : e = (q, w) ∨ e ∈ m := by
  induction m with
  | nil => simp [AMap.insert] at h; exact .inl h
  | cons x rest ih =>
    obtain ⟨k, v⟩ := x
    by_cases hk : k = q
    · subst hk
      simp only [AMap.insert, if_true, List.mem_cons] at h
      rcases h with h | h
      · exact .inl h
      · exact .inr (List.mem_cons_of_mem _ h)
    · simp only [AMap.insert, hk, if_false, List.mem_cons] at h
      rcases h with h | h
      · exact .inr (by simp [h])
      · rcases ih h with h | h
        · exact .inl h
        · exact .inr (List.mem_cons_of_mem _ h)

/-- The step of `partition`. -/
def pstep (c : State) (deps : List Str) (acc : List ApiUsage × AMap PkgId (List ApiUsage))
    (u : ApiUsage) : Option (List ApiUsage × AMap PkgId (List ApiUsage)) := do
  match ← classify c deps u with
  | .onTree => pure (acc.1 ++ [u], acc.2)
  | .offTree pkg => pure (acc.1, pushOff acc.2 pkg u)
  | .ignored => pure acc

open Classical in
theorem partition_aux (c : State) (deps : List Str) (us : List ApiUsage)
    (acc r : List ApiUsage × AMap PkgId (List ApiUsage))
    (h : us.foldlM (pstep c deps) acc = some r)
    (hon : ∀ u ∈ acc.1, classify c deps u = some .onTree)
    (hoff : ∀ e ∈ acc.2, e.2 ≠ [] ∧ ∀ u ∈ e.2, classify c deps u = some (.offTree e.1))
    (hn : acc.2.keys.Nodup) :
    (∀ u ∈ r.1, classify c deps u = some .onTree) ∧
    (∀ e ∈ r.2, e.2 ≠ [] ∧ ∀ u ∈ e.2, classify c deps u = some (.offTree e.1)) ∧
    r.2.keys.Nodup ∧
    (r.2.flatMap Prod.snd ++ r.1).Perm
      (acc.2.flatMap Prod.snd ++ acc.1 ++ us.filter (fun u => classify c deps u ≠ some .ignored)) := by
  induction us generalizing acc with
  | nil =>
    simp only [List.foldlM_nil, Option.pure_def, Option.some.injEq] at h
    subst h
    exact ⟨hon, hoff, hn, by simp⟩
  | cons u rest ih =>
    rw [List.foldlM_cons] at h
    simp only [Option.bind_eq_bind, Option.bind_eq_some_iff] at h
    obtain ⟨acc', h1, h2⟩ := h
    unfold pstep at h1
    simp only [Option.bind_eq_bind, Option.bind_eq_some_iff] at h1
    obtain ⟨cl, hcl, h3⟩ := h1
    cases cl with
    | onTree =>
      simp only [Option.pure_def, Option.some.injEq] at h3
      subst h3
      obtain ⟨g1, g2, g3, g4⟩ := ih _ h2 (by
        intro x hx
        rcases List.mem_append.mp hx with hx | hx
        · exact hon x hx
        · simp only [List.mem_singleton] at hx; subst hx; exact hcl) hoff hn
      refine ⟨g1, g2, g3, g4.trans ?_⟩
      rw [List.filter_cons_of_pos (by simp [hcl])]
      simp
    | offTree pkg =>
      simp only [Option.pure_def, Option.some.injEq] at h3
      subst h3
      obtain ⟨g1, g2, g3, g4⟩ := ih _ h2 hon (by
        intro e he
        rcases mem_insert he with rfl | he
        · refine ⟨by simp, ?_⟩
          intro x hx
          rcases List.mem_append.mp hx with hx | hx
          · cases hg : acc.2.get? pkg with
            | none => rw [hg] at hx; simp at hx
            | some us' =>
              rw [hg] at hx
              exact (hoff _ (AMap.mem_of_get? hg)).2 x hx
          · simp only [List.mem_singleton] at hx; subst hx; exact hcl
        · exact hoff e he) (AMap.nodup_insert _ _ _ hn)
      refine ⟨g1, g2, g3, g4.trans ?_⟩
      rw [List.filter_cons_of_pos (by simp [hcl])]
      refine List.Perm.trans (List.Perm.append_right _ (List.Perm.append_right _
        (pushOff_perm acc.2 pkg u))) ?_
      simp only [List.append_assoc, List.singleton_append]
      refine List.Perm.append_left _ ?_
      exact (List.perm_middle).symm
    | ignored =>
      simp only [Option.pure_def, Option.some.injEq] at h3
      subst h3
      obtain ⟨g1, g2, g3, g4⟩ := ih _ h2 hon hoff hn
      refine ⟨g1, g2, g3, g4.trans ?_⟩
      rw [List.filter_cons_of_neg (by simp [hcl])]

theorem foldlM_none_iff (c : State) (deps : List Str) (us : List ApiUsage)
    (acc : List ApiUsage × AMap PkgId (List ApiUsage)) :
    us.foldlM (pstep c deps) acc = none ↔ ∃ u ∈ us, classify c deps u = none := by
  induction us generalizing acc with
  | nil => simp
  | cons u rest ih =>
    rw [List.foldlM_cons]
    cases hcl : classify c deps u with
    | none => simp [pstep, hcl]
    | some cl =>
      cases cl <;> simp [pstep, hcl, ih]

/-- **C06.** Let `c` be any checker with its history, and `au` the usages of one API by a package at a
scope known to the crate index.
* If some configuration loaded so far grants the API there, nothing is reported.
* Otherwise, if the dependencies of the package are unknown, all usages are reported as disallowed.
* Otherwise the reported problems contain, once each, exactly the usages other than the excused
  off-tree ones (usages of a non-dependency inside a function of the package providing the name). A
  disallowed-API problem contains only on-tree usages; an off-tree problem only usages of the package
  it names, with one such problem per package.
* The check itself fails only if an off-tree usage is in a function whose source file belongs to no
  known package. -/
theorem C06_api_use_reported (idx : Index) (c : State) (tr : List CEv) (h : CRun idx c tr)
    (au : ApiUsages) (hk : Known idx au.pkg.name au.scope) :
    ((∃ cfg, CEv.loaded cfg ∈ tr ∧ Grants cfg au.pkg.name au.scope au.api) →
      ∃ c', apiUsed c au = some (c', [])) ∧
    ((∀ cfg, CEv.loaded cfg ∈ tr → ¬ Grants cfg au.pkg.name au.scope au.api) →
      (idx.deps.get? au.pkg = none →
        apiUsed c au = some (c, if au.usages = [] then [] else [.disallowedApiUsage au])) ∧
      (∀ deps, idx.deps.get? au.pkg = some deps →
        (apiUsed c au = none ↔
          ∃ u ∈ au.usages, (∃ pkg, OffTree c deps u pkg) ∧ UnknownOwner c u) ∧
        (∀ c' ps, apiUsed c au = some (c', ps) →
          (∀ keep : ApiUsage → Bool,
            (∀ u, keep u = false ↔ (∃ pkg, OffTree c deps u pkg) ∧ Excused c u) →
            (ps.flatMap Problem.apiUsages).Perm (au.usages.filter keep)) ∧
          (∀ p ∈ ps,
            (∃ us, us ≠ [] ∧ p = .disallowedApiUsage { au with usages := us } ∧
              ∀ u ∈ us, ∀ pkg, ¬ OffTree c deps u pkg) ∨
            (∃ us pkg, us ≠ [] ∧ p = .offTreeApiUsage { au with usages := us } pkg ∧
              ∀ u ∈ us, OffTree c deps u pkg ∧ ¬ Excused c u)) ∧
          ps.Pairwise (fun p q =>
            (∀ a b, p = .disallowedApiUsage a → q ≠ .disallowedApiUsage b) ∧
            (∀ a b x y, p = .offTreeApiUsage a x → q = .offTreeApiUsage b y → x ≠ y))))) := by
  have hidx := run_idx h
  have hall : Allowed c (selOf au) au.api ↔
      ∃ cfg, CEv.loaded cfg ∈ tr ∧ Grants cfg au.pkg.name au.scope au.api := by
    rw [run_allowed h]
    constructor
    · rintro ⟨cfg, h1, h2⟩
      exact ⟨cfg, h1, (eff_iff_grants (run_nodup h cfg h1) hk _).mp h2⟩
    · rintro ⟨cfg, h1, h2⟩
      exact ⟨cfg, h1, (eff_iff_grants (run_nodup h cfg h1) hk _).mpr h2⟩
  refine ⟨?_, ?_⟩
  · intro hg
    have := (any_allowed_iff c (selOf au) au.api).mpr (hall.mpr hg)
    unfold apiUsed
    simp only [selOf] at this
    simp only [this, if_true]
    exact ⟨_, rfl⟩
  · intro hng
    have hna : ¬ Allowed c (selOf au) au.api := by
      rw [hall]; rintro ⟨cfg, h1, h2⟩; exact hng cfg h1 h2
    have hany : ¬ (c.infos.get? ⟨au.pkg.name, au.scope⟩).any (fun i => decide (au.api ∈ i.allowed))
        = true := fun e => hna ((any_allowed_iff c (selOf au) au.api).mp e)
    refine ⟨?_, ?_⟩
    · intro hd
      unfold apiUsed
      simp only [hany, treeSplit, hidx, hd]
      by_cases hu : au.usages = [] <;> simp [hu]
    · intro deps hd
      have hts : treeSplit c au = au.usages.foldlM (pstep c deps) ([], []) := by
        simp only [treeSplit, hidx, hd]; rfl
      refine ⟨?_, ?_⟩
      · have : apiUsed c au = none ↔ treeSplit c au = none := by
          unfold apiUsed
          simp only [hany]
          cases treeSplit c au <;> simp
        rw [this, hts, foldlM_none_iff]
        simp only [(classify_spec c deps _).1]
      · intro c' ps hu
        unfold apiUsed at hu
        simp only [hany] at hu
        simp only [Bool.false_eq_true, if_false] at hu
        split at hu
        · cases hu
        · rename_i on off hsplit
          rw [hts] at hsplit
          obtain ⟨g1, g2, g3, g4⟩ := partition_aux c deps au.usages ([], []) (on, off) hsplit
            (by simp) (by simp) (by simp [AMap.keys])
          simp only [Option.some.injEq, Prod.mk.injEq] at hu
          obtain ⟨_, rfl⟩ := hu
          refine ⟨?_, ?_, ?_⟩
          · intro keep hkeep
            have e1 : (List.flatMap Problem.apiUsages (off.map (fun (e : PkgId × List ApiUsage) =>
                  Problem.offTreeApiUsage { au with usages := e.2 } e.1) ++
                (if on = [] then [] else [Problem.disallowedApiUsage { au with usages := on }]))) =
                off.flatMap Prod.snd ++ on := by
              rw [List.flatMap_append, List.flatMap_map]
              congr 1
              by_cases ho : on = [] <;> simp [ho, Problem.apiUsages]
            rw [e1]
            refine g4.trans ?_
            simp only [List.flatMap_nil, List.append_nil, List.nil_append]
            apply List.Perm.of_eq
            apply List.filter_congr
            intro u _
            have hk2 := hkeep u
            rw [← (classify_spec c deps u).2.2.1] at hk2
            cases hku : keep u with
            | false => simp [hk2.mp hku]
            | true =>
              have : ¬ classify c deps u = some .ignored := fun e => by
                rw [hk2.mpr e] at hku; cases hku
              simp [this]
          · intro p hp
            rcases List.mem_append.mp hp with hp | hp
            · obtain ⟨e, he, rfl⟩ := List.mem_map.mp hp
              right
              refine ⟨e.2, e.1, (g2 e he).1, rfl, ?_⟩
              intro u hu
              have := ((classify_spec c deps u).2.2.2 e.1).mp ((g2 e he).2 u hu)
              exact ⟨this.1, this.2.1⟩
            · left
              by_cases ho : on = []
              · simp [ho] at hp
              · simp only [ho, if_false, List.mem_singleton] at hp
                exact ⟨on, ho, hp, fun u hu => (classify_spec c deps u).2.1.mp (g1 u hu)⟩
          · rw [List.pairwise_append]
            refine ⟨?_, ?_, ?_⟩
            · rw [List.pairwise_map]
              have : List.Pairwise (fun a b => a.1 ≠ b.1) off := by
                have := g3
                rw [List.nodup_iff_pairwise_ne] at this
                exact List.pairwise_map.mp this
              refine this.imp ?_
              intro a b hab
              refine ⟨by simp, ?_⟩
              intro x y p q hx hy
              cases hx; cases hy; exact hab
            · by_cases ho : on = [] <;> simp [ho]
            · intro p hp q hq
              obtain ⟨e, _, rfl⟩ := List.mem_map.mp hp
              by_cases ho : on = []
              · simp [ho] at hq
              · simp only [ho, if_false, List.mem_singleton] at hq
                subst hq
                exact ⟨by simp, by simp⟩

/-! Non-vacuity for C06: package `a` (dependencies: none) uses `fs` through `std::fs::write` (on-tree) and
through `b::fs::write` where `b` is some other package (off-tree). -/

private def pa : PkgId := ⟨str! "a", str! "1.0.0", true⟩
private def pb : PkgId := ⟨str! "b", str! "1.0.0", true⟩
private def exIdx : Index :=
  { pkgs := [⟨str! "a", true, false⟩], deps := [(pa, [])], libs := [(str! "b", pb)] }
private def exUsage (to : List Str) : ApiUsage :=
  { address := 0, symbolStart := 0, binPath := [], scope := .all, loc := ⟨[], 0, none⟩, outer := none,
    from_ := .symbol [], to := .symbol [], toName := to, toSource := .symbol [] }
private def exUsages : ApiUsages :=
  { pkg := pa, scope := .all, api := str! "fs",
    usages := [exUsage [str! "std", str! "fs"], exUsage [str! "b", str! "fs"]] }
private def exCfg : Raw :=
  { packages := [(str! "a", .leaf { allowApis := [str! "fs"] })] }

example : CRun exIdx (updateConfig { idx := exIdx } {}) [.loaded {}] := .load {} (by simp [AMap.keys]) .init
example : Known exIdx (str! "a") .all := ⟨_, List.mem_singleton.mpr rfl, rfl, by simp, by simp⟩
example : (apiUsed (updateConfig { idx := exIdx } {}) exUsages).map Prod.snd =
    some [.offTreeApiUsage { exUsages with usages := [exUsage [str! "b", str! "fs"]] } pb,
      .disallowedApiUsage { exUsages with usages := [exUsage [str! "std", str! "fs"]] }] := by decide
example : (apiUsed (updateConfig { idx := exIdx } exCfg) exUsages).map Prod.snd = some [] := by
  decide +kernel

/-! ## C07 -/

/-- The reported usages `au` are at the selector, or at a selector inheriting from it. -/
def UsedAtOrBelow (au : ApiUsages) (pkg : Str) (s : Scope) (a : Api) : Prop :=
  au.api = a ∧ au.pkg.name = pkg ∧ s ∈ chain au.scope

/-- The unused-permission warnings that a check for unused configuration reports. -/
def ReportedUnused (ps : List Problem) (pkg : Str) (s : Scope) (a : Api) : Prop :=
  ∃ apis, Problem.unusedAllowApi ⟨pkg, s⟩ apis ∈ ps ∧ a ∈ apis

/-- The config file lists the API at the selector itself. -/
def ListsAt (cfg : Raw) (pkg : Str) (s : Scope) (a : Api) : Prop :=
  ∃ p, listed cfg pkg s = some p ∧ a ∈ p.allowApis

theorem lists_iff {cfg : Raw} (hn : cfg.packages.keys.Nodup) (pkg : Str) (s : Scope) (a : Api) :
    Lists cfg ⟨pkg, s⟩ a ↔ ListsAt cfg pkg s a := by
  unfold Lists ListsAt
  rw [fromConfig_get cfg hn, listed_eq]
  cases (cfg.packages.get? pkg).bind (fun c => sectionOf c s) <;> simp

theorem chain_trans {s s' t : Scope} (h1 : s ∈ chain s') (h2 : t ∈ chain s) : t ∈ chain s' := by
  cases s <;> cases s' <;> cases t <;> simp_all [chain]

theorem run_unused {idx : Index} {c : State} {tr : List CEv} (h : CRun idx c tr)
    (hk : ∀ au, CEv.used au ∈ tr → Known idx au.pkg.name au.scope) (pkg : Str) (s : Scope) (a : Api)
    (hs : Known idx pkg s) :
    Unused c ⟨pkg, s⟩ a ↔ ∃ later cfg earlier, tr = later ++ .loaded cfg :: earlier ∧
      ListsAt cfg pkg s a ∧ (∀ cfg', CEv.loaded cfg' ∈ earlier → ¬ Grants cfg' pkg s a) ∧
      (∀ au, CEv.used au ∈ later → ¬ UsedAtOrBelow au pkg s a) := by
  induction h with
  | init => simp [Unused]
  | @load c tr cfg hn h ih =>
    have ih := ih (fun au hm => hk au (List.mem_cons_of_mem _ hm))
    rw [updateConfig_unused, ih]
    constructor
    · rintro (⟨later, cfg', earlier, rfl, h1, h2, h3⟩ | ⟨h1, h2⟩)
      · refine ⟨.loaded cfg :: later, cfg', earlier, rfl, h1, h2, ?_⟩
        intro au hm
        rcases List.mem_cons.mp hm with hm | hm
        · cases hm
        · exact h3 au hm
      · refine ⟨[], cfg, tr, rfl, (lists_iff hn _ _ _).mp h1, ?_, by simp⟩
        intro cfg' hm hg
        apply h2
        rw [run_allowed h]
        exact ⟨cfg', hm, (eff_iff_grants (run_nodup h cfg' hm) hs _).mpr hg⟩
    · rintro ⟨later, cfg', earlier, he, h1, h2, h3⟩
      cases later with
      | nil =>
        simp only [List.nil_append, List.cons.injEq, CEv.loaded.injEq] at he
        obtain ⟨rfl, rfl⟩ := he
        right
        refine ⟨(lists_iff hn _ _ _).mpr h1, ?_⟩
        rw [run_allowed h]
        rintro ⟨cfg', hm, hg⟩
        exact h2 cfg' hm ((eff_iff_grants (run_nodup h cfg' hm) hs _).mp hg)
      | cons e later =>
        simp only [List.cons_append, List.cons.injEq] at he
        obtain ⟨rfl, he⟩ := he
        left
        exact ⟨later, cfg', earlier, he, h1, h2, fun au hm => h3 au (List.mem_cons_of_mem _ hm)⟩
  | @use c c' tr au ps h hu ih =>
    have ih := ih (fun au hm => hk au (List.mem_cons_of_mem _ hm))
    have hka := hk au (List.mem_cons_self ..)
    rw [apiUsed_unused hu, ih]
    constructor
    · rintro ⟨⟨later, cfg', earlier, rfl, h1, h2, h3⟩, h4⟩
      refine ⟨.used au :: later, cfg', earlier, rfl, h1, h2, ?_⟩
      intro au' hm
      rcases List.mem_cons.mp hm with hm | hm
      · cases hm
        rintro ⟨rfl, rfl, h7⟩
        refine h4 ⟨?_, rfl, ⟨rfl, h7⟩⟩
        rw [run_allowed h]
        have hm' : CEv.loaded cfg' ∈ later ++ .loaded cfg' :: earlier := by simp
        refine ⟨cfg', hm', ?_⟩
        show Eff idx.pkgs cfg' ⟨au.pkg.name, au.scope⟩ au.api
        rw [eff_iff_grants (run_nodup h cfg' hm') hka]
        exact ⟨s, h7, h1⟩
      · exact h3 au' hm
    · rintro ⟨later, cfg', earlier, he, h1, h2, h3⟩
      cases later with
      | nil => simp at he
      | cons e later =>
        simp only [List.cons_append, List.cons.injEq] at he
        obtain ⟨rfl, he⟩ := he
        refine ⟨⟨later, cfg', earlier, he, h1, h2, fun au hm => h3 au (List.mem_cons_of_mem _ hm)⟩, ?_⟩
        rintro ⟨_, rfl, h6, h7⟩
        exact h3 au (List.mem_cons_self ..) ⟨rfl, h6.symm, h7⟩
  | other _ _ _ ih => exact ih hk

theorem updInfo_nodup (m : AMap PermSel CrateInfo) (sel : PermSel) (f : CrateInfo → CrateInfo)
    (h : m.keys.Nodup) : (updInfo m sel f).keys.Nodup := AMap.nodup_insert m sel _ h

theorem foldl_updInfo_nodup (f : PkgCfg → CrateInfo → CrateInfo) (perms : PermMap)
    (m : AMap PermSel CrateInfo) (h : m.keys.Nodup) :
    (perms.foldl (fun m (e : PermSel × PkgCfg) => updInfo m e.1 (f e.2)) m).keys.Nodup := by
  induction perms generalizing m with
  | nil => exact h
  | cons e rest ih => exact ih _ (updInfo_nodup m e.1 _ h)

theorem markUsed_nodup (m : AMap PermSel CrateInfo) (sel : PermSel) (a : Api) (h : m.keys.Nodup) :
    (markUsed m sel a).keys.Nodup := by
  unfold markUsed
  split
  · exact AMap.nodup_insert m sel _ h
  · exact h

theorem markParents_nodup (m : AMap PermSel CrateInfo) (sel : PermSel) (a : Api) (h : m.keys.Nodup) :
    (markParents m sel a).keys.Nodup := by
  obtain ⟨pkg, s⟩ := sel
  cases s <;> simp only [markParents, PermSel.parent, Scope.parent, Option.map_some, Option.map_none] <;>
    repeat (first | exact h | apply markUsed_nodup)

theorem run_infos_nodup {idx : Index} {c : State} {tr : List CEv} (h : CRun idx c tr) :
    c.infos.keys.Nodup := by
  induction h with
  | init => simp [AMap.keys]
  | load cfg hn h ih =>
    exact foldl_updInfo_nodup (fun p i => grantInherited i p.perms.allowApis) _ _
      (foldl_updInfo_nodup (fun p i => grantListed i p.perms.allowApis) _ _ ih)
  | use au ps h hu ih =>
    rcases apiUsed_spec hu with ⟨_, _, rfl⟩ | ⟨_, rfl⟩
    · exact markParents_nodup _ _ _ (markUsed_nodup _ _ _ ih)
    · exact ih
  | other _ _ _ ih => exact ih

theorem reported_iff_unused {c : State} (hn : c.infos.keys.Nodup) {ps : List Problem}
    (hps : checkUnused c = some ps) (pkg : Str) (s : Scope) (a : Api) :
    ReportedUnused ps pkg s a ↔ Unused c ⟨pkg, s⟩ a := by
  unfold checkUnused at hps
  split at hps
  · cases hps
  · simp only [Option.some.injEq] at hps
    subst hps
    unfold ReportedUnused Unused
    constructor
    · rintro ⟨apis, hm, ha⟩
      rcases List.mem_append.mp hm with hm | hm
      · obtain ⟨e, he, hm⟩ := List.mem_flatMap.mp hm
        rcases List.mem_append.mp hm with hm | hm
        · split at hm <;> simp at hm
        · split at hm
          · simp at hm
          · simp only [List.mem_singleton, Problem.unusedAllowApi.injEq] at hm
            obtain ⟨h1, rfl⟩ := hm
            exact ⟨e.2, by rw [h1]; exact AMap.get?_of_mem hn he, ha⟩
      · obtain ⟨e, he, hm⟩ := List.mem_flatMap.mp hm
        split at hm <;> simp at hm
    · rintro ⟨i, hi, ha⟩
      refine ⟨i.unused, ?_, ha⟩
      apply List.mem_append_left
      refine List.mem_flatMap.mpr ⟨_, AMap.mem_of_get? hi, ?_⟩
      apply List.mem_append_right
      have : i.unused ≠ [] := fun e => by rw [e] at ha; simp at ha
      simp [this]

/-- **C07, exact.** At the end of a run an API is reported as unused at a selector iff, at the moment
the API first became permitted there, the selector itself listed it, and since then no usage of the
API by that package at that selector, or at one inheriting from it, was seen. -/
theorem C07_exact_partial (idx : Index) (c : State) (tr : List CEv) (h : CRun idx c tr)
    (hk : ∀ au, CEv.used au ∈ tr → Known idx au.pkg.name au.scope)
    (ps : List Problem) (hps : checkUnused c = some ps)
    (pkg : Str) (s : Scope) (hs : Known idx pkg s) (a : Api) :
    ReportedUnused ps pkg s a ↔
      ∃ later cfg earlier, tr = later ++ .loaded cfg :: earlier ∧
        ListsAt cfg pkg s a ∧ (∀ cfg', CEv.loaded cfg' ∈ earlier → ¬ Grants cfg' pkg s a) ∧
        (∀ au, CEv.used au ∈ later → ¬ UsedAtOrBelow au pkg s a) := by
  rw [reported_iff_unused (run_infos_nodup h) hps]
  exact run_unused h hk pkg s a hs

/-- **C07 for runs in which the configuration is not edited** (it may be reloaded any number of times):
an API is reported as unused at a selector iff that selector lists it and no usage of it at that
selector, or at one inheriting from it, was seen. -/
theorem C07_same_config_partial (idx : Index) (c : State) (cfg : Raw) (later : List CEv)
    (h : CRun idx c (later ++ [.loaded cfg]))
    (hsame : ∀ cfg', CEv.loaded cfg' ∈ later → cfg' = cfg)
    (hk : ∀ au, CEv.used au ∈ later → Known idx au.pkg.name au.scope)
    (ps : List Problem) (hps : checkUnused c = some ps)
    (pkg : Str) (s : Scope) (hs : Known idx pkg s) (a : Api) :
    ReportedUnused ps pkg s a ↔
      ListsAt cfg pkg s a ∧ ∀ au, CEv.used au ∈ later → ¬ UsedAtOrBelow au pkg s a := by
  rw [C07_exact_partial idx c _ h (by
    intro au hm
    rcases List.mem_append.mp hm with hm | hm
    · exact hk au hm
    · simp at hm) ps hps pkg s hs a]
  constructor
  · rintro ⟨l, cfg', e, he, h1, h2, h3⟩
    rcases List.eq_nil_or_concat e with rfl | ⟨e', x, rfl⟩
    · obtain ⟨rfl, h5⟩ := List.append_inj' he rfl
      simp only [List.cons.injEq, CEv.loaded.injEq, and_true] at h5
      subst h5
      exact ⟨h1, h3⟩
    · exfalso
      have he' : later ++ [CEv.loaded cfg] = (l ++ .loaded cfg' :: e') ++ [x] := by simp [he]
      obtain ⟨rfl, h5⟩ := List.append_inj' he' rfl
      simp only [List.cons.injEq, and_true] at h5
      subst h5
      have : cfg' = cfg := hsame cfg' (by simp)
      subst this
      exact h2 cfg' (by simp) ⟨s, by cases s <;> simp [chain], h1⟩
  · rintro ⟨h1, h2⟩
    exact ⟨later, cfg, [], rfl, h1, by simp, h2⟩

/-- The English claim C07 with respect to the configuration in force at the end: reported iff the
selector itself lists the API, and no usage was seen since the permission was first granted. -/
def C07_Claim : Prop :=
  ∀ (idx : Index) (c : State) (cfg : Raw) (tr : List CEv), CRun idx c (.loaded cfg :: tr) →
    (∀ au, CEv.used au ∈ tr → Known idx au.pkg.name au.scope) →
    ∀ ps, checkUnused c = some ps → ∀ pkg s a, Known idx pkg s →
      (ReportedUnused ps pkg s a ↔
        ListsAt cfg pkg s a ∧
        ∃ later cfg' earlier, .loaded cfg :: tr = later ++ .loaded cfg' :: earlier ∧
          Grants cfg' pkg s a ∧ (∀ cfg', CEv.loaded cfg' ∈ earlier → ¬ Grants cfg' pkg s a) ∧
          ∀ au, CEv.used au ∈ later → ¬ UsedAtOrBelow au pkg s a)

/-- **C07, disagreement.** A permission that was removed from the config file during the session is
still reported as unused at the end. -/
theorem C07_removed_permission_still_reported : ¬ C07_Claim := by
  intro hc
  have hrun : CRun exIdx _ [.loaded {}, .loaded exCfg] :=
    .load {} (by simp [AMap.keys]) (.load exCfg (by decide) .init)
  have hsome : (checkUnused (updateConfig (updateConfig { idx := exIdx } exCfg) {})).isSome := by decide
  obtain ⟨ps, hps⟩ := Option.isSome_iff_exists.mp hsome
  have := hc exIdx _ {} [.loaded exCfg] hrun (by simp) ps hps (str! "a") .all (str! "fs")
    ⟨_, List.mem_singleton.mpr rfl, rfl, by simp, by simp⟩
  have hrep : ReportedUnused ps (str! "a") .all (str! "fs") := by
    rw [C07_exact_partial exIdx _ _ hrun (by simp) ps hps _ _
      ⟨_, List.mem_singleton.mpr rfl, rfl, by simp, by simp⟩]
    exact ⟨[.loaded {}], exCfg, [], rfl, ⟨{ allowApis := [str! "fs"] }, rfl, by simp⟩, by simp, by simp⟩
  obtain ⟨⟨p, hp, _⟩, _⟩ := this.mp hrep
  cases hp

/-! Non-vacuity for C07: `fs` is listed for `a`, and not used by `a`; then it is used by its build script. -/
example : CRun exIdx (updateConfig { idx := exIdx } exCfg) ([] ++ [.loaded exCfg]) :=
  .load exCfg (by decide) .init
example : checkUnused (updateConfig { idx := exIdx } exCfg) =
    some [.unusedAllowApi ⟨str! "a", .all⟩ [str! "fs"]] := by decide
example : ((apiUsed (updateConfig { idx := exIdx } exCfg) { exUsages with scope := .build }).bind
    (fun r => checkUnused r.1)) = some [] := by decide +kernel

/-! ## C09 -/

/-- The English claim C09, for a checker that has loaded one configuration and a package of the index
that has a build script. -/
def C09_Claim : Prop :=
  ∀ (idx : Index) (cfg : Raw), cfg.packages.keys.Nodup → ∀ pkg : PkgId, Known idx pkg.name .build →
    (verifyBuildScript (updateConfig { idx := idx } cfg) pkg ≠ [] ↔
      cfg.common.explicitBuildScripts = true ∧ listed cfg pkg.name .build = none)

/-- **C09, disagreement.** A package with a build script that the configuration does not mention is not
reported although `explicit_build_scripts` is set. -/
theorem C09_not_reported : ¬ C09_Claim := by
  intro h
  have := h exIdx { common := { explicitBuildScripts := true } } (by simp [AMap.keys]) pa
    ⟨_, List.mem_singleton.mpr rfl, rfl, by simp, by simp⟩
  have h2 := this.mpr ⟨rfl, rfl⟩
  exact h2 (by decide)

theorem run_infos_some {idx : Index} {c : State} {tr : List CEv} (h : CRun idx c tr) (pkg : Str)
    (s : Scope) : (c.infos.get? ⟨pkg, s⟩).isSome ↔
      ∃ cfg, CEv.loaded cfg ∈ tr ∧ ((listed cfg pkg s).isSome ∨ Known idx pkg s) := by
  induction h with
  | init => simp
  | @load c tr cfg hn h ih =>
    rw [updateConfig_get]
    have hb : ((withInheritance cfg c.idx.pkgs).get? ⟨pkg, s⟩).isSome ↔
        ((listed cfg pkg s).isSome ∨ Known idx pkg s) := by
      rw [withInheritance_eq, applyInheritance_get, run_idx h, known_iff_mem]
      have : ((base cfg idx.pkgs).get? ⟨pkg, s⟩).isSome ↔
          ((listed cfg pkg s).isSome ∨ (⟨pkg, s⟩ : PermSel) ∈ indexSelectors idx.pkgs) := by
        rw [base_get cfg hn, listed_eq]
        cases (cfg.packages.get? pkg).bind (fun c => sectionOf c s) <;> simp
      rw [← this]
      cases s <;> simp
    have hl : ((fromConfig cfg).get? ⟨pkg, s⟩).isSome ↔ (listed cfg pkg s).isSome := by
      rw [fromConfig_get cfg hn, listed_eq]
      cases (cfg.packages.get? pkg).bind (fun c => sectionOf c s) <;> simp
    have : (∃ cfg', CEv.loaded cfg' ∈ CEv.loaded cfg :: tr ∧
        ((listed cfg' pkg s).isSome ∨ Known idx pkg s)) ↔
        ((listed cfg pkg s).isSome ∨ Known idx pkg s) ∨ (c.infos.get? ⟨pkg, s⟩).isSome := by
      rw [ih]
      constructor
      · rintro ⟨cfg', hm, hx⟩
        rcases List.mem_cons.mp hm with hm | hm
        · cases hm; exact .inl hx
        · exact .inr ⟨cfg', hm, hx⟩
      · rintro (hx | ⟨cfg', hm, hx⟩)
        · exact ⟨cfg, List.mem_cons_self .., hx⟩
        · exact ⟨cfg', List.mem_cons_of_mem _ hm, hx⟩
    rw [this, ← hb]
    cases h1 : (withInheritance cfg c.idx.pkgs).get? ⟨pkg, s⟩ with
    | some p => simp
    | none =>
      rw [h1] at hb
      simp only [Option.isSome_none, Bool.false_eq_true, false_iff, not_or] at hb
      cases h2 : (fromConfig cfg).get? ⟨pkg, s⟩ with
      | some q => rw [h2] at hl; exact absurd (hl.mp rfl) hb.1
      | none => simp
  | @use c c' tr au ps h hu ih =>
    have : ∀ x, CEv.loaded x ∈ CEv.used au :: tr ↔ CEv.loaded x ∈ tr := fun x => by simp
    simp only [this, ← ih]
    rcases apiUsed_spec hu with ⟨_, _, rfl⟩ | ⟨_, rfl⟩
    · simp only [markAll_get]
      split <;> simp
    · rfl
  | other _ _ _ ih => exact ih

/-- **C09 (partial).** What the check does, exactly: a build script is reported iff
`explicit_build_scripts` is set, no configuration loaded so far has a `build` section for the package,
and the crate index has no package of this name with a build script. Missing: the last condition is
never met for a build script that is being linked, so nothing is ever reported, see `C09_not_reported`. -/
theorem C09_build_script_partial (idx : Index) (c : State) (cfg : Raw) (tr : List CEv)
    (h : CRun idx c (.loaded cfg :: tr)) (pkg : PkgId) :
    verifyBuildScript c pkg = [.usesBuildScript pkg] ∧ verifyBuildScript c pkg ≠ [] ↔
      (c.cfg.common.explicitBuildScripts = true ∧
      (∀ cfg', CEv.loaded cfg' ∈ .loaded cfg :: tr → listed cfg' pkg.name .build = none) ∧
      ¬ Known idx pkg.name .build) := by
  have hs := run_infos_some h pkg.name .build
  unfold verifyBuildScript
  cases he : c.cfg.common.explicitBuildScripts with
  | false => simp
  | true =>
    simp only [Bool.not_true, Bool.false_eq_true, if_false, true_and]
    by_cases hi : (c.infos.get? ⟨pkg.name, .build⟩).isSome
    · simp only [hi, if_true]
      have := hs.mp hi
      constructor
      · rintro ⟨h1, h2⟩; simp at h1
      · rintro ⟨h1, h2⟩
        obtain ⟨cfg', hm, hx | hx⟩ := this
        · rw [h1 cfg' hm] at hx; cases hx
        · exact absurd hx h2
    · simp only [hi]
      simp only [Bool.false_eq_true, if_false]
      constructor
      · intro _
        rw [hs] at hi
        constructor
        · intro cfg' hm
          cases hl : listed cfg' pkg.name .build with
          | none => rfl
          | some p => exact absurd ⟨cfg', hm, .inl (by simp [hl])⟩ hi
        · intro hk
          exact hi ⟨cfg, List.mem_cons_self .., .inr hk⟩
      · intro _; simp

example : verifyBuildScript (updateConfig { idx := {} } { common := { explicitBuildScripts := true } }) pa =
    [.usesBuildScript pa] := by decide

end Cackle.Checker
