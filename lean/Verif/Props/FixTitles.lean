import Verif.Props.Fixes

/-!
# C129: the title of an edit says what it does
-/

namespace Cackle.Fixes
open Cackle Config Perm Toml
open Cackle.ApiMap (Api)
open Cackle.Editor (Edit load Effective)
open Cackle.Report (pkgText quote)

/-! ## Specification -/

/-- The sentence that says that a package may use an API. -/
def sentence (who : Str) (api : Api) (where_ : Str) : Str :=
  str! "Allow `" ++ who ++ str! "` to use `" ++ api ++ str! "` API" ++ where_

/-- What the end of the sentence means: for code that is used in this way, the package may use the API. -/
inductive Means : Str → Scope → Prop
  | always (s : Scope) : Means [] s
  | ownBuildScript : Means (str! " when building its own build script") .build
  | ownTests : Means (str! " when building its own tests") .test
  | buildScripts : Means (str! " when building build scripts") .fromBuild
  | buildScriptsOwn : Means (str! " when building build scripts") .build
  | tests : Means (str! " when building tests") .fromTest
  | testsOwn : Means (str! " when building tests") .test

/-- The title says that the package may use the API in this scope. -/
def Says (title : Str) (v : PkgId) (s : Scope) (a : Api) : Prop :=
  ∃ w, title = sentence (pkgText v) a w ∧ Means w s

/-- The package may use the API in this scope. -/
def Permitted (r : Raw) (idx : List IdxPkg) (v : PkgId) (s : Scope) (a : Api) : Prop :=
  ∃ p, Effective r idx v.name s p ∧ a ∈ p.allowApis

/-- No quotation marks. -/
def Quotable (s : Str) : Prop := '`' ∉ s

/-- Names of packages have no brackets or quotation marks. -/
def Named (v : PkgId) : Prop := Quotable (pkgText v) ∧ '[' ∉ v.name

/-- The English claim C129, for the packages in `D`: after an edit that grants an API, exactly that is permitted in addition
which the title says. -/
def C129_Claim (D : PkgId → PkgId → Prop) : Prop :=
  ∀ (n : Nat) (doc doc' : Entries) (r : Raw) (bwrap : Bool) (pkg : PkgId) (scope : Scope) (api : Api),
    load builtIns (n + 2) doc = some r → r.packages.keys.Nodup → Named pkg → Quotable api →
    (Fix.allowApi pkg scope api).apply bwrap doc = some doc' →
    ∃ r', load builtIns (n + 2) doc' = some r' ∧
      ∀ (idx : List IdxPkg) (v : PkgId) (s : Scope) (a : Api), Indexed idx v.name → Exists r idx v.name s → D pkg v →
        Named v → Quotable a →
        (Permitted r' idx v s a ↔ Permitted r idx v s a ∨ Says (Fix.allowApi pkg scope api).title v s a)

/-! ## Proof -/

theorem quote_inj {a b x y : Str} (ha : Quotable a) (hb : Quotable b) (h : a ++ '`' :: x = b ++ '`' :: y) : a = b ∧ x = y := by
  induction a generalizing b with
  | nil =>
    cases b with
    | nil => exact ⟨rfl, by simpa using h⟩
    | cons c b =>
      simp only [List.nil_append, List.cons_append, List.cons.injEq] at h
      exact absurd (h.1 ▸ List.mem_cons_self ..) hb
  | cons c a ih =>
    cases b with
    | nil =>
      simp only [List.nil_append, List.cons_append, List.cons.injEq] at h
      exact absurd (h.1 ▸ List.mem_cons_self ..) ha
    | cons d b =>
      simp only [List.cons_append, List.cons.injEq] at h
      obtain ⟨h1, h2⟩ := ih (fun hm => ha (List.mem_cons_of_mem _ hm)) (fun hm => hb (List.mem_cons_of_mem _ hm)) h.2
      exact ⟨by rw [h.1, h1], h2⟩

theorem title_sentence (pkg : PkgId) (scope : Scope) (api : Api) :
    (Fix.allowApi pkg scope api).title = sentence (pkgText pkg) api (allowWhere scope) := by
  simp [Fix.title, sentence, quote]

theorem sentence_inj {a b x y w w' : Str} (ha : Quotable a) (hb : Quotable b) (hx : Quotable x) (hy : Quotable y)
    (h : sentence a x w = sentence b y w') : a = b ∧ x = y ∧ w = w' := by
  unfold sentence at h
  simp only [List.append_assoc] at h
  have h1 := List.append_cancel_left h
  obtain ⟨h2, h3⟩ := quote_inj ha hb h1
  have h4 := List.append_cancel_left (as := str! " to use `") h3
  obtain ⟨h5, h6⟩ := quote_inj hx hy h4
  exact ⟨h2, h5, List.append_cancel_left (as := str! " API") h6⟩

theorem means_iff (t s : Scope) : Means (allowWhere t) s ↔ t ∈ chain s := by
  constructor
  · intro h
    generalize hw : allowWhere t = w at h
    cases h <;> cases t <;> first
      | (exfalso; revert hw; decide)
      | (cases s <;> simp [chain])
      | simp [chain]
  · intro h
    cases s <;> cases t <;> simp [chain] at h <;> first
      | exact .always _
      | exact .ownBuildScript
      | exact .ownTests
      | exact .buildScripts
      | exact .buildScriptsOwn
      | exact .tests
      | exact .testsOwn

theorem bracket_inj {a b x y : Str} (ha : '[' ∉ a) (hb : '[' ∉ b) (h : a ++ '[' :: x = b ++ '[' :: y) : a = b := by
  induction a generalizing b with
  | nil =>
    cases b with
    | nil => rfl
    | cons c b =>
      simp only [List.nil_append, List.cons_append, List.cons.injEq] at h
      exact absurd (h.1 ▸ List.mem_cons_self ..) hb
  | cons c a ih =>
    cases b with
    | nil =>
      simp only [List.nil_append, List.cons_append, List.cons.injEq] at h
      exact absurd (h.1 ▸ List.mem_cons_self ..) ha
    | cons d b =>
      simp only [List.cons_append, List.cons.injEq] at h
      rw [h.1, ih (fun hm => ha (List.mem_cons_of_mem _ hm)) (fun hm => hb (List.mem_cons_of_mem _ hm)) h.2]

theorem pkgText_name {p v : PkgId} (hp : '[' ∉ p.name) (hv : '[' ∉ v.name) (h : pkgText p = pkgText v) : p.name = v.name := by
  simp only [pkgText, Report.crateText, Report.kindText, List.append_nil, List.cons_append] at h
  generalize p.nameIsUnique = x, v.nameIsUnique = y at h
  cases x <;> cases y <;> simp at h
  · exact bracket_inj hp hv h
  · exact absurd (h ▸ by simp) hv
  · exact absurd (h.symm ▸ by simp) hp
  · exact h

theorem permitted_iff {r : Raw} {idx : List IdxPkg} {v : PkgId} {s : Scope} {a : Api} {p : Perms}
    (h : Effective r idx v.name s p) : Permitted r idx v s a ↔ a ∈ p.allowApis := by
  constructor
  · rintro ⟨p', h', ha⟩
    rwa [h.unique h']
  · exact fun ha => ⟨p, h, ha⟩

/-- **C129 (partial).** For all configuration files, packages, scopes and APIs: a grant permits in addition exactly what its
title says, as far as packages are concerned of which there is only one version.

What is missing: packages of which there are several versions, see `C129_versions`. -/
theorem C129_grant_partial : C129_Claim (fun pkg v => v.name = pkg.name → v = pkg) := by
  intro n doc doc' r bwrap pkg scope api hl hn hq1 hq2 ha
  obtain ⟨r', h1, _, _, h2⟩ := Editor.C19_exact_grant builtIns n doc doc' r ⟨pkg.name, scope⟩ api hl hn ha
  refine ⟨r', h1, ?_⟩
  intro idx v s a hi hex hv hq3 hq4
  obtain ⟨p, p', h3, h4, _, h5⟩ := h2 idx v.name s hi hex
  rw [permitted_iff h3, permitted_iff h4, h5]
  refine or_congr_right ?_
  rw [title_sentence]
  constructor
  · rintro ⟨rfl, h6, h7⟩
    rw [hv h6]
    exact ⟨_, rfl, (means_iff scope s).mpr h7⟩
  · rintro ⟨w, h6, h7⟩
    obtain ⟨e1, e2, e3⟩ := sentence_inj hq1.1 hq3.1 hq2 hq4 h6
    subst e3
    exact ⟨e2.symm, (pkgText_name hq1.2 hq3.2 e1).symm, (means_iff scope s).mp h7⟩

private def foo1 : PkgId := ⟨str! "foo", str! "1.0.0", false⟩
private def foo2 : PkgId := ⟨str! "foo", str! "2.0.0", false⟩
private def exampleDoc : Entries := [(str! "common", .table [(str! "version", .int 3)])]
private def exampleDoc' : Entries :=
  [(str! "common", .table [(str! "version", .int 3)]),
   (str! "pkg", .table [(str! "foo", .table [(str! "allow_apis", .array [.str (str! "fs")])])])]
private def exampleRaw : Raw := { common := { version := 3 } }
private def exampleRaw' : Raw :=
  { exampleRaw with packages := [(str! "foo", .mk { allowApis := [str! "fs"] } none none none)] }

/-- **C129, disagreement.** ``Allow `foo[1.0.0]` to use `fs` API`` permits this to version 2 of the package, too. -/
theorem C129_versions : ¬ C129_Claim (fun _ _ => True) := by
  intro h
  obtain ⟨r', h1, h2⟩ := h 0 exampleDoc exampleDoc' exampleRaw true foo1 .all (str! "fs") rfl (by decide)
    ⟨by unfold Quotable; decide, by decide⟩ (by unfold Quotable; decide) rfl
  have h1' : some exampleRaw' = some r' := h1
  cases h1'
  have h3 := (h2 [⟨str! "foo", false, false⟩] foo2 .all (str! "fs") ⟨_, List.mem_cons_self .., rfl⟩ trivial trivial
    ⟨by unfold Quotable; decide, by decide⟩ (by unfold Quotable; decide)).mp
    ⟨{ allowApis := [str! "fs"] }, ⟨_, rfl, rfl⟩, by decide⟩
  rcases h3 with ⟨p, ⟨c, h4, h5⟩, h6⟩ | ⟨w, h4, _⟩
  · have h4' : some (PkgCfg.mk {} none none none) = some c := h4
    cases h4'
    subst h5
    cases h6
  · rw [title_sentence] at h4
    have := (sentence_inj (by unfold Quotable; decide) (by unfold Quotable; decide) (by unfold Quotable; decide)
      (by unfold Quotable; decide) h4).1
    revert this
    decide

/-! Non-vacuity of C129. -/
example : (Fix.allowApi foo1 .fromBuild (str! "fs")).title =
    str! "Allow `foo[1.0.0]` to use `fs` API when building build scripts" := rfl
example : Says (str! "Allow `foo[1.0.0]` to use `fs` API when building build scripts") foo1 .build (str! "fs") :=
  ⟨_, rfl, .buildScriptsOwn⟩
example : (Fix.allowApi foo1 .all (str! "fs")).apply true exampleDoc = some exampleDoc' := rfl
example : load builtIns 2 exampleDoc = some exampleRaw := rfl

/-! ## Different titles -/

/-- **C129, different titles.** For every problem: two different edits that are offered for it have different titles. -/
theorem C129_titles_differ (k : Nat) (order : List (List Str) → List (List Str)) (sandboxOf : Str → Sandbox)
    (apis : AMap Api ApiCfg) (P : Problem) (fs : List Fix) (h : fixes k order sandboxOf apis P = some fs) (f g : Fix) (hf : f ∈ fs)
    (hg : g ∈ fs) (ht : f.title = g.title) : f = g := by
  have hpath : ∀ (a b : Bool) (u : ApiUsages) (f g : Fix), f ∈ pathFixes k order apis a u → g ∈ pathFixes k order apis b u →
      f.title = g.title → f = g := by
    intro a b u f g hf hg ht
    obtain ⟨s, rfl⟩ := mem_pathFixes hf
    obtain ⟨s', rfl⟩ := mem_pathFixes hg
    cases a <;> cases b <;> simp only [Bool.false_eq_true, if_false, if_true, Fix.title, quote] at ht ⊢
    · simp at ht
      rw [ht]
    · exact absurd ht (by simp)
    · exact absurd ht (by simp)
    · simp at ht
      rw [ht]
  have hallow : ∀ (u : ApiUsages) (s : Scope) (b : Bool) (g : Fix), g ∈ pathFixes k order apis b u →
      (Fix.allowApi u.pkg s u.api).title ≠ g.title := by
    intro u s b g hg ht
    obtain ⟨s', rfl⟩ := mem_pathFixes hg
    cases b <;> simp [Fix.title] at ht
  have hwhere : ∀ (u : ApiUsages) (s t : Scope), (Fix.allowApi u.pkg s u.api).title = (Fix.allowApi u.pkg t u.api).title →
      Fix.allowApi u.pkg s u.api = Fix.allowApi u.pkg t u.api := by
    intro u s t h
    rw [title_sentence, title_sentence] at h
    unfold sentence at h
    have := List.append_cancel_left h
    cases s <;> cases t <;> first
      | rfl
      | (exfalso; revert this; decide)
  cases P with
  | disallowedApiUsage u =>
    simp only [fixes, allowFixes_eq, Option.map_some, Option.some.injEq] at h
    subst h
    rcases List.mem_append.mp hf with hf | hf <;> rcases List.mem_append.mp hg with hg | hg
    · obtain ⟨s, _, rfl⟩ := List.mem_map.mp hf
      obtain ⟨t, _, rfl⟩ := List.mem_map.mp hg
      exact hwhere u s t ht
    · obtain ⟨s, _, rfl⟩ := List.mem_map.mp hf
      exact absurd ht (hallow u s _ g hg)
    · obtain ⟨s, _, rfl⟩ := List.mem_map.mp hg
      exact absurd ht.symm (hallow u s _ f hf)
    · exact hpath _ _ u f g hf hg ht
  | offTreeApiUsage u x =>
    simp only [fixes, allowFixes_eq, Option.map_some, Option.some.injEq] at h
    subst h
    have hp : ∀ f, f ∈ pathFixes k order apis true u ++ pathFixes k order apis false u →
        ∃ b, f ∈ pathFixes k order apis b u := by
      intro f hf
      rcases List.mem_append.mp hf with hf | hf
      · exact ⟨true, hf⟩
      · exact ⟨false, hf⟩
    rcases List.mem_append.mp hf with hf | hf <;> rcases List.mem_append.mp hg with hg | hg
    · obtain ⟨a, hf⟩ := hp f hf
      obtain ⟨b, hg⟩ := hp g hg
      exact hpath a b u f g hf hg ht
    · obtain ⟨a, hf⟩ := hp f hf
      obtain ⟨s, _, rfl⟩ := List.mem_map.mp hg
      exact absurd ht.symm (hallow u s _ f hf)
    · obtain ⟨b, hg⟩ := hp g hg
      obtain ⟨s, _, rfl⟩ := List.mem_map.mp hf
      exact absurd ht (hallow u s _ g hg)
    · obtain ⟨s, _, rfl⟩ := List.mem_map.mp hf
      obtain ⟨t, _, rfl⟩ := List.mem_map.mp hg
      exact hwhere u s t ht
  | disallowedBuildInstruction pkg i =>
    simp only [fixes, Option.map_eq_some_iff] at h
    obtain ⟨l, _, rfl⟩ := h
    obtain ⟨s, _, rfl⟩ := List.mem_map.mp hf
    obtain ⟨t, _, rfl⟩ := List.mem_map.mp hg
    simp [Fix.title, quote] at ht
    rw [ht]
  | executionFailed crate out =>
    cases h
    unfold executionFixes at hf hg
    split at hf
    · rename_i hne
      rw [if_pos hne] at hg
      split at hf
      · rename_i hn
        rw [if_pos hn] at hg
        simp only [List.nil_append, List.mem_singleton] at hf hg
        rw [hf, hg]
      · rename_i hn
        rw [if_neg hn] at hg
        simp only [List.cons_append, List.nil_append, List.mem_cons, List.not_mem_nil, or_false] at hf hg
        rcases hf with rfl | rfl <;> rcases hg with rfl | rfl <;> first
          | rfl
          | simp [Fix.title] at ht
    · cases hf
  | newConfigVersionAvailable v =>
    simp only [fixes, Option.some.injEq] at h
    cases hk : knownVersion v with
    | none =>
      rw [hk] at h
      subst h
      cases hf
    | some n =>
      rw [hk] at h
      subst h
      simp only [List.mem_cons, List.not_mem_nil, or_false] at hf hg
      rcases hf with rfl | rfl <;> rcases hg with rfl | rfl <;> first
        | rfl
        | simp [Fix.title] at ht
  | missingConfiguration m =>
    cases h
    simp only [List.mem_cons, List.not_mem_nil, or_false] at hf hg
    rcases hf with rfl | rfl <;> rcases hg with rfl | rfl <;> first
      | rfl
      | (exfalso; revert ht; decide)
  | selectSandbox =>
    cases h
    simp only [List.mem_cons, List.not_mem_nil, or_false] at hf hg
    rcases hf with rfl | rfl <;> rcases hg with rfl | rfl <;> first
      | rfl
      | (exfalso; revert ht; decide)
  | importStdApi api =>
    cases h
    simp only [List.mem_cons, List.not_mem_nil, or_false] at hf hg
    rcases hf with rfl | rfl | rfl <;> rcases hg with rfl | rfl | rfl <;> first
      | rfl
      | simp [Fix.title] at ht
  | availableApi pkg api cfg =>
    cases h
    simp only [List.mem_cons, List.not_mem_nil, or_false] at hf hg
    rcases hf with rfl | rfl | rfl <;> rcases hg with rfl | rfl | rfl <;> first
      | rfl
      | simp [Fix.title] at ht
  | possibleExportedApi pkg api sym =>
    cases h
    simp only [List.mem_cons, List.not_mem_nil, or_false] at hf hg
    rcases hf with rfl | rfl <;> rcases hg with rfl | rfl <;> first
      | rfl
      | simp [Fix.title] at ht
  | _ =>
    cases h
    first
      | (cases hf; done)
      | (simp only [List.mem_singleton] at hf hg
         rw [hf, hg])

/-! Non-vacuity. -/
example : (fixes 0 id (fun _ => {}) [] (.disallowedApiUsage { pkg := foo1, scope := .build, api := str! "fs", usages := [] })).map
    (·.map Fix.title) = some [str! "Allow `foo[1.0.0]` to use `fs` API when building its own build script",
      str! "Allow `foo[1.0.0]` to use `fs` API when building build scripts", str! "Allow `foo[1.0.0]` to use `fs` API"] := rfl

end Cackle.Fixes
