import Verif.Lemmas.EditApis
import Verif.Props.Imports

/-!
# C70, C71, C72, C73, and C05 for documents: edits of API definitions, imports, `[common]`; removals
-/

namespace Cackle.Editor
open Cackle Config Perm Toml
open Cackle.ApiMap (Api)

/-! ## C70: edits of API definitions -/

/-- The definition that an edit says it adds to, and what it adds. -/
def apiAdditions : Edit → Option (Api × ApiCfg)
  | .extendApi api path => some (api, { incl := [path] })
  | .excludeFromApi api path => some (api, { excl := [path] })
  | .noDetectApi api pkg => some (api, { noAutoDetect := [pkg] })
  | .inlineApi _ api cfg => some (api, { incl := cfg.incl, excl := cfg.excl })
  | _ => none

/-- The package whose exported APIs are from then on considered dealt with, and the API imported. -/
def importChange : Edit → Option (Str × List Api)
  | .importApi pkg api => some (pkg, [api])
  | .inlineApi pkg _ _ => some (pkg, [])
  | .ignoreApi pkg => some (pkg, [])
  | _ => none

/-- Two sections differ at most in the import list, which is now present and has `new` in addition. -/
def ImportsAdd (old new : Perms) (add : List Api) : Prop :=
  ∃ l, new = { old with imports := some l } ∧ ∀ x, x ∈ l ↔ x ∈ old.imports.getD [] ∨ x ∈ add

/-- The sections of the file, after an edit that says it changes the import list of a package. -/
def SectionsAfter (r r' : Raw) (change : Option (Str × List Api)) : Prop :=
  (∀ q s, (∀ add, change ≠ some (q, add)) ∨ s ≠ .all → listed r' q s = listed r q s) ∧
  ∀ pkg add, change = some (pkg, add) → ∃ new, listed r' pkg .all = some new ∧
    ImportsAdd ((listed r pkg .all).getD {}) new add

/-- The API definitions, after an edit that says it adds to a definition. -/
def ApisAfter (r r' : Raw) : Option (Api × ApiCfg) → Prop
  | none => r'.apis = r.apis
  | some (api, add) => ApisAdd r.apis r'.apis api add

theorem ignoreApi_eq (pkg : Str) (doc : Entries) :
    ignoreApi pkg doc = withTable touchImport (pkgPath ⟨pkg, .all⟩) doc := rfl

theorem sectionsAfter_none (r : Raw) (m : AMap Api ApiCfg) : SectionsAfter r { r with apis := m } none := by
  refine ⟨fun q s _ => ?_, fun _ _ h => by cases h⟩
  cases s <;> rfl

theorem sectionsAfter_import (r : Raw) (pkg : Str) (g : Perms → Perms) (add : List Api)
    (hg : ∀ p, ImportsAdd p (g p) add) :
    SectionsAfter r { r with
      packages := r.packages.insert pkg (modSection g .all ((r.packages.get? pkg).getD .default)) }
      (some (pkg, add)) := by
  constructor
  · intro q s h
    rw [listed_modSection r g ⟨pkg, .all⟩ q s rfl, if_neg]
    rintro ⟨rfl, rfl⟩
    rcases h with h | h
    · exact h add rfl
    · exact h rfl
  · intro p a h
    simp only [Option.some.injEq, Prod.mk.injEq] at h
    obtain ⟨rfl, rfl⟩ := h
    refine ⟨_, by rw [listed_modSection r g ⟨pkg, .all⟩ pkg .all rfl, if_pos ⟨rfl, rfl⟩], hg _⟩

theorem importsAdd_touch (p : Perms) : ImportsAdd p { p with imports := some (p.imports.getD []) } [] :=
  ⟨_, rfl, fun x => by simp⟩

theorem importsAdd_add (api : Api) (p : Perms) :
    ImportsAdd p { p with imports := some (addStr api (p.imports.getD [])) } [api] :=
  ⟨_, rfl, fun x => by rw [mem_addStr]; simp [or_comm]⟩

/-- **C70.** Each edit that says it changes an API definition or the import list of a package gives a document
that loads; in the result, the definition has what it had and in addition exactly what the edit names, the import
list is present and has exactly the named API in addition, and nothing else differs. -/
theorem C70_exact_edit (builtIns : AMap Api ApiCfg) (n : Nat) (doc doc' : Entries) (r : Raw) (e : Edit)
    (he : (apiAdditions e).isSome ∨ (importChange e).isSome)
    (hl : load builtIns (n + 2) doc = some r) (ha : e.apply doc = some doc') :
    ∃ r', load builtIns (n + 2) doc' = some r' ∧ ApisAfter r r' (apiAdditions e) ∧
      SectionsAfter r r' (importChange e) ∧
      r'.common = r.common ∧ r'.sandbox = r.sandbox ∧ r'.rustcSandbox = r.rustcSandbox := by
  cases e with
  | extendApi api path =>
    obtain ⟨m, h1, h2⟩ := load_api (apiEdit_incl [path]) hl ha
    exact ⟨_, h1, h2, sectionsAfter_none r m, rfl, rfl, rfl⟩
  | excludeFromApi api path =>
    obtain ⟨m, h1, h2⟩ := load_api (apiEdit_excl [path]) hl ha
    exact ⟨_, h1, h2, sectionsAfter_none r m, rfl, rfl, rfl⟩
  | noDetectApi api path =>
    obtain ⟨m, h1, h2⟩ := load_api (apiEdit_noDetect [path]) hl ha
    exact ⟨_, h1, h2, sectionsAfter_none r m, rfl, rfl, rfl⟩
  | importApi pkg api =>
    have h1 := load_section (permEdit_import api) hl ha
    exact ⟨_, h1, rfl, sectionsAfter_import r pkg _ _ (importsAdd_add api), rfl, rfl, rfl⟩
  | ignoreApi pkg =>
    have h1 := load_section permEdit_touch hl ha
    exact ⟨_, h1, rfl, sectionsAfter_import r pkg _ _ importsAdd_touch, rfl, rfl, rfl⟩
  | inlineApi pkg api cfg =>
    have ha : (inlineApiDef api cfg doc).bind (ignoreApi pkg) = some doc' := ha
    simp only [Option.bind_eq_some_iff] at ha
    obtain ⟨d, hd, ha⟩ := ha
    obtain ⟨m, h1, h2⟩ := load_api (apiEdit_both cfg.incl cfg.excl) hl hd
    have h3 := load_section permEdit_touch h1 ha
    refine ⟨_, h3, h2, ?_, rfl, rfl, rfl⟩
    have h4 := sectionsAfter_import { r with apis := m } pkg _ _ importsAdd_touch
    constructor
    · intro q s h
      have := h4.1 q s h
      rw [this]
      cases s <;> rfl
    · exact h4.2
  | _ => simp [apiAdditions, importChange] at he

/-- **C70, built-in definitions.** The edit that writes the definition of a built-in API into the file gives a
document that loads; the definition then has everything that the built-in one has, and nothing else differs. -/
theorem C70_inline_std (builtIns : AMap Api ApiCfg) (n : Nat) (doc doc' : Entries) (r : Raw) (api : Api)
    (hl : load builtIns (n + 2) doc = some r) (ha : inlineStdApi builtIns api doc = some doc') :
    ∃ r' b, load builtIns (n + 2) doc' = some r' ∧ builtIns.get? api = some b ∧
      ApisAdd r.apis r'.apis api { incl := b.incl, excl := b.excl } ∧
      r'.packages = r.packages ∧ r'.common = r.common ∧ r'.sandbox = r.sandbox ∧
      r'.rustcSandbox = r.rustcSandbox := by
  unfold inlineStdApi at ha
  simp only [Option.bind_eq_some_iff] at ha
  obtain ⟨b, hb, ha⟩ := ha
  obtain ⟨m, h1, h2⟩ := load_api (apiEdit_both b.incl b.excl) hl ha
  exact ⟨_, b, h1, hb, h2, rfl, rfl, rfl, rfl⟩

/-! Non-vacuity of C70. -/
def exApiDoc : Entries :=
  [(str! "common", .table [(str! "version", .int 3), (str! "import_std", .array [.str (str! "fs")])]),
   (str! "api", .table [(str! "fs", .table [(str! "include", .array [.str (str! "tokio::fs")])])]),
   (str! "pkg", .table [(str! "foo", .table [(str! "allow_apis", .array [.str (str! "fs")])])])]

def exBuiltIns : AMap Api ApiCfg := [(str! "fs", { incl := [str! "std::fs"], excl := [] })]

example : (load exBuiltIns 2 exApiDoc).map (·.apis) =
    some [(str! "fs", { incl := [str! "tokio::fs", str! "std::fs"], excl := [] })] := rfl
example : ((Edit.extendApi (str! "fs") (str! "foo::fs")).apply exApiDoc).bind (fun d =>
    (load exBuiltIns 2 d).map (·.apis)) =
    some [(str! "fs", { incl := [str! "foo::fs", str! "tokio::fs", str! "std::fs"], excl := [] })] := rfl
example : ((Edit.inlineApi (str! "foo") (str! "net") { incl := [str! "foo::net"] }).apply exApiDoc).bind (fun d =>
    (load exBuiltIns 2 d).map (fun r => (r.apis, listed r (str! "foo") .all))) =
    some ([(str! "fs", { incl := [str! "tokio::fs", str! "std::fs"], excl := [] }),
      (str! "net", { incl := [str! "foo::net"] })], some { allowApis := [str! "fs"], imports := some [] }) := rfl
example : (inlineStdApi exBuiltIns (str! "fs") exApiDoc).isSome = true := rfl

/-! ## C71: problems about exported APIs go away -/

/-- The edit can be applied unless a table on its way is an inline table. -/
theorem api_isSome {name : Str} {vs : List Str} (hname : name ∈ [str! "include", str! "exclude", str! "no_auto_detect"])
    {n : Nat} {api : Api} {doc : Entries} {r : Raw} (h : readDoc n doc = some r)
    (hr : Reach [str! "api", api] doc) : ∃ doc', withTable (addToArray name vs) [str! "api", api] doc = some doc' := by
  rw [← Option.isSome_iff_exists]
  obtain ⟨ap, h1, sub, h2, _⟩ := hr
  refine withTable_isSome h1 (withTable_isSome h2 ?_)
  have hm := mapField_get (readDoc_iff.mp h).2.2.1 h1
  have hc : ∃ c, readApi (.table sub) = some c := by
    cases hg : AMap.get? ap api with
    | none =>
      rw [hg] at h2
      cases h2
      exact ⟨{}, rfl⟩
    | some it =>
      rw [hg] at h2
      simp only [Option.getD_some] at h2
      subst h2
      obtain ⟨c, h3, _⟩ := readMap_item hm hg
      exact ⟨c, h3⟩
  obtain ⟨c, hc⟩ := hc
  rw [readApi_iff] at hc
  obtain ⟨es, e1, _, f1, f2, f3⟩ := hc
  cases e1
  simp only [withTable]
  simp only [List.mem_cons, List.not_mem_nil, or_false] at hname
  rcases hname with rfl | rfl | rfl
  · exact addToArray_isSome f1
  · exact addToArray_isSome f2
  · exact addToArray_isSome f3

/-- **C71, possible exports.** When cackle reports that a package seems to export an API, both offered edits can be
applied (unless the API is written as an inline table), and with the resulting configuration the same finding is
not reported. -/
theorem C71_possible_export_gone (builtIns : AMap Api ApiCfg) (n : Nat) (doc : Entries) (r : Raw)
    (hl : load builtIns (n + 2) doc = some r) (c : Checker.State) (pkg : PkgId) (api : Api) (sym : Str)
    (hr : Reach [str! "api", api] doc) (incl excl : ApiUsages → List Edit) (sandboxOf : Str → Sandbox) :
    ∃ es, fixes incl excl sandboxOf (.possibleExportedApi pkg api sym) = some es ∧ es ≠ [] ∧
      ∀ e ∈ es, ∃ doc' r', e.apply doc = some doc' ∧ load builtIns (n + 2) doc' = some r' ∧
        Checker.exportProblem (Checker.updateConfig c r') (pkg, api, sym) = [] := by
  refine ⟨_, rfl, by simp, ?_⟩
  have hrd : ∃ r0, readDoc (n + 2) doc = some r0 := by
    unfold load at hl
    simp only [Option.bind_eq_some_iff] at hl
    exact ⟨hl.choose, hl.choose_spec.1⟩
  obtain ⟨r0, hr0⟩ := hrd
  have fin : ∀ (r' : Raw) (d : ApiCfg), r'.apis.get? api = some d →
      (pkg.name ∈ d.noAutoDetect ∨ pkg.name ++ [':', ':'] ++ api ∈ d.incl) →
      Checker.exportProblem (Checker.updateConfig c r') (pkg, api, sym) = [] := by
    intro r' d hd h
    unfold Checker.exportProblem
    simp only []
    split
    · rfl
    · rw [if_pos]
      show (r'.apis.get? api).any _ = true
      rw [hd]
      simpa using h
  intro e he
  simp only [List.mem_cons, List.not_mem_nil, or_false] at he
  rcases he with rfl | rfl
  · obtain ⟨doc', hd⟩ := api_isSome (vs := [pkg.name ++ [':', ':'] ++ api]) (name := str! "include") (by decide) hr0 hr
    obtain ⟨r', h1, ⟨_, d, h3, h4, _⟩, _⟩ := C70_exact_edit builtIns n doc doc' r
      (.extendApi api (pkg.name ++ [':', ':'] ++ api)) (.inl rfl) hl hd
    exact ⟨doc', r', hd, h1, fin r' d h3 (.inr ((h4 _).mpr (.inr (by simp))))⟩
  · obtain ⟨doc', hd⟩ := api_isSome (vs := [pkg.name]) (name := str! "no_auto_detect") (by decide) hr0 hr
    obtain ⟨r', h1, ⟨_, d, h3, _, _, h4⟩, _⟩ := C70_exact_edit builtIns n doc doc' r
      (.noDetectApi api pkg.name) (.inl rfl) hl hd
    exact ⟨doc', r', hd, h1, fin r' d h3 (.inl ((h4 _).mpr (.inr (by simp))))⟩

/-- The problem is about an API that the named package exports. -/
def AboutExportsOf (name : Str) (P : Problem) : Prop := ∃ pkg api cfg, P = .availableApi pkg api cfg ∧ pkg.name = name

theorem mem_unusedImports {exports : PkgId → Option (AMap Api ApiCfg)} {ids : List PkgId} {cfg : Raw} {P : Problem} :
    P ∈ Exports.unusedImports exports ids cfg ↔ ∃ pkg ∈ ids, ∃ apis a d, exports pkg = some apis ∧ (a, d) ∈ apis ∧
      P = .availableApi pkg a d ∧ ¬ ∃ p, listed cfg pkg.name .all = some p ∧ p.imports.isSome := by
  unfold Exports.unusedImports
  rw [List.mem_flatMap]
  constructor
  · rintro ⟨pkg, hp, h⟩
    split at h
    · cases h
    · rename_i hn
      split at h
      · cases h
      · rename_i apis ha
        obtain ⟨⟨a, d⟩, h1, rfl⟩ := List.mem_map.mp h
        refine ⟨pkg, hp, apis, a, d, ha, h1, rfl, ?_⟩
        rintro ⟨p, h2, h3⟩
        apply hn
        simp only [listed, Option.map_eq_some_iff] at h2
        obtain ⟨c, h4, rfl⟩ := h2
        simp [h4, h3]
  · rintro ⟨pkg, hp, apis, a, d, ha, h1, rfl, hn⟩
    refine ⟨pkg, hp, ?_⟩
    rw [if_neg, ha]
    · exact List.mem_map.mpr ⟨(a, d), h1, rfl⟩
    · intro h
      apply hn
      cases hc : AMap.get? cfg.packages pkg.name with
      | none => simp [hc] at h
      | some c =>
        simp only [hc, Option.any_some] at h
        exact ⟨c.perms, by simp [listed, hc], h⟩

/-- **C71, available APIs.** When cackle reports that a package exports an API that is not imported, then after any
of the offered edits that can be applied, no such problem is left for that package, and those for other packages
are as before. -/
theorem C71_available_gone (builtIns : AMap Api ApiCfg) (n : Nat) (doc doc' : Entries) (r : Raw)
    (hl : load builtIns (n + 2) doc = some r) (pkg : PkgId) (api : Api) (cfg : ApiCfg)
    (incl excl : ApiUsages → List Edit) (sandboxOf : Str → Sandbox) :
    ∃ es, fixes incl excl sandboxOf (.availableApi pkg api cfg) = some es ∧ es ≠ [] ∧
      ∀ e ∈ es, e.apply doc = some doc' → ∃ r', load builtIns (n + 2) doc' = some r' ∧
        ∀ exports ids P, P ∈ Exports.unusedImports exports ids r' ↔
          P ∈ Exports.unusedImports exports ids r ∧ ¬ AboutExportsOf pkg.name P := by
  refine ⟨_, rfl, by simp, ?_⟩
  intro e he ha
  have hc : ∃ add, importChange e = some (pkg.name, add) := by
    simp only [List.mem_cons, List.not_mem_nil, or_false] at he
    rcases he with rfl | rfl | rfl <;> exact ⟨_, rfl⟩
  obtain ⟨add, hc⟩ := hc
  obtain ⟨r', h1, _, ⟨h2, h3⟩, _⟩ := C70_exact_edit builtIns n doc doc' r e (.inr (by rw [hc]; rfl)) hl ha
  refine ⟨r', h1, ?_⟩
  intro exports ids P
  obtain ⟨new, h4, l, h5, _⟩ := h3 _ _ hc
  have hsame : ∀ q, q ≠ pkg.name → listed r' q .all = listed r q .all := by
    intro q hq
    refine h2 q .all (.inl ?_)
    intro add' h
    rw [hc] at h
    simp only [Option.some.injEq, Prod.mk.injEq] at h
    exact hq h.1.symm
  rw [mem_unusedImports, mem_unusedImports]
  constructor
  · rintro ⟨p, hp, apis, a, d, ha, hm, rfl, hn⟩
    have hne : p.name ≠ pkg.name := by
      intro h
      apply hn
      rw [h]
      exact ⟨new, h4, by rw [h5]; rfl⟩
    refine ⟨⟨p, hp, apis, a, d, ha, hm, rfl, ?_⟩, ?_⟩
    · rw [← hsame _ hne]; exact hn
    · rintro ⟨p', a', d', h6, h7⟩
      cases h6
      exact hne h7
  · rintro ⟨⟨p, hp, apis, a, d, ha, hm, rfl, hn⟩, hnot⟩
    have hne : p.name ≠ pkg.name := fun h => hnot ⟨p, a, d, rfl, h⟩
    refine ⟨p, hp, apis, a, d, ha, hm, rfl, ?_⟩
    rw [hsame _ hne]; exact hn

/-! Non-vacuity of C71. -/
example : Reach [str! "api", str! "fs"] exApiDoc := ⟨_, rfl, _, rfl, trivial⟩
example : (load exBuiltIns 2 exApiDoc).map (Exports.unusedImports (fun _ => some [(str! "fs", {})])
    [exCrate.pkgId, { exCrate.pkgId with name := str! "bar" }]) =
  some [.availableApi exCrate.pkgId (str! "fs") {},
    .availableApi { exCrate.pkgId with name := str! "bar" } (str! "fs") {}] := rfl
example : ((Edit.ignoreApi (str! "foo")).apply exApiDoc).isSome = true := rfl

/-! ## C72: removals -/

/-- **C72, sections.** Removing an unused section removes that section, and everything of the package if it is the
package's own section; all other sections and everything else stay as they are. -/
theorem C72_remove_section (builtIns : AMap Api ApiCfg) (n : Nat) (doc doc' : Entries) (r : Raw) (sel : PermSel)
    (hl : load builtIns (n + 2) doc = some r) (ha : (Edit.removeUnusedPkgConfig sel).apply doc = some doc') :
    ∃ r', load builtIns (n + 2) doc' = some r' ∧ SameGlobals r r' ∧
      ∀ q s, listed r' q s = if q = sel.pkg ∧ (sel.scope = .all ∨ s = sel.scope) then none else listed r q s := by
  have ha : removeUnusedPkgConfig sel doc = some doc' := ha
  have hl' := hl
  unfold load at hl
  simp only [Option.bind_eq_some_iff] at hl
  obtain ⟨r0, hr0, hp⟩ := hl
  obtain ⟨m, h1, h2⟩ := readDoc_drop hr0 ha
  obtain ⟨h3, h4, _⟩ := parseRaw_packages hp m
  refine ⟨{ r with packages := m }, ?_, ⟨rfl, rfl, rfl, rfl⟩, ?_⟩
  · unfold load
    rw [h1]
    exact h3
  · intro q s
    rw [listed_eq, listed_eq]
    show Option.map PkgCfg.perms ((AMap.get? m q).bind _) = _
    rw [h2, ← h4]
    unfold dropPkg
    by_cases hs : sel.scope = .all
    · rw [if_pos hs, AMap.get?_erase]
      by_cases hq : q = sel.pkg
      · simp [hq, hs]
      · have : ¬ sel.pkg = q := fun e => hq e.symm
        simp [hq, this]
    · rw [if_neg hs]
      cases hg : AMap.get? r.packages sel.pkg with
      | none =>
        by_cases hq : q = sel.pkg
        · subst hq
          simp [hg]
        · simp [hq]
      | some c =>
        simp only [AMap.get?_insert]
        by_cases hq : q = sel.pkg
        · subst hq
          simp only [if_true, Option.bind_some, true_and, hg, hs, false_or]
          rw [section_drop sel.scope s hs]
          by_cases hss : s = sel.scope <;> simp [hss]
        · have : ¬ sel.pkg = q := fun e => hq e.symm
          simp [hq, this]

theorem foldl_erase_nodup {l : List Api} (hn : l.Nodup) (vs : List Api) :
    vs.foldl (fun l v => l.erase v) l = l.filter (fun x => x ∉ vs) := by
  induction vs generalizing l with
  | nil => exact (List.filter_eq_self.mpr (by simp)).symm
  | cons v vs ih =>
    rw [List.foldl_cons, ih (hn.sublist List.erase_sublist), hn.erase_eq_filter, List.filter_filter]
    apply List.filter_congr
    intro x _
    by_cases h1 : x = v <;> by_cases h2 : x ∈ vs <;> simp [h1, h2]

theorem listed_modOpt (g : Perms → Perms) (s s' : Scope) (c : PkgCfg) :
    (sectionOf (modOpt g s c) s').map PkgCfg.perms =
      if s' = s then ((sectionOf c s).map PkgCfg.perms).map g else (sectionOf c s').map PkgCfg.perms := by
  obtain ⟨p, b, t, f⟩ := c
  cases s <;> cases s' <;> cases f <;>
    simp [modOpt, sectionOf, PkgCfg.perms, PkgCfg.build, PkgCfg.test, PkgCfg.from_]
  all_goals rfl

/-- **C72, grants.** Removing unused grants from a section without repeated entries (as validation requires) removes
exactly those grants from exactly that section. -/
theorem C72_remove_grants (builtIns : AMap Api ApiCfg) (n : Nat) (doc doc' : Entries) (r : Raw) (sel : PermSel)
    (apis : List Api) (hl : load builtIns (n + 2) doc = some r)
    (hn : ∀ p, listed r sel.pkg sel.scope = some p → p.allowApis.Nodup)
    (ha : (Edit.removeUnusedAllowApis sel apis).apply doc = some doc') :
    ∃ r', load builtIns (n + 2) doc' = some r' ∧ SameGlobals r r' ∧
      ∀ q s, listed r' q s = if q = sel.pkg ∧ s = sel.scope
        then (listed r q s).map (fun p => { p with allowApis := p.allowApis.filter (fun a => a ∉ apis) })
        else listed r q s := by
  have ha : withOptTable (removeApis apis) (pkgPath sel) doc = some doc' := ha
  have hl' := hl
  unfold load at hl
  simp only [Option.bind_eq_some_iff] at hl
  obtain ⟨r0, hr0, hp⟩ := hl
  obtain ⟨_, hpk, _⟩ := parseRaw_packages hp []
  have hstep : ∀ p, listed r sel.pkg sel.scope = some p →
      apis.foldl (fun l v => l.erase v) p.allowApis = p.allowApis.filter (fun a => a ∉ apis) :=
    fun p h => foldl_erase_nodup (hn p h) apis
  rcases edit_doc_opt (permEdit_removeApis apis) hr0 ha with ⟨rfl, hnone⟩ | ⟨c, hc, h'⟩
  · refine ⟨r, hl', ⟨rfl, rfl, rfl, rfl⟩, ?_⟩
    intro q s
    split
    · rename_i h
      obtain ⟨rfl, rfl⟩ := h
      rw [listed_eq, hpk, hnone]
      rfl
    · rfl
  · obtain ⟨h3, _, _⟩ := parseRaw_packages hp (r0.packages.insert sel.pkg (modOpt
      (fun p => { p with allowApis := apis.foldl (fun l v => l.erase v) p.allowApis }) sel.scope c))
    refine ⟨{ r with packages := r0.packages.insert sel.pkg (modOpt
      (fun p => { p with allowApis := apis.foldl (fun l v => l.erase v) p.allowApis }) sel.scope c) },
      by unfold load; rw [h']; exact h3, ⟨rfl, rfl, rfl, rfl⟩, ?_⟩
    intro q s
    rw [listed_eq]
    show Option.map PkgCfg.perms ((AMap.get? (AMap.insert r0.packages _ _) q).bind _) = _
    rw [AMap.get?_insert]
    by_cases hq : q = sel.pkg
    · subst hq
      rw [if_pos rfl, Option.bind_some, listed_modOpt]
      have hls : listed r sel.pkg s = (sectionOf c s).map PkgCfg.perms := by
        rw [listed_eq, hpk, hc]
        rfl
      by_cases hs : s = sel.scope
      · subst hs
        rw [if_pos rfl, if_pos ⟨rfl, rfl⟩, ← hls]
        cases hx : listed r sel.pkg sel.scope with
        | none => rfl
        | some p =>
          simp only [Option.map_some]
          rw [hstep p hx]
      · rw [if_neg hs, if_neg (fun h => hs h.2), ← hls]
    · rw [if_neg (fun e => hq e.symm), if_neg (fun h => hq h.1), listed_eq, hpk]

/-! Non-vacuity of C72. -/
example : ∃ r, load [] 2 exDoc = some r ∧ listed r (str! "foo") .build = some { allowApis := [str! "fs"] } :=
  ⟨_, rfl, rfl⟩
example : ((Edit.removeUnusedPkgConfig ⟨str! "foo", .build⟩).apply exDoc).bind (fun d => (load [] 2 d).map
    (fun r => (listed r (str! "foo") .all, listed r (str! "foo") .build))) =
    some (some { allowApis := [str! "net"] }, none) := rfl
example : ((Edit.removeUnusedAllowApis ⟨str! "foo", .build⟩ [str! "fs"]).apply exDoc).bind (fun d => (load [] 2 d).map
    (fun r => (listed r (str! "foo") .all, listed r (str! "foo") .build))) =
    some (some { allowApis := [str! "net"] }, some {}) := rfl

/-! ## C73: switching built-in APIs on and off -/

/-- **C73.** Toggling the import of a built-in API changes only whether that API is imported (if no API is listed
twice): it is imported afterwards if and only if it was not before. -/
theorem C73_toggle (n : Nat) (doc doc' : Entries) (r : Raw) (api : Api) (hr : readDoc n doc = some r)
    (hn : r.common.importStd.Nodup) (ha : toggleStdImport api doc = some doc') :
    ∃ r', readDoc n doc' = some r' ∧ r' = { r with common := { r.common with importStd := r'.common.importStd } } ∧
      r'.common.importStd.Nodup ∧
      ∀ a, a ∈ r'.common.importStd ↔ if a = api then api ∉ r.common.importStd else a ∈ r.common.importStd := by
  refine ⟨_, readDoc_toggle hr ha, rfl, ?_, ?_⟩
  · show (if _ then _ else _ : List Str).Nodup
    split
    · exact hn.sublist List.erase_sublist
    · rename_i h
      rw [List.nodup_append]
      refine ⟨hn, by simp, ?_⟩
      intro a h1 b h2 hab
      simp only [List.mem_singleton] at h2
      subst h2 hab
      exact h h1
  · intro a
    show a ∈ (if _ then _ else _ : List Str) ↔ _
    by_cases hm : api ∈ r.common.importStd
    · rw [if_pos hm, hn.mem_erase_iff]
      by_cases h : a = api <;> simp [h, hm]
    · rw [if_neg hm, List.mem_append]
      by_cases h : a = api <;> simp [h, hm]

/-- **C73, effect.** After switching a built-in API on, loading succeeds and the API's definition includes the
built-in one; after switching it off, the definition is the one in the file. -/
theorem C73_toggle_effect (builtIns : AMap Api ApiCfg) (n : Nat) (doc doc' : Entries) (r0 r : Raw) (api : Api)
    (b : ApiCfg) (hr : readDoc n doc = some r0) (hl : parseRaw builtIns r0 = some r)
    (hn : r0.common.importStd.Nodup) (hb : builtIns.get? api = some b)
    (ha : toggleStdImport api doc = some doc') :
    ∃ r', load builtIns n doc' = some r' ∧
      (api ∉ r0.common.importStd → (∀ x ∈ b.incl, x ∈ (defOf r'.apis api).incl) ∧
        (∀ x ∈ b.excl, x ∈ (defOf r'.apis api).excl)) ∧
      (api ∈ r0.common.importStd → (∀ x, x ∈ (defOf r'.apis api).incl ↔ x ∈ (defOf r0.apis api).incl) ∧
        (∀ x, x ∈ (defOf r'.apis api).excl ↔ x ∈ (defOf r0.apis api).excl)) := by
  obtain ⟨r1, hr1, e1, hnd, hm⟩ := C73_toggle n doc doc' r0 api hr hn ha
  have parse : ∀ (x y : Raw), parseRaw builtIns x = some y ↔ ∃ c, mergeBuiltIns builtIns x = some c ∧
      { applyRuntimePatches c with
        rustcSandbox := (applyRuntimePatches c).rustcSandbox.inherit (applyRuntimePatches c).sandbox } = y := by
    intro x y
    unfold parseRaw
    simp only [Option.bind_eq_bind, Option.pure_def, Option.bind_eq_some_iff, Option.some.injEq]
  obtain ⟨c0, h0, _⟩ := (parse _ _).mp hl
  have hok : ¬ ∃ i ∈ r1.common.importStd, builtIns.get? i = none := by
    rintro ⟨i, hi, hbi⟩
    rw [hm] at hi
    split at hi
    · rename_i he
      rw [he, hb] at hbi
      cases hbi
    · have := ((C39_import_std builtIns r0).1).mpr ⟨i, hi, hbi⟩
      rw [this] at h0
      cases h0
  obtain ⟨c1, h1⟩ : ∃ c1, mergeBuiltIns builtIns r1 = some c1 := by
    cases h : mergeBuiltIns builtIns r1 with
    | none => exact absurd ((C39_import_std builtIns r1).1.mp h) hok
    | some c => exact ⟨c, rfl⟩
  refine ⟨_, by unfold load; rw [hr1]; exact (parse _ _).mpr ⟨c1, h1, rfl⟩, ?_⟩
  have hapis : (applyRuntimePatches c1).apis = c1.apis := (applyRuntimePatches_apis c1 []).2
  have key := (C39_import_std builtIns r1).2 c1 h1 api
  have hd : r1.apis = r0.apis := by rw [e1]
  have hbd : defOf builtIns api = b := by simp [defOf, hb]
  rw [hd, hbd] at key
  show (_ → (∀ x ∈ b.incl, x ∈ (defOf (applyRuntimePatches c1).apis api).incl) ∧
    (∀ x ∈ b.excl, x ∈ (defOf (applyRuntimePatches c1).apis api).excl)) ∧
    (_ → (∀ x, x ∈ (defOf (applyRuntimePatches c1).apis api).incl ↔ _) ∧
      (∀ x, x ∈ (defOf (applyRuntimePatches c1).apis api).excl ↔ _))
  rw [hapis]
  have hapi := hm api
  rw [if_pos rfl] at hapi
  constructor
  · intro hout
    exact ⟨fun x hx => (key.1 x).mpr (.inr ⟨hapi.mpr hout, hx⟩),
      fun x hx => (key.2.1 x).mpr (.inr ⟨hapi.mpr hout, hx⟩)⟩
  · intro hin
    have : api ∉ r1.common.importStd := fun h => (hapi.mp h) hin
    exact ⟨fun x => by rw [key.1]; simp [this], fun x => by rw [key.2.1]; simp [this]⟩

/-! Non-vacuity of C73. -/
example : ((toggleStdImport (str! "fs") exApiDoc).bind (fun d => (readDoc 2 d).map (·.common.importStd))) =
    some [] := rfl
example : ((toggleStdImport (str! "net") exApiDoc).bind (fun d => (readDoc 2 d).map (·.common.importStd))) =
    some [str! "fs", str! "net"] := rfl
example : (readDoc 2 exApiDoc).map (fun r => r.common.importStd) = some [str! "fs"] := rfl

/-! ## C05 for documents -/

/-- The English claim C05 for the edit that updates a document to version `n`. -/
def C05_DocClaim (n : Nat) : Prop :=
  ∀ (builtIns : AMap Api ApiCfg) (k : Nat) (doc doc' : Entries) (r0 c : Raw), readDoc k doc = some r0 →
    r0.common.version + 1 = n → load builtIns k doc = some c → updatePreserving n doc = some doc' →
    ∃ r1 c', readDoc k doc' = some r1 ∧ r1.common.version = n ∧ load builtIns k doc' = some c' ∧ SameBehaviour c c'

/-- **C05 for documents, 1 → 2.** The edit gives a version-2 document that loads and leads to the same decisions. -/
theorem C05_update_document_to_2 : C05_DocClaim 2 := by
  intro b k doc doc' r0 c hr hv hl he
  have h1 := readDoc_updatePreserving hr he
  have hp : parseRaw b r0 = some c := by
    unfold load at hl
    rw [hr] at hl
    exact hl
  obtain ⟨c', h2, h3⟩ := C05_update_to_2 b r0 c hv hp
  exact ⟨_, c', h1, rfl, by unfold load; rw [h1]; exact h2, h3⟩

/-- A version-2 document that allows unsafe code for one package. -/
def version2Doc : Entries :=
  [(str! "common", .table [(str! "version", .int 2)]),
   (str! "pkg", .table [(str! "p", .table [(str! "allow_unsafe", .bool true)])])]

/-- **C05 for documents, 2 → 3, disagreement.** -/
theorem C05_update_document_to_3_changes_behaviour : ¬ C05_DocClaim 3 := by
  intro h
  obtain ⟨r1, c', _, _, h1, _, _, _, _, _, h2⟩ := h [] 2 version2Doc _ _ _ rfl rfl rfl rfl
  have h3 := (h2 [⟨str! "p", false, false⟩] ⟨⟨str! "p", [], true⟩, .primary⟩).2
  have e : c' = { (⟨{ version := 3 }, [], [(str! "p", .leaf { allowUnsafe := true })], {}, {}⟩ : Raw) with } := by
    exact (Option.some.inj h1).symm
  subst e
  revert h3
  decide

/-- **C05 for documents, 2 → 3 (partial).** Everything except the extern decision is preserved. Missing: that
decision, for crates whose effective `allow_extern` differs from their effective `allow_unsafe`. -/
theorem C05_update_document_to_3_partial (builtIns : AMap Api ApiCfg) (k : Nat) (doc doc' : Entries) (r0 c : Raw)
    (hr : readDoc k doc = some r0) (hv : r0.common.version = 2) (hl : load builtIns k doc = some c)
    (he : updatePreserving 3 doc = some doc') :
    ∃ r1 c', readDoc k doc' = some r1 ∧ r1.common.version = 3 ∧ load builtIns k doc' = some c' ∧
      c.apis = c'.apis ∧ c.packages = c'.packages ∧ c.sandbox = c'.sandbox ∧
      c.rustcSandbox = c'.rustcSandbox ∧ c.common.explicitBuildScripts = c'.common.explicitBuildScripts ∧
      ∀ idx sel,
        unsafePermitted (withInheritance c idx) sel = unsafePermitted (withInheritance c' idx) sel ∧
        ((∀ p, (withInheritance c idx).get? (forNonBuildOutput sel) = some p → p.perms.allowExtern = p.perms.allowUnsafe) →
          externPermitted (withInheritance c idx) sel c.common.version =
            externPermitted (withInheritance c' idx) sel c'.common.version) := by
  have h1 := readDoc_updatePreserving hr he
  have hp : parseRaw builtIns r0 = some c := by
    unfold load at hl
    rw [hr] at hl
    exact hl
  obtain ⟨c', h2, h3⟩ := C05_update_to_3_partial builtIns r0 c hv hp
  exact ⟨_, c', h1, rfl, by unfold load; rw [h1]; exact h2, h3⟩

/-! Non-vacuity. -/
example : (updatePreserving 2 [(str! "common", .table [(str! "version", .int 1)])]).bind (readDoc 2) =
    some { common := { version := 2 }, rustcSandbox := { kind := some .disabled } } := rfl

end Cackle.Editor
