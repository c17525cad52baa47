import Verif.Lemmas.EditPerms
import Verif.Props.BuildScript
import Verif.Props.Checker

/-!
# C19, C20, C46, C64: edits of the configuration file
-/

namespace Cackle.Editor
open Cackle Config Perm Toml
open Cackle.ApiMap (Api)

/-! ## Specification -/

/-- The configuration that results from a file: reading and `parse_raw`. -/
def load (builtIns : AMap Api ApiCfg) (limit : Nat) (doc : Entries) : Option Raw :=
  (readDoc limit doc).bind (parseRaw builtIns)

/-- The permissions in effect at a selector. -/
def Effective (r : Raw) (idx : List IdxPkg) (q : Str) (s : Scope) (p : Perms) : Prop :=
  ∃ c, (withInheritance r idx).get? ⟨q, s⟩ = some c ∧ c.perms = p

/-- Nothing outside the package sections differs. -/
def SameGlobals (r r' : Raw) : Prop :=
  r'.common = r.common ∧ r'.apis = r.apis ∧ r'.sandbox = r.sandbox ∧ r'.rustcSandbox = r.rustcSandbox

/-! ## Lemmas -/

/-- Two configurations that differ only in one package's sections, as described by `F`. -/
structure Edited (r r' : Raw) (pkg : Str) (F : Scope → Perms → Perms) : Prop where
  globals : SameGlobals r r'
  nodup : r.packages.keys.Nodup → r'.packages.keys.Nodup
  lvl : ∀ q s, lvl r' q s = if q = pkg then F s (lvl r pkg s) else lvl r q s
  more : ∀ q s, (listed r q s).isSome → (listed r' q s).isSome

theorem Edited.trans {r1 r2 r3 : Raw} {pkg : Str} {F G : Scope → Perms → Perms} (h : Edited r1 r2 pkg F)
    (h' : Edited r2 r3 pkg G) : Edited r1 r3 pkg (fun s p => G s (F s p)) where
  globals := by
    obtain ⟨a, b, c, d⟩ := h.globals
    obtain ⟨a', b', c', d'⟩ := h'.globals
    exact ⟨a'.trans a, b'.trans b, c'.trans c, d'.trans d⟩
  nodup := fun hn => h'.nodup (h.nodup hn)
  lvl := by
    intro q s
    rw [h'.lvl, h.lvl, h.lvl]
    by_cases hq : q = pkg <;> simp [hq]
  more := fun q s hs => h'.more q s (h.more q s hs)

theorem edited_modSection (r : Raw) (g : Perms → Perms) (sel : PermSel) :
    Edited r
      { r with
        packages := r.packages.insert sel.pkg (modSection g sel.scope ((r.packages.get? sel.pkg).getD .default)) }
      sel.pkg
      (fun s p => if s = sel.scope then g p else p) where
  globals := ⟨rfl, rfl, rfl, rfl⟩
  nodup := nodup_insert
  lvl := by
    intro q s
    unfold Perm.lvl
    simp only [AMap.get?_insert]
    by_cases hq : q = sel.pkg
    · subst hq
      simp only [if_true, Option.bind_some]
      rw [section_modSection]
      cases hg : AMap.get? r.packages sel.pkg with
      | none =>
        by_cases hs : s = sel.scope
        · simp only [hs, if_true, Option.getD_some, Option.getD_none, Option.bind_none, Option.map_none]
          cases sel.scope <;> rfl
        · simp only [hs, if_false, Option.getD_none, Option.bind_none, Option.map_none]
          cases s <;> rfl
      | some c =>
        by_cases hs : s = sel.scope <;> simp [hs]
    · have : ¬ sel.pkg = q := fun e => hq e.symm
      simp [hq, this]
  more := by
    intro q s h
    rw [listed_eq] at h ⊢
    simp only [AMap.get?_insert]
    by_cases hq : sel.pkg = q
    · subst hq
      simp only [if_true, Option.bind_some, section_modSection]
      by_cases hs : s = sel.scope
      · simp [hs]
      · cases hg : AMap.get? r.packages sel.pkg with
        | none => simp [hg] at h
        | some c => simpa [hg, hs] using h
    · simpa [hq] using h

theorem edited_modOpt (r : Raw) (g : Perms → Perms) (hg : g {} = {}) (sel : PermSel) (c : PkgCfg)
    (hc : r.packages.get? sel.pkg = some c) :
    Edited r { r with packages := r.packages.insert sel.pkg (modOpt g sel.scope c) } sel.pkg
      (fun s p => if s = sel.scope then g p else p) where
  globals := ⟨rfl, rfl, rfl, rfl⟩
  nodup := nodup_insert
  lvl := by
    intro q s
    unfold Perm.lvl
    simp only [AMap.get?_insert]
    by_cases hq : q = sel.pkg
    · subst hq
      simp only [if_true, Option.bind_some, hc]
      rw [section_modOpt g hg]
      by_cases hs : s = sel.scope <;> simp [hs]
    · have : ¬ sel.pkg = q := fun e => hq e.symm
      simp [hq, this]
  more := by
    intro q s h
    rw [listed_eq] at h ⊢
    simp only [AMap.get?_insert, Option.isSome_map] at h ⊢
    by_cases hq : sel.pkg = q
    · subst hq
      simp only [if_true, Option.bind_some, isSome_modOpt]
      simpa [hc] using h
    · simpa [hq] using h

theorem edited_self (r : Raw) (g : Perms → Perms) (hg : g {} = {}) (sel : PermSel)
    (hc : r.packages.get? sel.pkg = none) :
    Edited r r sel.pkg (fun s p => if s = sel.scope then g p else p) where
  globals := ⟨rfl, rfl, rfl, rfl⟩
  nodup := id
  lvl := by
    intro q s
    by_cases hq : q = sel.pkg
    · subst hq
      have : Perm.lvl r sel.pkg s = {} := by
        unfold Perm.lvl
        simp [hc]
      rw [this]
      by_cases hs : s = sel.scope <;> simp [hs, hg]
    · simp [hq]
  more := fun _ _ h => h

/-- Reading a document after an edit that creates the section. -/
theorem edited_withTable {f : Entries → Option Entries} {g : Perms → Perms} (hf : PermEdit f g) {n : Nat}
    {sel : PermSel} {doc doc' : Entries} {r : Raw} (h : readDoc (n + 2) doc = some r)
    (he : withTable f (pkgPath sel) doc = some doc') :
    ∃ r', readDoc (n + 2) doc' = some r' ∧
      Edited r r' sel.pkg (fun s p => if s = sel.scope then g p else p) :=
  ⟨_, edit_doc hf h he, edited_modSection r g sel⟩

/-- Reading a document after an edit that needs the section. -/
theorem edited_withOptTable {f : Entries → Option Entries} {g : Perms → Perms} (hf : PermEdit f g)
    (hg : g {} = {}) {n : Nat} {sel : PermSel} {doc doc' : Entries} {r : Raw} (h : readDoc (n + 2) doc = some r)
    (he : withOptTable f (pkgPath sel) doc = some doc') :
    ∃ r', readDoc (n + 2) doc' = some r' ∧
      Edited r r' sel.pkg (fun s p => if s = sel.scope then g p else p) := by
  rcases edit_doc_opt hf h he with ⟨rfl, hn⟩ | ⟨c, hc, h'⟩
  · exact ⟨r, h, edited_self r g hg sel hn⟩
  · exact ⟨_, h', edited_modOpt r g hg sel c hc⟩

/-! ### Post-processing -/

theorem mergeBuiltIns_packages {b : AMap Api ApiCfg} {r r1 : Raw} (h : mergeBuiltIns b r = some r1)
    (pk : AMap Str PkgCfg) :
    mergeBuiltIns b { r with packages := pk } = some { r1 with packages := pk } ∧ r1.packages = r.packages ∧
      r1.sandbox = r.sandbox := by
  unfold mergeBuiltIns at h ⊢
  simp only [Option.bind_eq_bind, Option.pure_def, Option.bind_eq_some_iff, Option.some.injEq] at h ⊢
  obtain ⟨a, ha, rfl⟩ := h
  exact ⟨⟨a, ha, rfl⟩, rfl, rfl⟩

theorem patch2_packages (r : Raw) (pk : AMap Str PkgCfg) :
    patch2 { r with packages := pk } = { patch2 r with packages := pk } ∧ (patch2 r).packages = r.packages ∧
      (patch2 r).sandbox = r.sandbox := by
  unfold patch2
  by_cases h : r.rustcSandbox.kind.isNone <;> simp [h]

theorem applyRuntimePatches_packages (r : Raw) (pk : AMap Str PkgCfg) :
    applyRuntimePatches { r with packages := pk } = { applyRuntimePatches r with packages := pk } ∧
      (applyRuntimePatches r).packages = r.packages ∧ (applyRuntimePatches r).sandbox = r.sandbox := by
  unfold applyRuntimePatches
  have key : ∀ (fs : List (Raw → Raw)), (∀ f ∈ fs, f = id ∨ f = patch2) → ∀ r : Raw,
      fs.foldl (fun c f => f c) { r with packages := pk } =
        { fs.foldl (fun c f => f c) r with packages := pk } ∧
      (fs.foldl (fun c f => f c) r).packages = r.packages ∧
      (fs.foldl (fun c f => f c) r).sandbox = r.sandbox := by
    intro fs
    induction fs with
    | nil => intro _ r; exact ⟨rfl, rfl, rfl⟩
    | cons f fs ih =>
      intro hf r
      have ih := ih (fun g hg => hf g (by simp [hg]))
      simp only [List.foldl_cons]
      rcases hf f (by simp) with rfl | rfl
      · exact ih r
      · rw [(patch2_packages r pk).1]
        obtain ⟨h1, h2, h3⟩ := ih (patch2 r)
        exact ⟨h1, h2.trans (patch2_packages r pk).2.1, h3.trans (patch2_packages r pk).2.2⟩
  refine key _ ?_ r
  intro f hf
  have := List.mem_of_mem_drop hf
  simp only [patches, List.mem_cons, List.not_mem_nil, or_false] at this
  rcases this with h | h | h | h <;> simp [h]

theorem parseRaw_packages {b : AMap Api ApiCfg} {r r1 : Raw} (h : parseRaw b r = some r1) (pk : AMap Str PkgCfg) :
    parseRaw b { r with packages := pk } = some { r1 with packages := pk } ∧ r1.packages = r.packages ∧
      r1.sandbox = r.sandbox := by
  unfold parseRaw at h ⊢
  simp only [Option.bind_eq_bind, Option.pure_def, Option.bind_eq_some_iff, Option.some.injEq] at h ⊢
  obtain ⟨c, hc, rfl⟩ := h
  obtain ⟨h1, h2, h3⟩ := mergeBuiltIns_packages hc pk
  obtain ⟨h4, h5, h6⟩ := applyRuntimePatches_packages c pk
  refine ⟨⟨_, h1, ?_⟩, h5.trans h2, h6.trans h3⟩
  rw [h4]

/-- Edits carry over to the post-processed configuration. -/
theorem edited_load {b : AMap Api ApiCfg} {n : Nat} {doc doc' : Entries} {r1 : Raw} {pkg : Str}
    {F : Scope → Perms → Perms} (hl : load b n doc = some r1)
    (he : ∀ r, readDoc n doc = some r → ∃ r', readDoc n doc' = some r' ∧ Edited r r' pkg F) :
    ∃ r2, load b n doc' = some r2 ∧ Edited r1 r2 pkg F := by
  unfold load at hl ⊢
  simp only [Option.bind_eq_some_iff] at hl ⊢
  obtain ⟨r, hr, hp⟩ := hl
  obtain ⟨r', hr', e⟩ := he r hr
  obtain ⟨h1, h2, h3⟩ := parseRaw_packages hp r'.packages
  have hr'eq : r' = { r with packages := r'.packages } := by
    obtain ⟨a, b', c, d⟩ := e.globals
    cases r'
    cases r
    simp_all
  refine ⟨{ r1 with packages := r'.packages }, ⟨r', hr', by rw [hr'eq]; exact h1⟩, ⟨rfl, rfl, rfl, rfl⟩, ?_, ?_, ?_⟩
  · rw [h2]; exact e.nodup
  · intro q s
    have := e.lvl q s
    unfold Perm.lvl at this ⊢
    rw [h2]
    exact this
  · intro q s
    have := e.more q s
    rw [listed_eq, listed_eq] at this ⊢
    rw [h2]
    exact this

theorem Edited.effective {r r' : Raw} {pkg : Str} {F : Scope → Perms → Perms} (e : Edited r r' pkg F)
    (hn : r.packages.keys.Nodup) (idx : List IdxPkg) (q : Str) (hq : Indexed idx q) (s : Scope)
    (hs : Exists r idx q s) :
    Effective r idx q s (eff r q s) ∧ Effective r' idx q s (eff r' q s) := by
  constructor
  · exact eff_get r hn idx q hq s (exists_base hn hq hs)
  · refine eff_get r' (e.nodup hn) idx q hq s (exists_base (e.nodup hn) hq ?_)
    cases s with
    | build => exact hs.imp (e.more q .build) id
    | test => exact hs.imp (e.more q .test) id
    | _ => trivial

/-- A change of permissions that concerns only whether `api` is listed. -/
structure OnlyApi (api : Api) (f : Perms → Perms) : Prop where
  rest : ∀ p, f p = { p with allowApis := (f p).allowApis }
  others : ∀ p a, a ≠ api → (a ∈ (f p).allowApis ↔ a ∈ p.allowApis)

theorem OnlyApi.id (api : Api) : OnlyApi api (fun p => p) := ⟨fun _ => rfl, fun _ _ _ => Iff.rfl⟩

theorem OnlyApi.comp {api : Api} {f g : Perms → Perms} (hf : OnlyApi api f) (hg : OnlyApi api g) :
    OnlyApi api (fun p => g (f p)) where
  rest := by
    intro p
    have h1 := hf.rest p
    have h2 := hg.rest (f p)
    generalize (g (f p)).allowApis = l at h2 ⊢
    rw [h2]
    generalize (f p).allowApis = k at h1
    rw [h1]
  others := fun p a h => (hg.others (f p) a h).trans (hf.others p a h)

theorem edited_foldlM {n : Nat} {pkg : Str} {api : Api} (sels : List PermSel) (hs : ∀ sel ∈ sels, sel.pkg = pkg) :
    ∀ {doc doc' : Entries} {r : Raw}, readDoc (n + 2) doc = some r →
      sels.foldlM (fun doc d => removeUnusedAllowApis d [api] doc) doc = some doc' →
      ∃ r', readDoc (n + 2) doc' = some r' ∧ ∃ F, Edited r r' pkg F ∧ (∀ s, OnlyApi api (F s)) ∧
        (∀ s p a, a ∈ (F s p).allowApis → a ∈ p.allowApis) ∧
        (∀ s, (⟨pkg, s⟩ : PermSel) ∉ sels → ∀ p, F s p = p) ∧
        (∀ s, (⟨pkg, s⟩ : PermSel) ∈ sels → ∀ p, p.allowApis.Nodup → api ∉ (F s p).allowApis) := by
  induction sels with
  | nil =>
    intro doc doc' r h he
    cases he
    refine ⟨r, h, fun _ p => p, ⟨⟨rfl, rfl, rfl, rfl⟩, fun h => h, ?_, fun _ _ h => h⟩, fun _ => .id _,
      fun _ _ _ h => h, fun _ _ _ => rfl, fun _ h => by cases h⟩
    intro q s
    by_cases hq : q = pkg <;> simp [hq]
  | cons sel sels ih =>
    intro doc doc' r h he
    rw [List.foldlM_cons] at he
    simp only [Option.bind_eq_bind, Option.bind_eq_some_iff] at he
    obtain ⟨d, hd, he⟩ := he
    have hp : sel.pkg = pkg := hs sel (by simp)
    obtain ⟨r1, h1, e1⟩ := edited_withOptTable (permEdit_removeApis [api]) rfl h hd
    obtain ⟨r2, h2, F, e2, f1, f2, f3, f4⟩ := ih (fun s hs' => hs s (by simp [hs'])) h1 he
    rw [hp] at e1
    refine ⟨r2, h2, _, e1.trans e2, ?_, ?_, ?_, ?_⟩
    · intro s
      refine OnlyApi.comp (f := fun p => if s = sel.scope then _ else p) ?_ (f1 s)
      by_cases hsc : s = sel.scope
      · simp only [hsc, if_true, List.foldl_cons, List.foldl_nil]
        exact ⟨fun p => rfl, fun p a ha => List.mem_erase_of_ne ha⟩
      · simp only [hsc, if_false]
        exact .id _
    · intro s p a ha
      have := f2 _ _ _ ha
      by_cases hsc : s = sel.scope
      · simp only [hsc, if_true, List.foldl_cons, List.foldl_nil] at this
        exact List.mem_of_mem_erase this
      · simpa [hsc] using this
    · intro s hsn p
      simp only [List.mem_cons, not_or] at hsn
      rw [f3 s hsn.2]
      have : ¬ s = sel.scope := by
        rintro rfl
        apply hsn.1
        rw [← hp]
      simp [this]
    · intro s hsn p hnd hin
      by_cases hsc : s = sel.scope
      · have := f2 _ _ _ hin
        simp only [hsc, if_true, List.foldl_cons, List.foldl_nil] at this
        exact hnd.not_mem_erase this
      · have hmem : (⟨pkg, s⟩ : PermSel) ∈ sels := by
          rcases List.mem_cons.mp hsn with h | h
          · exact absurd (by rw [← h]) hsc
          · exact h
        simp only [hsc, if_false] at hin
        exact f4 s hmem p hnd hin

/-- What `allowApi` does to the sections. -/
theorem edited_allowApi {n : Nat} {sel : PermSel} {api : Api} {doc doc' : Entries} {r : Raw}
    (h : readDoc (n + 2) doc = some r) (he : allowApi sel api doc = some doc') :
    ∃ r', readDoc (n + 2) doc' = some r' ∧ ∃ F, Edited r r' sel.pkg F ∧ (∀ s, OnlyApi api (F s)) ∧
      (∀ p, api ∈ (F sel.scope p).allowApis) ∧
      (∀ s p, sel.scope ∉ chain s → F s p = p) ∧
      (∀ s p, sel.scope ∈ chain s → s ≠ sel.scope → p.allowApis.Nodup → api ∉ (F s p).allowApis) := by
  unfold allowApi at he
  simp only [Option.bind_eq_some_iff] at he
  obtain ⟨d, hd, he⟩ := he
  obtain ⟨r1, h1, e1⟩ := edited_withTable (permEdit_addApi [api]) h hd
  have hdesc : ∀ x ∈ sel.descendants, x.pkg = sel.pkg := by
    intro x hx
    simp only [PermSel.descendants, List.mem_append, List.mem_map, List.mem_flatMap] at hx
    rcases hx with ⟨_, _, rfl⟩ | ⟨_, _, _, _, rfl⟩ <;> rfl
  obtain ⟨r2, h2, F, e2, f1, f2, f3, f4⟩ := edited_foldlM sel.descendants hdesc h1 he
  refine ⟨r2, h2, _, e1.trans e2, ?_, ?_, ?_, ?_⟩
  · intro s
    refine OnlyApi.comp (f := fun p => if s = sel.scope then _ else p) ?_ (f1 s)
    by_cases hsc : s = sel.scope
    · simp only [hsc, if_true, List.foldl_cons, List.foldl_nil]
      refine ⟨fun p => rfl, fun p a ha => ?_⟩
      simp [mem_addStr, ha]
    · simp only [hsc, if_false]
      exact .id _
  · intro p
    rw [f3]
    · simp [mem_addStr]
    · obtain ⟨q, s⟩ := sel
      cases s <;> simp [PermSel.descendants, Scope.children]
  · intro s p hs
    rw [f3]
    · have : ¬ s = sel.scope := by
        rintro rfl
        apply hs
        cases sel.scope <;> simp [chain]
      simp [this]
    · obtain ⟨q, t⟩ := sel
      cases t <;> cases s <;> simp [PermSel.descendants, Scope.children, chain] at hs ⊢
  · intro s p hs hne hnd
    simp only [hne, if_false]
    refine f4 s ?_ p hnd
    obtain ⟨q, t⟩ := sel
    cases t <;> cases s <;> simp [PermSel.descendants, Scope.children, chain] at hs hne ⊢

/-- What a change at the levels means for the effective permissions. -/
theorem eff_onlyApi {r r' : Raw} {pkg : Str} {F : Scope → Perms → Perms} {api : Api} (e : Edited r r' pkg F)
    (hF : ∀ s, OnlyApi api (F s)) (q : Str) (s : Scope) :
    eff r' q s = { eff r q s with allowApis := (eff r' q s).allowApis } ∧
    (∀ a, a ≠ api → (a ∈ (eff r' q s).allowApis ↔ a ∈ (eff r q s).allowApis)) ∧
    (∀ a, a ∈ (eff r' q s).allowApis ↔ ∃ t ∈ chain s, a ∈ (lvl r' q t).allowApis) ∧
    (∀ a, a ∈ (eff r q s).allowApis ↔ ∃ t ∈ chain s, a ∈ (lvl r q t).allowApis) := by
  have hsb := e.globals.2.2.1
  have hl : ∀ t, lvl r' q t = { lvl r q t with allowApis := (lvl r' q t).allowApis } ∧
      ∀ a, a ≠ api → (a ∈ (lvl r' q t).allowApis ↔ a ∈ (lvl r q t).allowApis) := by
    intro t
    rw [e.lvl]
    by_cases hq : q = pkg
    · subst hq
      simp only [if_true]
      exact ⟨(hF t).rest _, (hF t).others _⟩
    · simp [hq]
  have key : ∀ r : Raw, ∀ a, a ∈ (eff r q s).allowApis ↔ ∃ t ∈ chain s, a ∈ (lvl r q t).allowApis := by
    intro r a
    cases s <;> simp [eff, inheritPerms, mem_mergeVec, chain]
  refine ⟨?_, ?_, key r', key r⟩
  · have h1 := (hl .all).1
    have h2 := (hl .fromBuild).1
    have h3 := (hl .fromTest).1
    have h4 := (hl .build).1
    have h5 := (hl .test).1
    generalize (lvl r' q .all).allowApis = l1 at h1
    generalize (lvl r' q .fromBuild).allowApis = l2 at h2
    generalize (lvl r' q .fromTest).allowApis = l3 at h3
    generalize (lvl r' q .build).allowApis = l4 at h4
    generalize (lvl r' q .test).allowApis = l5 at h5
    cases s <;> simp [eff, inheritPerms, h1, h2, h3, h4, h5, hsb]
  · intro a ha
    rw [key r', key r]
    constructor
    · rintro ⟨t, ht, h⟩
      exact ⟨t, ht, ((hl t).2 a ha).mp h⟩
    · rintro ⟨t, ht, h⟩
      exact ⟨t, ht, ((hl t).2 a ha).mpr h⟩

theorem self_mem_chain (s : Scope) : s ∈ chain s := by cases s <;> simp [chain]

theorem chain_trans {s t u : Scope} (h : t ∈ chain s) (h' : u ∈ chain t) : u ∈ chain s := by
  cases s <;> cases t <;> cases u <;> simp [chain] at h h' ⊢

theorem Effective.unique {r : Raw} {idx : List IdxPkg} {q : Str} {s : Scope} {p p' : Perms}
    (h : Effective r idx q s p) (h' : Effective r idx q s p') : p = p' := by
  obtain ⟨c, h1, rfl⟩ := h
  obtain ⟨c', h1', rfl⟩ := h'
  rw [h1] at h1'
  cases h1'
  rfl

/-! ## C19 -/

/-- **C19.** Applying the edit that grants an API at a selector gives a document that loads to a
configuration in which nothing outside the package sections differs, and in which, at every existing selector of
every package, the effective permissions are the same, except that the API is now granted at the selector and the
selectors that inherit from it. -/
theorem C19_exact_grant (builtIns : AMap Api ApiCfg) (n : Nat) (doc doc' : Entries) (r : Raw) (sel : PermSel)
    (api : Api) (hl : load builtIns (n + 2) doc = some r) (hn : r.packages.keys.Nodup)
    (he : (Edit.allowApi sel api).apply doc = some doc') :
    ∃ r', load builtIns (n + 2) doc' = some r' ∧ r'.packages.keys.Nodup ∧ SameGlobals r r' ∧
      ∀ idx q s, Indexed idx q → Exists r idx q s → ∃ p p', Effective r idx q s p ∧ Effective r' idx q s p' ∧
        p' = { p with allowApis := p'.allowApis } ∧
        ∀ a, a ∈ p'.allowApis ↔ a ∈ p.allowApis ∨ (a = api ∧ q = sel.pkg ∧ sel.scope ∈ chain s) := by
  have hl0 := hl
  unfold load at hl
  simp only [Option.bind_eq_some_iff] at hl
  obtain ⟨r0, hr0, hp⟩ := hl
  obtain ⟨r1, h1, F, e, f1, f2, f3, _⟩ := edited_allowApi hr0 he
  obtain ⟨r', hr', e'⟩ := edited_load (doc' := doc') hl0 (fun x hx => by
    rw [hr0] at hx
    cases hx
    exact ⟨r1, h1, e⟩)
  refine ⟨r', hr', e'.nodup hn, e'.globals, ?_⟩
  intro idx q s hq hs
  obtain ⟨g1, g2⟩ := e'.effective hn idx q hq s hs
  obtain ⟨k1, k2, k3, k4⟩ := eff_onlyApi e' f1 q s
  refine ⟨_, _, g1, g2, k1, ?_⟩
  intro a
  by_cases ha : a = api
  · subst ha
    rw [k3, k4]
    by_cases hc : q = sel.pkg ∧ sel.scope ∈ chain s
    · obtain ⟨rfl, hc⟩ := hc
      simp only [true_and, hc, or_true, iff_true]
      refine ⟨sel.scope, hc, ?_⟩
      rw [e'.lvl]
      simpa using f2 _
    · simp only [true_and, hc, or_false]
      have : ∀ t ∈ chain s, lvl r' q t = lvl r q t := by
        intro t ht
        rw [e'.lvl]
        by_cases hq' : q = sel.pkg
        · subst hq'
          simp only [if_true]
          exact f3 t _ (fun hm => hc ⟨rfl, chain_trans ht hm⟩)
        · simp [hq']
      constructor
      · rintro ⟨t, ht, h⟩
        exact ⟨t, ht, this t ht ▸ h⟩
      · rintro ⟨t, ht, h⟩
        exact ⟨t, ht, (this t ht).symm ▸ h⟩
  · simp only [ha, false_and, or_false]
    exact k2 a ha

theorem parentScopes_eq (s : Scope) : (parentScopes 3 s).map (s :: ·) = some (chain s) := by
  cases s <;> rfl

theorem allowApiFixes_eq (u : ApiUsages) :
    allowApiFixes u = some ((chain u.scope).map (fun s => .allowApi ⟨u.pkg.name, s⟩ u.api)) := by
  have := parentScopes_eq u.scope
  unfold allowApiFixes
  cases h : parentScopes 3 u.scope with
  | none => rw [h] at this; cases this
  | some l =>
    rw [h] at this
    simp only [Option.map_some, Option.some.injEq] at this ⊢
    rw [this]

theorem apiUsed_problem {c c' : Checker.State} {au u : ApiUsages} {ps : List Problem} {P : Problem}
    (hu : Checker.apiUsed c au = some (c', ps)) (hP : P ∈ ps)
    (hu' : P = .disallowedApiUsage u ∨ ∃ ref, P = .offTreeApiUsage u ref) :
    u.pkg = au.pkg ∧ u.scope = au.scope ∧ u.api = au.api := by
  unfold Checker.apiUsed at hu
  simp only [] at hu
  split at hu
  · cases hu; cases hP
  · split at hu
    · cases hu
    · simp only [Option.some.injEq, Prod.mk.injEq] at hu
      obtain ⟨_, rfl⟩ := hu
      rcases List.mem_append.mp hP with hP | hP
      · obtain ⟨e, _, rfl⟩ := List.mem_map.mp hP
        rcases hu' with h | ⟨ref, h⟩
        · cases h
        · cases h; exact ⟨rfl, rfl, rfl⟩
      · split at hP
        · cases hP
        · simp only [List.mem_singleton] at hP
          subst hP
          rcases hu' with h | ⟨ref, h⟩
          · cases h; exact ⟨rfl, rfl, rfl⟩
          · cases h

/-- **C19, granted once.** After an API was granted at a selector, no section that inherits from it lists the API
again (provided that it did not list it twice), so that there is no second permission to be found unused. -/
theorem C19_granted_once (builtIns : AMap Api ApiCfg) (n : Nat) (doc doc' : Entries) (r : Raw) (sel : PermSel)
    (api : Api) (hl : load builtIns (n + 2) doc = some r) (he : (Edit.allowApi sel api).apply doc = some doc') :
    ∃ r', load builtIns (n + 2) doc' = some r' ∧ (∃ p, listed r' sel.pkg sel.scope = some p ∧ api ∈ p.allowApis) ∧
      ∀ s, sel.scope ∈ chain s → s ≠ sel.scope → (∀ p, listed r sel.pkg s = some p → p.allowApis.Nodup) →
        ∀ p, listed r' sel.pkg s = some p → api ∉ p.allowApis := by
  have hl0 := hl
  unfold load at hl
  simp only [Option.bind_eq_some_iff] at hl
  obtain ⟨r0, hr0, hp⟩ := hl
  obtain ⟨r1, h1, F, e, f1, f2, f3, f4⟩ := edited_allowApi hr0 he
  obtain ⟨r', hr', e'⟩ := edited_load (doc' := doc') hl0 (fun x hx => by
    rw [hr0] at hx
    cases hx
    exact ⟨r1, h1, e⟩)
  refine ⟨r', hr', ?_, ?_⟩
  · refine (exists_listed_iff r' sel.pkg sel.scope (fun p => api ∈ p.allowApis) (by simp)).mp ?_
    rw [e'.lvl]
    simpa using f2 _
  · intro s hs hne hnd p hp' hin
    have hq : api ∈ (lvl r' sel.pkg s).allowApis := by rw [lvl_eq, hp']; exact hin
    rw [e'.lvl, if_pos rfl] at hq
    refine f4 s _ hs hne ?_ hq
    rw [lvl_eq]
    cases hls : listed r sel.pkg s with
    | none => simp
    | some p0 => exact hnd p0 hls

/-- **C19, the problem goes away.** When using an API gives a problem, edits to grant it are offered, and after
applying any of them, the same usage gives no problem. -/
theorem C19_problem_gone (builtIns : AMap Api ApiCfg) (n : Nat) (doc doc' : Entries) (r : Raw)
    (hl : load builtIns (n + 2) doc = some r) (hn : r.packages.keys.Nodup)
    (c c' : Checker.State) (au u : ApiUsages) (ps : List Problem) (P : Problem)
    (hu : Checker.apiUsed c au = some (c', ps)) (hP : P ∈ ps)
    (hu' : P = .disallowedApiUsage u ∨ ∃ ref, P = .offTreeApiUsage u ref)
    (hk : Checker.Known c.idx au.pkg.name au.scope) :
    ∃ es, allowApiFixes u = some es ∧ es ≠ [] ∧ ∀ e ∈ es, e.apply doc = some doc' →
      ∃ r' c2, load builtIns (n + 2) doc' = some r' ∧
        Checker.apiUsed (Checker.updateConfig c r') au = some (c2, []) := by
  obtain ⟨e1, e2, e3⟩ := apiUsed_problem hu hP hu'
  refine ⟨_, allowApiFixes_eq u, ?_, ?_⟩
  · cases u.scope <;> simp [chain]
  · intro e he ha
    obtain ⟨s, hs, rfl⟩ := List.mem_map.mp he
    obtain ⟨r', hr', hn', _, h⟩ := C19_exact_grant builtIns n doc doc' r _ _ hl hn ha
    obtain ⟨p, p', _, ⟨cp, hc1, hc2⟩, _, h3⟩ := h c.idx.pkgs au.pkg.name au.scope hk.indexed (hk.exists_ r)
    have hall : Checker.Allowed (Checker.updateConfig c r') (Checker.selOf au) au.api := by
      rw [Checker.updateConfig_allowed hn']
      refine .inr ⟨cp, hc1, ?_⟩
      rw [hc2, h3]
      exact .inr ⟨e3.symm, by rw [e1], by rw [← e2]; exact hs⟩
    have : ∃ c2, Checker.apiUsed (Checker.updateConfig c r') au = some (c2, []) := by
      unfold Checker.apiUsed
      have hh := (Checker.any_allowed_iff (Checker.updateConfig c r') (Checker.selOf au) au.api).mpr hall
      unfold Checker.selOf at hh
      simp only []
      rw [if_pos hh]
      exact ⟨_, rfl⟩
    obtain ⟨c2, h⟩ := this
    exact ⟨r', c2, hr', h⟩

/-! Non-vacuity of C19: granting `fs` to all of `foo`, which lists it for its build script, and `net`. -/
def exDoc : Entries :=
  [(str! "common", .table [(str! "version", .int 3)]),
   (str! "pkg", .table [(str! "foo", .table [(str! "allow_apis", .array [.str (str! "net")]),
     (str! "build", .table [(str! "allow_apis", .array [.str (str! "fs")])])])])]

example : ∃ r, load [] 2 exDoc = some r ∧ r.packages.keys.Nodup := ⟨_, rfl, by decide⟩
example : (Edit.allowApi ⟨str! "foo", .all⟩ (str! "fs")).apply exDoc = some
  [(str! "common", .table [(str! "version", .int 3)]),
   (str! "pkg", .table [(str! "foo", .table [(str! "allow_apis", .array [.str (str! "fs"), .str (str! "net")]),
     (str! "build", .table [])])])] := rfl

/-! ## C20 -/

theorem strLe_total {a b : Str} (h : strLe a b = false) : strLe b a = true ∧ a ≠ b := by
  induction a generalizing b with
  | nil => simp [strLe] at h
  | cons x a ih =>
    cases b with
    | nil => simp [strLe]
    | cons y b =>
      simp only [strLe] at h ⊢
      by_cases h1 : x.val < y.val
      · simp [h1] at h
      · by_cases h2 : x = y
        · subst h2
          simp only [h1, if_false, if_true] at h ⊢
          obtain ⟨g1, g2⟩ := ih h
          exact ⟨g1, by simpa using g2⟩
        · have : y.val < x.val := by
            rcases Nat.lt_or_ge y.val.toNat x.val.toNat with h3 | h3
            · exact h3
            · exfalso
              rcases Nat.lt_or_ge x.val.toNat y.val.toNat with h4 | h4
              · exact h1 h4
              · exact h2 (Char.ext (UInt32.toNat_inj.mp (Nat.le_antisymm h3 h4)))
          simp [this, h2]

theorem strLe_refl (a : Str) : strLe a a = true := by
  induction a with
  | nil => rfl
  | cons x a ih => simp [strLe, ih]

theorem strLe_antisymm {a b : Str} (h : strLe a b = true) (h' : strLe b a = true) : a = b := by
  induction a generalizing b with
  | nil =>
    cases b with
    | nil => rfl
    | cons y b => simp [strLe] at h'
  | cons x a ih =>
    cases b with
    | nil => simp [strLe] at h
    | cons y b =>
      simp only [strLe] at h h'
      by_cases h1 : x.val < y.val
      · have : ¬ y.val < x.val := fun h2 => absurd (Nat.lt_trans h1 h2) (Nat.lt_irrefl _)
        have h2 : ¬ y = x := by rintro rfl; exact absurd h1 (Nat.lt_irrefl _)
        simp [this, h2] at h'
      · by_cases h2 : x = y
        · subst h2
          simp only [h1, if_false, if_true] at h h'
          rw [ih h h']
        · simp [h1, h2] at h

theorem strLe_trans {a b c : Str} (h : strLe a b = true) (h' : strLe b c = true) : strLe a c = true := by
  induction a generalizing b c with
  | nil => rfl
  | cons x a ih =>
    cases b with
    | nil => simp [strLe] at h
    | cons y b =>
      cases c with
      | nil => simp [strLe] at h'
      | cons z c =>
        simp only [strLe] at h h' ⊢
        by_cases h1 : x.val < y.val
        · by_cases h2 : y.val < z.val
          · have : x.val < z.val := Nat.lt_trans h1 h2
            simp [this]
          · by_cases h3 : y = z
            · subst h3; simp [h1]
            · simp [h2, h3] at h'
        · by_cases h2 : x = y
          · subst h2
            simp only [h1, if_false, if_true] at h
            by_cases h3 : x.val < z.val
            · simp [h3]
            · by_cases h4 : x = z
              · subst h4
                simp only [h3, if_false, if_true] at h' ⊢
                exact ih h h'
              · simp [h3, h4] at h'
          · simp [h1, h2] at h

/-- The first element that is not a smaller string is the value. -/
def Placed (v : Str) : List Item → Prop
  | [] => False
  | e :: rest => e = .str v ∨ (∀ s, e = .str s → strLe v s = false) ∧ Placed v rest

theorem Placed.mem {v : Str} : ∀ {a : List Item}, Placed v a → Item.str v ∈ a
  | e :: rest, h => by
    rcases h with h | ⟨_, h⟩
    · simp [h]
    · simp [h.mem]

theorem placed_addOne (v : Str) : ∀ a : List Item, Placed v (addOne v a)
  | [] => .inl rfl
  | e :: rest => by
    simp only [addOne]
    split
    · rename_i s
      split
      · split
        · rename_i h
          subst h
          exact .inl rfl
        · exact .inl rfl
      · rename_i h
        exact .inr ⟨fun t ht => by cases ht; simpa using h, placed_addOne v rest⟩
    · rename_i hne
      exact .inr ⟨fun t ht => absurd ht (hne t), placed_addOne v rest⟩

theorem addOne_placed {v : Str} : ∀ {a : List Item}, Placed v a → addOne v a = a
  | e :: rest, h => by
    simp only [addOne]
    rcases h with h | ⟨h1, h2⟩
    · subst h
      simp [strLe_refl]
    · split
      · rename_i s
        have := h1 s rfl
        simp [this, addOne_placed h2]
      · rw [addOne_placed h2]

theorem placed_keep {v w : Str} : ∀ {a : List Item}, Placed v a → Placed v (addOne w a)
  | e :: rest, h => by
    simp only [addOne]
    rcases h with h | ⟨h1, h2⟩
    · subst h
      simp only
      split
      · rename_i hle
        split
        · exact .inl rfl
        · rename_i hne
          refine .inr ⟨?_, .inl rfl⟩
          intro s hs
          cases hs
          cases hvw : strLe v w with
          | false => rfl
          | true => exact absurd (strLe_antisymm hvw hle) hne
      · exact .inl rfl
    · split
      · rename_i s
        have hs := h1 s rfl
        split
        · rename_i hle
          split
          · exact .inr ⟨h1, h2⟩
          · refine .inr ⟨?_, .inr ⟨h1, h2⟩⟩
            intro t ht
            cases ht
            cases hvw : strLe v w with
            | false => rfl
            | true => rw [strLe_trans hvw hle] at hs; cases hs
        · exact .inr ⟨h1, placed_keep h2⟩
      · exact .inr ⟨h1, placed_keep h2⟩

theorem sublist_addOne (v : Str) : ∀ a : List Item, a.Sublist (addOne v a)
  | [] => by simp [addOne]
  | e :: rest => by
    simp only [addOne]
    split
    · split
      · split
        · exact List.Sublist.refl _
        · exact List.sublist_cons_self ..
      · exact (sublist_addOne v rest).cons_cons _
    · exact (sublist_addOne v rest).cons_cons _

theorem mem_addOne (v : Str) : ∀ (a : List Item) (e : Item), e ∈ addOne v a → e ∈ a ∨ e = .str v
  | [], e, h => by simpa [addOne] using h
  | x :: rest, e, h => by
    simp only [addOne] at h
    have ih := mem_addOne v rest e
    split at h
    · split at h
      · split at h
        · exact .inl h
        · rcases List.mem_cons.mp h with h | h
          · exact .inr h
          · exact .inl h
      · rcases List.mem_cons.mp h with h | h
        · exact .inl (by simp [h])
        · rcases ih h with h | h
          · exact .inl (by simp [h])
          · exact .inr h
    · rcases List.mem_cons.mp h with h | h
      · exact .inl (by simp [h])
      · rcases ih h with h | h
        · exact .inl (by simp [h])
        · exact .inr h

/-- Strictly increasing: sorted and without duplicates. -/
def Increasing (l : List Str) : Prop := l.Pairwise (fun a b => strLe a b = true ∧ a ≠ b)

theorem increasing_addStr (v : Str) {l : List Str} (h : Increasing l) : Increasing (addStr v l) := by
  unfold Increasing at h ⊢
  induction l with
  | nil => simp [addStr]
  | cons s rest ih =>
    obtain ⟨h1, h2⟩ := List.pairwise_cons.mp h
    simp only [addStr]
    split
    · rename_i hle
      split
      · exact h
      · rename_i hne
        refine List.pairwise_cons.mpr ⟨?_, h⟩
        intro x hx
        rcases List.mem_cons.mp hx with rfl | hx
        · exact ⟨hle, fun e => hne e.symm⟩
        · obtain ⟨g1, g2⟩ := h1 x hx
          refine ⟨strLe_trans hle g1, ?_⟩
          rintro rfl
          exact g2 (strLe_antisymm g1 hle)
    · rename_i hle
      refine List.pairwise_cons.mpr ⟨?_, ih h2⟩
      intro x hx
      rcases mem_addStr.mp hx with rfl | hx
      · obtain ⟨g1, g2⟩ := strLe_total (by simpa using hle)
        exact ⟨g1, fun e => g2 e.symm⟩
      · exact h1 x hx

theorem addAll_props (vs : List Str) : ∀ (a : List Item),
    (∀ v, Placed v a → Placed v (vs.foldl (fun a v => addOne v a) a)) ∧
    (∀ v ∈ vs, Placed v (vs.foldl (fun a v => addOne v a) a)) ∧
    a.Sublist (vs.foldl (fun a v => addOne v a) a) ∧
    (∀ e ∈ vs.foldl (fun a v => addOne v a) a, e ∈ a ∨ ∃ v ∈ vs, e = .str v) := by
  induction vs with
  | nil => intro a; simp
  | cons w vs ih =>
    intro a
    obtain ⟨h1, h2, h3, h4⟩ := ih (addOne w a)
    simp only [List.foldl_cons]
    refine ⟨fun v hv => h1 v (placed_keep hv), ?_, (sublist_addOne w a).trans h3, ?_⟩
    · intro v hv
      rcases List.mem_cons.mp hv with rfl | hv
      · exact h1 v (placed_addOne v a)
      · exact h2 v hv
    · intro e he
      rcases h4 e he with h | ⟨v, hv, rfl⟩
      · rcases mem_addOne w a e h with h | rfl
        · exact .inl h
        · exact .inr ⟨w, by simp, rfl⟩
      · exact .inr ⟨v, by simp [hv], rfl⟩

theorem foldl_placed (vs : List Str) : ∀ {a : List Item}, (∀ v ∈ vs, Placed v a) →
    vs.foldl (fun a v => addOne v a) a = a := by
  induction vs with
  | nil => intro a _; rfl
  | cons w vs ih =>
    intro a h
    rw [List.foldl_cons, addOne_placed (h w (by simp))]
    exact ih (fun v hv => h v (by simp [hv]))

/-- The elements of the array with this key; a missing array is empty. -/
def elements (t : Entries) (name : Str) : Option (List Item) :=
  match t.get? name with
  | none => some []
  | some (.array a) => some a
  | some _ => none

theorem addToArray_elements {name : Str} {vs : List Str} {t t' : Entries} (h : addToArray name vs t = some t') :
    vs = [] ∧ t' = t ∨ ∃ a, elements t name = some a ∧
      t' = t.insert name (.array (vs.foldl (fun a v => addOne v a) a)) := by
  unfold addToArray at h
  split at h
  · rename_i h0
    cases h
    exact .inl ⟨h0, rfl⟩
  · right
    unfold elements
    cases hg : t.get? name with
    | none =>
      rw [hg] at h
      simp only [Option.getD_none, Option.some.injEq] at h
      exact ⟨[], rfl, h.symm⟩
    | some it =>
      rw [hg] at h
      simp only [Option.getD_some] at h
      split at h
      · cases h
        exact ⟨_, rfl, rfl⟩
      · cases h

/-- The English claim C20: after adding values to an array, every value is present, the entries that were there
are still there in the same order and nothing else is, adding them again changes nothing, a strictly increasing
array stays so, and a value that was present is not added again. -/
def C20_Claim : Prop :=
  ∀ (name : Str) (vs : List Str) (t t' : Entries) (a : List Item), elements t name = some a → vs ≠ [] →
    addToArray name vs t = some t' →
    ∃ a', elements t' name = some a' ∧ (∀ v ∈ vs, .str v ∈ a') ∧ a.Sublist a' ∧
      (∀ e ∈ a', e ∈ a ∨ ∃ v ∈ vs, e = .str v) ∧ (∀ k, k ≠ name → t'.get? k = t.get? k) ∧
      addToArray name vs t' = some t' ∧
      (∀ l, a = l.map .str → Increasing l → ∃ l', a' = l'.map .str ∧ Increasing l') ∧
      (a.Nodup → a'.Nodup)

/-- **C20, disagreement.** Adding a value that is present to an unsorted list may duplicate it. -/
theorem C20_duplicates : ¬ C20_Claim := by
  intro h
  obtain ⟨a', h1, _, _, _, _, _, _, h2⟩ := h (str! "allow_apis") [str! "env"]
    [(str! "allow_apis", .array [.str (str! "fs"), .str (str! "env")])] _
    [.str (str! "fs"), .str (str! "env")] rfl (by simp) rfl
  cases h1
  have : ([.str (str! "env"), .str (str! "fs"), .str (str! "env")] : List Item).Nodup := h2 (by simp)
  simp at this

theorem map_addOne (v : Str) (l : List Str) : addOne v (l.map .str) = (addStr v l).map .str := by
  induction l with
  | nil => rfl
  | cons s l ih =>
    simp only [List.map_cons, addOne, addStr, ih]
    split
    · split <;> rfl
    · rfl

theorem increasing_addAll (vs : List Str) : ∀ {l : List Str}, Increasing l →
    ∃ l', vs.foldl (fun a v => addOne v a) (l.map .str) = l'.map .str ∧ Increasing l' := by
  induction vs with
  | nil => exact fun h => ⟨_, rfl, h⟩
  | cons v vs ih =>
    intro l h
    rw [List.foldl_cons, map_addOne]
    exact ih (increasing_addStr v h)

/-- **C20 (partial).** Everything in the claim except that, for arrays that are not strictly increasing,
duplicates may be introduced. -/
theorem C20_add_partial (name : Str) (vs : List Str) (t t' : Entries) (a : List Item)
    (hel : elements t name = some a) (hvs : vs ≠ []) (h : addToArray name vs t = some t') :
    ∃ a', elements t' name = some a' ∧ (∀ v ∈ vs, .str v ∈ a') ∧ a.Sublist a' ∧
      (∀ e ∈ a', e ∈ a ∨ ∃ v ∈ vs, e = .str v) ∧ (∀ k, k ≠ name → t'.get? k = t.get? k) ∧
      addToArray name vs t' = some t' ∧
      (∀ l, a = l.map .str → Increasing l → ∃ l', a' = l'.map .str ∧ Increasing l') := by
  rcases addToArray_elements h with ⟨h0, _⟩ | ⟨b, hb, rfl⟩
  · exact absurd h0 hvs
  · rw [hel] at hb
    cases hb
    obtain ⟨h1, h2, h3, h4⟩ := addAll_props vs a
    refine ⟨vs.foldl (fun a v => addOne v a) a, ?_, fun v hv => (h2 v hv).mem, h3, h4, ?_, ?_, ?_⟩
    · simp [elements, AMap.get?_insert]
    · intro k hk
      have : ¬ name = k := fun e => hk e.symm
      simp [AMap.get?_insert, this]
    · simp only [addToArray, hvs, if_false, AMap.get?_insert, if_true, Option.getD_some]
      rw [foldl_placed vs h2, insert_get_self]
      simp [AMap.get?_insert]
    · rintro l rfl hl
      exact increasing_addAll vs hl

/-! Non-vacuity of C20. -/
example : addToArray (str! "allow_apis") [str! "net", str! "env"]
    [(str! "allow_apis", .array [.str (str! "fs"), .str (str! "process")])] =
  some [(str! "allow_apis", .array [.str (str! "env"), .str (str! "fs"), .str (str! "net"), .str (str! "process")])] := rfl
example : Increasing [str! "fs", str! "process"] := by
  simp only [Increasing, List.pairwise_cons]
  decide

/-! ## C46 -/

theorem eff_other {r r' : Raw} {pkg : Str} {t : Scope} {g : Perms → Perms}
    (e : Edited r r' pkg (fun s p => if s = t then g p else p)) (q : Str) (s : Scope)
    (h : ¬ (q = pkg ∧ t ∈ chain s)) : eff r' q s = eff r q s := by
  have hl : ∀ u ∈ chain s, lvl r' q u = lvl r q u := by
    intro u hu
    rw [e.lvl]
    by_cases hq : q = pkg
    · subst hq
      have : ¬ u = t := by rintro rfl; exact h ⟨rfl, hu⟩
      simp [this]
    · simp [hq]
  have hsb := e.globals.2.2.1
  cases s
  · rw [eff, eff, hsb, hl _ (by simp [chain])]
  · rw [eff, eff, hsb, hl _ (by simp [chain]), hl .fromBuild (by simp [chain]), hl .all (by simp [chain])]
  · rw [eff, eff, hsb, hl _ (by simp [chain]), hl .fromTest (by simp [chain]), hl .all (by simp [chain])]
  · rw [eff, eff, hsb, hl _ (by simp [chain]), hl .all (by simp [chain])]
  · rw [eff, eff, hsb, hl _ (by simp [chain]), hl .all (by simp [chain])]

/-- Applying an edit of one section. -/
theorem edited_apply {f : Entries → Option Entries} {g : Perms → Perms} (hf : PermEdit f g) {n : Nat}
    {builtIns : AMap Api ApiCfg} {sel : PermSel} {doc doc' : Entries} {r : Raw}
    (h : load builtIns (n + 2) doc = some r) (he : withTable f (pkgPath sel) doc = some doc') :
    ∃ r', load builtIns (n + 2) doc' = some r' ∧
      Edited r r' sel.pkg (fun s p => if s = sel.scope then g p else p) :=
  edited_load h (fun _ hx => edited_withTable hf hx he)

/-- The English claim C46: when a build script or test failed that ran with the sandbox configuration for it,
every offered edit that can be applied changes that configuration, and no other program's. -/
def C46_Claim (kinds : List CrateKind) : Prop :=
  ∀ (builtIns : AMap Api ApiCfg) (n : Nat) (doc : Entries) (r : Raw) (idx : List IdxPkg) (crate : CrateSel),
    load builtIns (n + 2) doc = some r → r.packages.keys.Nodup → crate.kind ∈ kinds →
    Indexed idx crate.pkgId.name →
    Exists r idx crate.pkgId.name (forNonBuildOutput crate).scope →
    ∀ e ∈ executionFixes crate (sandboxFor (withInheritance r idx) (forNonBuildOutput crate)),
    ∀ doc', e.apply doc = some doc' → ∃ r', load builtIns (n + 2) doc' = some r' ∧
      sandboxFor (withInheritance r' idx) (forNonBuildOutput crate) ≠
        sandboxFor (withInheritance r idx) (forNonBuildOutput crate) ∧
      ∀ other : CrateSel, forNonBuildOutput other ≠ forNonBuildOutput crate → other.kind ≠ .primary →
        Indexed idx other.pkgId.name → Exists r idx other.pkgId.name (forNonBuildOutput other).scope →
        sandboxFor (withInheritance r' idx) (forNonBuildOutput other) =
          sandboxFor (withInheritance r idx) (forNonBuildOutput other)

theorem sandboxFor_eff {r : Raw} (hn : r.packages.keys.Nodup) {idx : List IdxPkg} {sel : PermSel}
    (hi : Indexed idx sel.pkg) (hb : Exists r idx sel.pkg sel.scope) :
    sandboxFor (withInheritance r idx) sel = (eff r sel.pkg sel.scope).sandbox := by
  obtain ⟨c, h1, h2⟩ := eff_get r hn idx sel.pkg hi sel.scope (exists_base hn hi hb)
  unfold sandboxFor
  rw [h1]
  simp [h2]

theorem Edited.exists_ {r r' : Raw} {pkg : Str} {F : Scope → Perms → Perms} (e : Edited r r' pkg F)
    {idx : List IdxPkg} {q : Str} {s : Scope} (hs : Exists r idx q s) : Exists r' idx q s := by
  cases s with
  | build => exact hs.imp (e.more q .build) id
  | test => exact hs.imp (e.more q .test) id
  | _ => trivial

/-- **C46 (partial).** For build scripts, the offered edits change the sandbox of that build script only. -/
theorem C46_build_script_partial : C46_Claim [.buildScript] := by
  intro builtIns n doc r idx crate hl hn hk hi hex e he doc' ha
  simp only [List.mem_singleton] at hk
  have hsel : forNonBuildOutput crate = ⟨crate.pkgId.name, .build⟩ := by simp [forNonBuildOutput, hk]
  rw [hsel] at he hex ⊢
  have h0 := sandboxFor_eff (sel := ⟨crate.pkgId.name, .build⟩) hn hi hex
  rw [h0] at he ⊢
  -- what a change of the `build` section means
  have key : ∀ (f : Entries → Option Entries) (g : Sandbox → Sandbox),
      PermEdit f (fun p => { p with sandbox := g p.sandbox }) →
      withTable f (pkgPath ⟨crate.pkgId.name, .build⟩) doc = some doc' →
      (∀ a b : Sandbox, (g a).inherit b = g (a.inherit b)) →
      g (eff r crate.pkgId.name .build).sandbox ≠ (eff r crate.pkgId.name .build).sandbox →
      ∃ r', load builtIns (n + 2) doc' = some r' ∧
        sandboxFor (withInheritance r' idx) ⟨crate.pkgId.name, .build⟩ ≠
          (eff r crate.pkgId.name .build).sandbox ∧
        ∀ other : CrateSel, forNonBuildOutput other ≠ ⟨crate.pkgId.name, .build⟩ → other.kind ≠ .primary →
          Indexed idx other.pkgId.name → Exists r idx other.pkgId.name (forNonBuildOutput other).scope →
          sandboxFor (withInheritance r' idx) (forNonBuildOutput other) =
            sandboxFor (withInheritance r idx) (forNonBuildOutput other) := by
    intro f g hf hw hg hne
    obtain ⟨r', hr', e'⟩ := edited_apply hf hl hw
    refine ⟨r', hr', ?_, ?_⟩
    · rw [sandboxFor_eff (sel := ⟨crate.pkgId.name, .build⟩) (e'.nodup hn) hi (e'.exists_ hex)]
      have : (eff r' crate.pkgId.name .build).sandbox = g (eff r crate.pkgId.name .build).sandbox := by
        have l1 := e'.lvl crate.pkgId.name .build
        have l2 := e'.lvl crate.pkgId.name .fromBuild
        have l3 := e'.lvl crate.pkgId.name .all
        simp only [if_true] at l1
        simp at l2 l3
        simp only [eff, inheritPerms, l1, l2, l3, e'.globals.2.2.1, hg]
      simp only [this]
      exact hne
    · intro other hne' hp hi' hex'
      have hpkg : (forNonBuildOutput other).pkg = other.pkgId.name := rfl
      rw [sandboxFor_eff (e'.nodup hn) hi' (e'.exists_ hex'), sandboxFor_eff hn hi' hex']
      rw [eff_other e']
      rintro ⟨h1, h2⟩
      apply hne'
      have h3 : (forNonBuildOutput other).scope = .build := by
        have h2 : Scope.build ∈ chain (forNonBuildOutput other).scope := h2
        revert h2
        generalize (forNonBuildOutput other).scope = s
        cases s <;> simp [chain]
      have h1 : (forNonBuildOutput other).pkg = crate.pkgId.name := h1
      rw [← h1, ← h3]
  unfold executionFixes at he
  split at he
  · rename_i hkind
    rcases List.mem_append.mp he with he | he
    · split at he
      · cases he
      · rename_i hnet
        simp only [List.mem_singleton] at he
        subst he
        refine key _ (fun s => { s with allowNetwork := some true }) permEdit_network ?_ ?_ ?_
        · rw [← withTable_append]; exact ha
        · intro a b; simp [Sandbox.inherit]
        · intro h
          apply hnet
          rw [← h]
          rfl
    · simp only [List.mem_singleton] at he
      subst he
      refine key _ (fun s => { s with kind := some .disabled }) permEdit_disable ?_ ?_ ?_
      · rw [← withTable_append]; exact ha
      · intro a b; simp [Sandbox.inherit]
      · intro h
        apply hkind
        rw [← h]
  · cases he

def exSandboxDoc : Entries :=
  [(str! "common", .table [(str! "version", .int 3)]),
   (str! "sandbox", .table [(str! "kind", .str (str! "Bubblewrap"))])]

def exSandboxRaw : Raw := 
  { common := { version := 3 }, sandbox := { kind := some .bubblewrap }, rustcSandbox := { kind := some .bubblewrap } }

def exTest : CrateSel := ⟨⟨str! "foo", str! "1.0.0", true⟩, .test⟩

/-- **C46, disagreement.** For a failed test the offered edits change the sandbox of the build script. -/
theorem C46_test_not_affected : ¬ C46_Claim [.buildScript, .test] := by
  intro h
  have hl : load [] 2 exSandboxDoc = some exSandboxRaw := rfl
  obtain ⟨r', h1, h2, _⟩ := h [] 0 exSandboxDoc exSandboxRaw [⟨str! "foo", true, true⟩] exTest hl (by decide) (by decide)
    ⟨_, List.mem_cons_self .., rfl⟩ (.inr ⟨_, List.mem_cons_self .., rfl, rfl⟩)
    (.disableSandbox ⟨str! "foo", .build⟩) (by decide +kernel) _ rfl
  have : load [] 2 _ = some _ := h1
  cases this
  revert h2
  decide +kernel

/-! Non-vacuity of C46: the edit exists for the build script of the same package. -/
example : Edit.disableSandbox ⟨str! "foo", .build⟩ ∈ executionFixes { exTest with kind := .buildScript }
    { kind := some .bubblewrap } := by decide
example : ((Edit.disableSandbox ⟨str! "foo", .build⟩).apply exSandboxDoc).isSome := by decide +kernel

/-! ## C64 -/

/-- Everything that exists on the path is a table written with a header or dotted keys, not an inline table. -/
def Reach : List Str → Entries → Prop
  | [], _ => True
  | p :: ps, es => ∃ sub, (es.get? p).getD (.table []) = .table sub ∧ Reach ps sub

theorem withTable_isSome {f : Entries → Option Entries} {p : Str} {ps : List Str} {es sub : Entries}
    (h : (es.get? p).getD (.table []) = .table sub) (hs : (withTable f ps sub).isSome) :
    (withTable f (p :: ps) es).isSome := by
  unfold withTable
  rw [h]
  simpa using hs

theorem scope_isSome {f : Entries → Option Entries} (hf : ∀ es, (readPerms es).isSome → (f es).isSome) {n : Nat}
    (s : Scope) {es : Entries} {c : PkgCfg} (h : readPkg (n + 2) (.table es) = some c)
    (hr : Reach (scopePath s) es) : (withTable f (scopePath s) es).isSome := by
  have fin : ∀ {m : Nat} {es : Entries} {c : PkgCfg}, readPkg (m + 1) (.table es) = some c → (f es).isSome := by
    intro m es c h
    rw [readPkg_iff] at h
    obtain ⟨es0, h0, _, hp, _⟩ := h
    cases h0
    exact hf es (by simp [hp])
  have h' := h
  rw [readPkg_iff] at h
  obtain ⟨es0, h0, hk, hp, hb, ht, hfr⟩ := h
  cases h0
  cases s with
  | all => exact fin h'
  | build =>
    obtain ⟨sub, h1, _⟩ := hr
    refine withTable_isSome h1 (fin (m := n) (c := c.build.getD .default) ?_)
    rw [← h1]
    exact optField_getD hb (readPkg_empty n)
  | test =>
    obtain ⟨sub, h1, _⟩ := hr
    refine withTable_isSome h1 (fin (m := n) (c := c.test.getD .default) ?_)
    rw [← h1]
    exact optField_getD ht (readPkg_empty n)
  | fromBuild =>
    obtain ⟨fs, h1, sub, h2, _⟩ := hr
    refine withTable_isSome h1 (withTable_isSome h2 ?_)
    have := optField_getD hfr (readFrom_empty (n + 1))
    rw [h1, readFrom_iff] at this
    obtain ⟨es1, e1, _, hb1, _⟩ := this
    cases e1
    refine fin (m := n) (c := ((c.from_.getD (none, none)).1).getD .default) ?_
    rw [← h2]
    exact optField_getD hb1 (readPkg_empty n)
  | fromTest =>
    obtain ⟨fs, h1, sub, h2, _⟩ := hr
    refine withTable_isSome h1 (withTable_isSome h2 ?_)
    have := optField_getD hfr (readFrom_empty (n + 1))
    rw [h1, readFrom_iff] at this
    obtain ⟨es1, e1, _, _, hb1⟩ := this
    cases e1
    refine fin (m := n) (c := ((c.from_.getD (none, none)).2).getD .default) ?_
    rw [← h2]
    exact optField_getD hb1 (readPkg_empty n)

/-- Edits can be applied if there is no inline table on the way. -/
theorem doc_isSome {f : Entries → Option Entries} (hf : ∀ es, (readPerms es).isSome → (f es).isSome) {n : Nat}
    {sel : PermSel} {doc : Entries} {r : Raw} (h : readDoc (n + 2) doc = some r) (hr : Reach (pkgPath sel) doc) :
    ∃ doc', withTable f (pkgPath sel) doc = some doc' := by
  rw [← Option.isSome_iff_exists]
  obtain ⟨pk, h1, sub, h2, h3⟩ := hr
  refine withTable_isSome h1 (withTable_isSome h2 ?_)
  rw [readDoc_iff] at h
  have hm := mapField_get h.2.2.2.1 h1
  have hg := readMap_get hm sel.pkg
  cases hp : AMap.get? pk sel.pkg with
  | none =>
    rw [hp] at h2
    cases h2
    exact scope_isSome hf sel.scope (readPkg_empty (n + 1)) h3
  | some it =>
    rw [hp] at h2
    simp only [Option.getD_some] at h2
    subst h2
    have hall : ∀ {es : Entries} {m : AMap Str PkgCfg}, readMap (readPkg (n + 2)) es = some m → ∀ k it,
        es.get? k = some it → ∃ c, readPkg (n + 2) it = some c := by
      intro es
      induction es with
      | nil => intro m _ k it hk; simp at hk
      | cons e rest ih =>
        obtain ⟨q, w⟩ := e
        intro m hm k it hk
        simp only [readMap, Option.bind_eq_some_iff, Option.some.injEq] at hm
        obtain ⟨v, hv, m', hm', rfl⟩ := hm
        simp only [AMap.get?] at hk
        split at hk
        · cases hk; exact ⟨v, hv⟩
        · exact ih hm' k it hk
    obtain ⟨c, hc⟩ := hall hm _ _ hp
    exact scope_isSome hf sel.scope hc h3

theorem addToArray_isSome {name : Str} {vs : List Str} {es : Entries} {l : List Str}
    (h : field readStrs [] es name = some l) : (addToArray name vs es).isSome := by
  unfold addToArray
  split
  · rfl
  · unfold field at h
    cases hg : es.get? name with
    | none => rfl
    | some it =>
      rw [hg] at h
      cases it <;> simp [readStrs] at h ⊢

/-- Where the permission that a problem is about is looked up. -/
def target : Problem → Option PermSel
  | .disallowedUnsafe crate _ => some (forNonBuildOutput crate)
  | .disallowedExtern crate _ => some (forNonBuildOutput crate)
  | .isProcMacro pkg => some ⟨pkg.name, .all⟩
  | .disallowedBuildInstruction pkg i => if str! "cargo:" <+: i then some ⟨pkg.name, .build⟩ else none
  | _ => none

/-- With this configuration the problem does not arise: unsafe or extern is permitted for the crate; the
problem about the proc macro is not among those found at the start; the build script's output is not
objected to. -/
def Gone (r : Raw) (idx : List IdxPkg) : Problem → Prop
  | .disallowedUnsafe crate _ => unsafePermitted (withInheritance r idx) crate = true
  | .disallowedExtern crate _ => externPermitted (withInheritance r idx) crate r.common.version = true
  | .isProcMacro pkg => ∀ c : Checker.State, c.idx.pkgs = idx →
      .isProcMacro pkg ∉ Checker.baseProblems (Checker.updateConfig c r)
  | .disallowedBuildInstruction pkg i => ∀ (crate : CrateSel) (out : Option Str), crate.pkgId = pkg →
      .disallowedBuildInstruction pkg i ∉ (BuildScript.build (withInheritance r idx) crate out).problems
  | _ => True

/-- The English claim C64, for the documents and problems in `D`: edits are offered, each can be applied, and
afterwards the problem does not arise. -/
def C64_Claim (D : Entries → Raw → PermSel → Problem → Prop) : Prop :=
  ∀ (builtIns : AMap Api ApiCfg) (n : Nat) (doc : Entries) (r : Raw) (idx : List IdxPkg) (P : Problem)
    (sel : PermSel), load builtIns (n + 2) doc = some r → r.packages.keys.Nodup → target P = some sel →
    Indexed idx sel.pkg → Exists r idx sel.pkg sel.scope → D doc r sel P →
    ∀ incl excl sandboxOf, ∃ es, fixes incl excl sandboxOf P = some es ∧ es ≠ [] ∧
      ∀ e ∈ es, ∃ doc' r', e.apply doc = some doc' ∧ load builtIns (n + 2) doc' = some r' ∧ Gone r' idx P

def exCrate : CrateSel := ⟨⟨str! "foo", str! "1.0.0", true⟩, .primary⟩

def exDoc2 : Entries := [(str! "common", .table [(str! "version", .int 2)])]
def exRaw2 : Raw := { common := { version := 2 } }

/-- **C64, disagreement.** For configurations of version 1 and 2, allowing extern has no effect. -/
theorem C64_extern_no_effect : ¬ C64_Claim (fun doc _ sel _ => Reach (pkgPath sel) doc) := by
  intro h
  have hl : load [] 2 exDoc2 = some exRaw2 := rfl
  obtain ⟨es, h1, _, h2⟩ := h [] 0 exDoc2 exRaw2 [⟨str! "foo", false, false⟩] (.disallowedExtern exCrate [])
    ⟨str! "foo", .all⟩ hl (by decide) rfl ⟨_, List.mem_cons_self .., rfl⟩ trivial ⟨[], rfl, [], rfl, trivial⟩
    (fun _ => []) (fun _ => []) (fun _ => {})
  cases h1
  obtain ⟨doc', r', h3, h4, h5⟩ := h2 _ (List.mem_cons_self ..)
  have h3' : (Edit.allowExtern ⟨str! "foo", .all⟩).apply exDoc2 = some doc' := h3
  cases h3'
  have h4' : some _ = some r' := h4
  cases h4'
  simp only [Gone] at h5
  revert h5
  decide +kernel

def exInlineDoc : Entries :=
  [(str! "common", .table [(str! "version", .int 3)]),
   (str! "pkg", .table [(str! "foo", .inline [(str! "allow_apis", .array [.str (str! "fs")])])])]

/-- **C64, disagreement.** A package's section that is an inline table is accepted, but cannot be edited. -/
theorem C64_inline_table : (load [] 2 exInlineDoc).isSome ∧
    (Edit.allowUnsafe ⟨str! "foo", .all⟩).apply exInlineDoc = none := ⟨rfl, rfl⟩

/-- **C64 (partial).** The claim for sections that are not inline tables, where for extern the configuration has
version 3 or later. -/
theorem C64_fix_works_partial : C64_Claim (fun doc r sel P => Reach (pkgPath sel) doc ∧
    ∀ crate locs, P = .disallowedExtern crate locs → 3 ≤ r.common.version) := by
  intro builtIns n doc r idx P sel hl hn ht hi hex ⟨hreach, hv⟩ incl excl sandboxOf
  have hrd : ∃ r0, readDoc (n + 2) doc = some r0 := by
    unfold load at hl
    simp only [Option.bind_eq_some_iff] at hl
    exact ⟨hl.choose, hl.choose_spec.1⟩
  obtain ⟨r0, hr0⟩ := hrd
  -- the common part
  have key : ∀ (f : Entries → Option Entries) (g : Perms → Perms), PermEdit f g →
      (∀ es, (readPerms es).isSome → (f es).isSome) →
      ∃ doc' r', withTable f (pkgPath sel) doc = some doc' ∧ load builtIns (n + 2) doc' = some r' ∧
        r'.common = r.common ∧ ∃ c, (withInheritance r' idx).get? sel = some c ∧
          ∃ base, c.perms = inheritPerms (g (lvl r sel.pkg sel.scope)) base := by
    intro f g hf hs
    obtain ⟨doc', hd⟩ := doc_isSome hs hr0 hreach
    obtain ⟨r', hr', e⟩ := edited_apply hf hl hd
    obtain ⟨c, hc, hp⟩ := eff_get r' (e.nodup hn) idx sel.pkg hi sel.scope
      (exists_base (e.nodup hn) hi (e.exists_ hex))
    refine ⟨doc', r', hd, hr', e.globals.1, c, hc, ?_⟩
    have hlv := e.lvl sel.pkg sel.scope
    simp only [if_true] at hlv
    rw [hp, ← hlv]
    cases sel.scope <;> exact ⟨_, rfl⟩
  unfold target at ht
  split at ht
  · rename_i crate locs
    cases ht
    refine ⟨_, rfl, by simp, ?_⟩
    intro e he
    simp only [List.mem_singleton] at he
    subst he
    obtain ⟨doc', r', h1, h2, _, c, h3, b, h4⟩ := key _ _ permEdit_unsafe (fun _ _ => rfl)
    refine ⟨doc', r', h1, h2, ?_⟩
    simp only [Gone, unsafePermitted, h3, Option.any_some, h4, inheritPerms]
    rfl
  · rename_i crate locs
    cases ht
    refine ⟨_, rfl, by simp, ?_⟩
    intro e he
    simp only [List.mem_singleton] at he
    subst he
    obtain ⟨doc', r', h1, h2, h5, c, h3, b, h4⟩ := key _ _ permEdit_extern (fun _ _ => rfl)
    refine ⟨doc', r', h1, h2, ?_⟩
    have := hv _ _ rfl
    simp only [Gone, externPermitted, h5]
    rw [if_neg (by omega)]
    simp [h3, h4, inheritPerms]
  · rename_i pkg
    cases ht
    refine ⟨_, rfl, by simp, ?_⟩
    intro e he
    simp only [List.mem_singleton] at he
    subst he
    obtain ⟨doc', r', h1, h2, h5, c, h3, b, h4⟩ := key _ _ permEdit_procMacro (fun _ _ => rfl)
    refine ⟨doc', r', h1, h2, ?_⟩
    rintro ck rfl
    simp only [Checker.baseProblems, List.mem_map, List.mem_filter]
    rintro ⟨p, ⟨_, hp⟩, hpe⟩
    cases hpe
    have : (Checker.updateConfig ck r').permissions.get? ⟨pkg.name, .all⟩ = some c := h3
    rw [this] at hp
    simp [h4, inheritPerms] at hp
  · rename_i pkg i
    split at ht
    · rename_i hi'
      cases ht
      obtain ⟨l, hl1, hl2, hl3, _⟩ := BuildScript.C18_patterns i hi'
      refine ⟨_, by simp only [fixes, hl1, Option.map_some]; rfl, by simpa using hl2, ?_⟩
      intro e he
      obtain ⟨pat, hpat, rfl⟩ := List.mem_map.mp he
      obtain ⟨doc', r', h1, h2, h5, c, h3, b, h4⟩ := key _ _ (permEdit_addInstruction [pat]) (by
        intro es hes
        obtain ⟨p, hp⟩ := Option.isSome_iff_exists.mp hes
        rw [readPerms_iff] at hp
        exact addToArray_isSome hp.2.2.1)
      refine ⟨doc', r', h1, h2, ?_⟩
      intro crate out hc hm
      subst hc
      unfold BuildScript.build at hm
      simp only [h3, Option.map_some, Option.getD_some] at hm
      cases out with
      | none => simp at hm
      | some out =>
        simp only [List.mem_flatMap] at hm
        obtain ⟨line, _, hm⟩ := hm
        split at hm
        · classical
          rw [BuildScript.checkDirective_eq] at hm
          split at hm
          · cases hm
          · rename_i hnot
            simp only [List.mem_singleton, Problem.disallowedBuildInstruction.injEq, true_and] at hm
            subst hm
            apply hnot
            refine .inr ⟨pat, ?_, hl3 pat hpat⟩
            rw [h4]
            simp [inheritPerms, mem_mergeVec, mem_addStr]
        · cases hm
    · cases ht
  · cases ht

/-! Non-vacuity of C64. -/
example : target (.disallowedBuildInstruction exCrate.pkgId (str! "cargo:rustc-link-lib=z")) =
    some ⟨str! "foo", .build⟩ := rfl
example : Reach (pkgPath ⟨str! "foo", .build⟩) exDoc := ⟨_, rfl, _, rfl, _, rfl, trivial⟩
example : fixes (fun _ => []) (fun _ => []) (fun _ => {})
    (.disallowedBuildInstruction exCrate.pkgId (str! "cargo:rustc-link-lib=z")) =
  some ([str! "cargo:rustc-link-lib=*", str! "cargo:rustc-link-*", str! "cargo:rustc-*", str! "cargo:*"].map
    (.allowBuildInstruction ⟨str! "foo", .build⟩)) := by decide +kernel

end Cackle.Editor
