import Verif.Lemmas.EditPerms
import Verif.Props.Editor
import Verif.Model.Exports

/-!
# Lemmas: edits of API definitions, of imports, of `[common]` and removal of sections
-/

namespace Cackle.Editor
open Cackle Config Perm Toml
open Cackle.ApiMap (Api)

/-- `new` has what `old` has and in addition what is listed in `add`. -/
def Adds (old add new : ApiCfg) : Prop :=
  (∀ x, x ∈ new.incl ↔ x ∈ old.incl ∨ x ∈ add.incl) ∧ (∀ x, x ∈ new.excl ↔ x ∈ old.excl ∨ x ∈ add.excl) ∧
  (∀ x, x ∈ new.noAutoDetect ↔ x ∈ old.noAutoDetect ∨ x ∈ add.noAutoDetect)

theorem readApi_iff {it : Item} {c : ApiCfg} :
    readApi it = some c ↔ ∃ es, it.entries = some es ∧
      known [str! "include", str! "exclude", str! "no_auto_detect"] es = true ∧
      field readStrs [] es (str! "include") = some c.incl ∧
      field readStrs [] es (str! "exclude") = some c.excl ∧
      field readStrs [] es (str! "no_auto_detect") = some c.noAutoDetect := by
  constructor
  · intro h
    simp only [readApi, Option.bind_eq_some_iff, Option.ite_none_right_eq_some, Option.some.injEq] at h
    obtain ⟨es, he, hk, a, ha, b, hb, d, hd, rfl⟩ := h
    exact ⟨es, he, hk, ha, hb, hd⟩
  · rintro ⟨es, he, hk, ha, hb, hd⟩
    simp [readApi, he, hk, ha, hb, hd]

/-- `f` adds `add` to an API definition. -/
def ApiEdit (f : Entries → Option Entries) (add : ApiCfg) : Prop :=
  ∀ es es' c, f es = some es' → readApi (.table es) = some c → ∃ c', readApi (.table es') = some c' ∧ Adds c add c'

theorem mem_addAll {vs l : List Str} {x : Str} : x ∈ vs.foldl (fun l v => addStr v l) l ↔ x ∈ l ∨ x ∈ vs := by
  induction vs generalizing l with
  | nil => simp
  | cons v vs ih =>
    simp only [List.foldl_cons, ih, mem_addStr, List.mem_cons]
    grind

theorem apiEdit_incl (vs : List Str) : ApiEdit (addToArray (str! "include") vs) { incl := vs } := by
  intro es es' c h hc
  rw [readApi_iff] at hc
  obtain ⟨es0, h0, hk, h1, h2, h3⟩ := hc
  cases h0
  obtain ⟨hf, hne⟩ := addToArray_field h h1
  refine ⟨{ c with incl := _ }, readApi_iff.mpr ⟨es', rfl, addToArray_known h (by decide) hk, hf, ?_, ?_⟩, ?_⟩
  · rw [field_congr (hne _ (by decide))]; exact h2
  · rw [field_congr (hne _ (by decide))]; exact h3
  · exact ⟨fun x => mem_addAll, fun x => by simp, fun x => by simp⟩

theorem apiEdit_excl (vs : List Str) : ApiEdit (addToArray (str! "exclude") vs) { excl := vs } := by
  intro es es' c h hc
  rw [readApi_iff] at hc
  obtain ⟨es0, h0, hk, h1, h2, h3⟩ := hc
  cases h0
  obtain ⟨hf, hne⟩ := addToArray_field h h2
  refine ⟨{ c with excl := _ }, readApi_iff.mpr ⟨es', rfl, addToArray_known h (by decide) hk, ?_, hf, ?_⟩, ?_⟩
  · rw [field_congr (hne _ (by decide))]; exact h1
  · rw [field_congr (hne _ (by decide))]; exact h3
  · exact ⟨fun x => by simp, fun x => mem_addAll, fun x => by simp⟩

theorem apiEdit_noDetect (vs : List Str) :
    ApiEdit (addToArray (str! "no_auto_detect") vs) { noAutoDetect := vs } := by
  intro es es' c h hc
  rw [readApi_iff] at hc
  obtain ⟨es0, h0, hk, h1, h2, h3⟩ := hc
  cases h0
  obtain ⟨hf, hne⟩ := addToArray_field h h3
  refine ⟨{ c with noAutoDetect := _ },
    readApi_iff.mpr ⟨es', rfl, addToArray_known h (by decide) hk, ?_, ?_, hf⟩, ?_⟩
  · rw [field_congr (hne _ (by decide))]; exact h1
  · rw [field_congr (hne _ (by decide))]; exact h2
  · exact ⟨fun x => by simp, fun x => by simp, fun x => mem_addAll⟩

theorem apiEdit_both (vs ws : List Str) :
    ApiEdit (fun t => (addToArray (str! "include") vs t).bind (addToArray (str! "exclude") ws))
      { incl := vs, excl := ws } := by
  intro es es' c h hc
  simp only [Option.bind_eq_some_iff] at h
  obtain ⟨mid, h1, h2⟩ := h
  obtain ⟨c1, r1, a1, a2, a3⟩ := apiEdit_incl vs _ _ _ h1 hc
  obtain ⟨c2, r2, b1, b2, b3⟩ := apiEdit_excl ws _ _ _ h2 r1
  refine ⟨c2, r2, fun x => ?_, fun x => ?_, fun x => ?_⟩
  · rw [b1, a1]; simp
  · rw [b2, a2]; simp
  · rw [b3, a3]; simp

/-- Replacing one API's definition. -/
theorem readDoc_api {n : Nat} {doc : Entries} {r : Raw} (h : readDoc n doc = some r) {ap : Entries} {name : Str}
    {it : Item} {c : ApiCfg} (hap : (doc.get? (str! "api")).getD (.table []) = .table ap)
    (hc : readApi it = some c) :
    readDoc n (doc.insert (str! "api") (.table (ap.insert name it))) =
      some { r with apis := r.apis.insert name c } := by
  rw [readDoc_iff] at h ⊢
  obtain ⟨hk, h1, h2, h3, h4, h5⟩ := h
  refine ⟨known_insert hk (by decide), ?_, ?_, ?_, ?_, ?_⟩
  · rw [AMap.get?_insert, if_neg (by decide)]; exact h1
  · unfold mapField
    rw [field_insert_eq]
    exact readMap_insert hc (mapField_get h2 hap)
  · unfold mapField at h3 ⊢
    rw [field_insert_ne (by decide)]; exact h3
  · rw [field_insert_ne (by decide)]; exact h4
  · rw [field_insert_ne (by decide)]; exact h5

theorem readMap_item {α : Type} {read : Item → Option α} {es : Entries} {m : AMap Str α}
    (h : readMap read es = some m) {k : Str} {it : Item} (hk : es.get? k = some it) :
    ∃ c, read it = some c ∧ m.get? k = some c := by
  have hg := readMap_get h k
  rw [hk] at hg
  have : (m.get? k).isSome := by
    rw [AMap.get?_isSome_iff, readMap_keys h, ← AMap.get?_isSome_iff, hk]
    rfl
  obtain ⟨c, hc⟩ := Option.isSome_iff_exists.mp this
  refine ⟨c, ?_, hc⟩
  rw [hc] at hg
  exact hg.symm

theorem edit_api {f : Entries → Option Entries} {add : ApiCfg} (hf : ApiEdit f add) {n : Nat} {api : Api}
    {doc doc' : Entries} {r : Raw} (h : readDoc n doc = some r)
    (he : withTable f [str! "api", api] doc = some doc') :
    ∃ c', readDoc n doc' = some { r with apis := r.apis.insert api c' } ∧
      Adds ((r.apis.get? api).getD {}) add c' := by
  obtain ⟨ap, ap', hap, h1, rfl⟩ := withTable_cons he
  obtain ⟨sub, sub', hs, h2, rfl⟩ := withTable_cons h1
  have hm := mapField_get (readDoc_iff.mp h).2.2.1 hap
  have hsub : readApi (.table sub) = some ((r.apis.get? api).getD {}) := by
    rw [← hs]
    cases hg : AMap.get? ap api with
    | none =>
      rw [readMap_get hm, hg]
      rfl
    | some it =>
      obtain ⟨c, h3, h4⟩ := readMap_item hm hg
      rw [h4]
      simpa using h3
  obtain ⟨c', h3, h4⟩ := hf _ _ _ h2 hsub
  exact ⟨c', readDoc_api h hap h3, h4⟩

/-! ## Post-processing -/

/-- The definition of `api` has what it had before and in addition `add`; other definitions are the same. -/
def ApisAdd (apis apis' : AMap Api ApiCfg) (api : Api) (add : ApiCfg) : Prop :=
  (∀ a, a ≠ api → apis'.get? a = apis.get? a) ∧
  ∃ d, apis'.get? api = some d ∧ Adds ((apis.get? api).getD {}) add d

theorem apisAdd_step {builtIns : AMap Api ApiCfg} {apis apis' : AMap Api ApiCfg} {api : Api} {add : ApiCfg}
    (h : ApisAdd apis apis' api add) (imp : Str) (b : ApiCfg) (_hb : builtIns.get? imp = some b) :
    ApisAdd
      (AMap.insert apis imp { (AMap.get? apis imp).getD {} with
        incl := ((AMap.get? apis imp).getD {}).incl ++ b.incl,
        excl := ((AMap.get? apis imp).getD {}).excl ++ b.excl })
      (AMap.insert apis' imp { (AMap.get? apis' imp).getD {} with
        incl := ((AMap.get? apis' imp).getD {}).incl ++ b.incl,
        excl := ((AMap.get? apis' imp).getD {}).excl ++ b.excl }) api add := by
  obtain ⟨h1, d, h2, a1, a2, a3⟩ := h
  by_cases hi : imp = api
  · subst hi
    refine ⟨?_, ?_⟩
    · intro a ha
      have : ¬ imp = a := fun e => ha e.symm
      simp [this, h1 a ha]
    · refine ⟨_, by rw [AMap.get?_insert, if_pos rfl], ?_⟩
      rw [AMap.get?_insert, if_pos rfl, h2]
      refine ⟨fun x => ?_, fun x => ?_, fun x => ?_⟩
      · simp only [Option.getD_some, List.mem_append, a1]; grind
      · simp only [Option.getD_some, List.mem_append, a2]; grind
      · simp only [Option.getD_some, a3]
  · refine ⟨?_, ?_⟩
    · intro a ha
      rw [AMap.get?_insert, AMap.get?_insert, h1 a ha, h1 imp hi]
    · refine ⟨d, by rw [AMap.get?_insert, if_neg hi, h2], ?_⟩
      rw [AMap.get?_insert, if_neg hi]
      exact ⟨a1, a2, a3⟩

theorem mergeBuiltIns_apis {b : AMap Api ApiCfg} {r r1 : Raw} (h : mergeBuiltIns b r = some r1)
    {apis' : AMap Api ApiCfg} {api : Api} {add : ApiCfg} (ha : ApisAdd r.apis apis' api add) :
    ∃ apis1, mergeBuiltIns b { r with apis := apis' } = some { r1 with apis := apis1 } ∧
      ApisAdd r1.apis apis1 api add := by
  unfold mergeBuiltIns at h ⊢
  simp only [Option.bind_eq_bind, Option.pure_def, Option.bind_eq_some_iff, Option.some.injEq] at h ⊢
  obtain ⟨a, h1, rfl⟩ := h
  have key : ∀ (l : List Str) (m m' m1 : AMap Api ApiCfg), ApisAdd m m' api add →
      l.foldlM (fun apis imp => (AMap.get? b imp).bind fun b => some (AMap.insert apis imp
        { (AMap.get? apis imp).getD {} with
          incl := ((AMap.get? apis imp).getD {}).incl ++ b.incl,
          excl := ((AMap.get? apis imp).getD {}).excl ++ b.excl })) m = some m1 →
      ∃ m1', l.foldlM (fun apis imp => (AMap.get? b imp).bind fun b => some (AMap.insert apis imp
        { (AMap.get? apis imp).getD {} with
          incl := ((AMap.get? apis imp).getD {}).incl ++ b.incl,
          excl := ((AMap.get? apis imp).getD {}).excl ++ b.excl })) m' = some m1' ∧ ApisAdd m1 m1' api add := by
    intro l
    induction l with
    | nil =>
      intro m m' m1 hm h
      cases h
      exact ⟨m', rfl, hm⟩
    | cons i l ih =>
      intro m m' m1 hm h
      rw [List.foldlM_cons] at h
      simp only [Option.bind_eq_bind, Option.bind_eq_some_iff] at h
      obtain ⟨m2, ⟨bi, hb, h2⟩, h3⟩ := h
      cases h2
      obtain ⟨m1', h4, h5⟩ := ih _ _ _ (apisAdd_step (builtIns := b) hm i bi hb) h3
      refine ⟨m1', ?_, h5⟩
      rw [List.foldlM_cons]
      simp only [Option.bind_eq_bind, hb, Option.bind_some]
      exact h4
  obtain ⟨m1', h2, h3⟩ := key _ _ _ _ ha h1
  exact ⟨m1', ⟨m1', h2, rfl⟩, h3⟩

theorem patch2_apis (r : Raw) (m : AMap Api ApiCfg) :
    patch2 { r with apis := m } = { patch2 r with apis := m } ∧ (patch2 r).apis = r.apis := by
  unfold patch2
  by_cases h : r.rustcSandbox.kind.isNone <;> simp [h]

theorem applyRuntimePatches_apis (r : Raw) (m : AMap Api ApiCfg) :
    applyRuntimePatches { r with apis := m } = { applyRuntimePatches r with apis := m } ∧
      (applyRuntimePatches r).apis = r.apis := by
  unfold applyRuntimePatches
  have key : ∀ (fs : List (Raw → Raw)), (∀ f ∈ fs, f = id ∨ f = patch2) → ∀ r : Raw,
      fs.foldl (fun c f => f c) { r with apis := m } =
        { fs.foldl (fun c f => f c) r with apis := m } ∧ (fs.foldl (fun c f => f c) r).apis = r.apis := by
    intro fs
    induction fs with
    | nil => intro _ r; exact ⟨rfl, rfl⟩
    | cons f fs ih =>
      intro hf r
      have ih := ih (fun g hg => hf g (by simp [hg]))
      simp only [List.foldl_cons]
      rcases hf f (by simp) with rfl | rfl
      · exact ih r
      · rw [(patch2_apis r m).1]
        obtain ⟨h1, h2⟩ := ih (patch2 r)
        exact ⟨h1, h2.trans (patch2_apis r m).2⟩
  refine key _ ?_ r
  intro f hf
  have := List.mem_of_mem_drop hf
  simp only [patches, List.mem_cons, List.not_mem_nil, or_false] at this
  rcases this with h | h | h | h <;> simp [h]

theorem parseRaw_apis {b : AMap Api ApiCfg} {r r1 : Raw} (h : parseRaw b r = some r1)
    {apis' : AMap Api ApiCfg} {api : Api} {add : ApiCfg} (ha : ApisAdd r.apis apis' api add) :
    ∃ apis1, parseRaw b { r with apis := apis' } = some { r1 with apis := apis1 } ∧
      ApisAdd r1.apis apis1 api add := by
  unfold parseRaw at h ⊢
  simp only [Option.bind_eq_bind, Option.pure_def, Option.bind_eq_some_iff, Option.some.injEq] at h ⊢
  obtain ⟨c, hc, rfl⟩ := h
  obtain ⟨a1, h1, h2⟩ := mergeBuiltIns_apis hc ha
  refine ⟨a1, ⟨_, h1, ?_⟩, ?_⟩
  · rw [(applyRuntimePatches_apis c a1).1]
  · show ApisAdd (applyRuntimePatches c).apis a1 api add
    rw [(applyRuntimePatches_apis c a1).2]
    exact h2

theorem load_api {f : Entries → Option Entries} {add : ApiCfg} (hf : ApiEdit f add) {b : AMap Api ApiCfg} {n : Nat}
    {api : Api} {doc doc' : Entries} {r : Raw} (h : load b n doc = some r)
    (he : withTable f [str! "api", api] doc = some doc') :
    ∃ apis', load b n doc' = some { r with apis := apis' } ∧ ApisAdd r.apis apis' api add := by
  unfold load at h ⊢
  simp only [Option.bind_eq_some_iff] at h ⊢
  obtain ⟨r0, hr, hp⟩ := h
  obtain ⟨c', h1, h2⟩ := edit_api hf hr he
  obtain ⟨a1, h3, h4⟩ := parseRaw_apis (apis' := r0.apis.insert api c') (api := api) (add := add) hp
    ⟨fun a ha => by simp [Ne.symm ha], c', by simp, h2⟩
  exact ⟨a1, ⟨_, h1, h3⟩, h4⟩

/-! ## Imports -/

theorem optField_field {es : Entries} {k : Str} {o : Option (List Str)} (h : optField readStrs es k = some o) :
    field readStrs [] es k = some (o.getD []) := by
  unfold optField field at h
  unfold field
  cases hg : es.get? k with
  | none =>
    rw [hg] at h
    cases h
    rfl
  | some it =>
    rw [hg] at h
    simp only [Option.map_eq_some_iff] at h
    obtain ⟨a, ha, rfl⟩ := h
    simpa using ha

theorem permEdit_import (api : Api) : PermEdit (addToArray (str! "import") [api])
    (fun p => { p with imports := some (addStr api (p.imports.getD [])) }) where
  perms := by
    intro es es' p h hp
    rw [readPerms_iff] at hp ⊢
    obtain ⟨h1, h2, h3, h4, h5, h6, h7⟩ := hp
    obtain ⟨hf, hne⟩ := addToArray_field h (optField_field h7)
    refine ⟨?_, ?_, ?_, ?_, ?_, ?_, ?_⟩
    case refine_7 =>
      unfold optField
      unfold field at hf ⊢
      have : ∃ a, es'.get? (str! "import") = some (.array a) := by
        unfold addToArray at h
        rw [if_neg (by simp)] at h
        split at h
        · cases h; exact ⟨_, by simp; rfl⟩
        · cases h
      obtain ⟨a, ha⟩ := this
      rw [ha] at hf ⊢
      simp only at hf ⊢
      rw [hf]
      rfl
    all_goals rw [field_congr (hne _ (by decide))]; assumption
  known := fun es es' h hk => addToArray_known h (by decide) hk
  nested := by
    intro es es' h k hk
    unfold addToArray at h
    split at h
    · cases h; rfl
    · split at h
      · cases h
        exact nested_insert (by decide) k hk
      · simp at h

/-- The change of a table made by `ignoreApi`. -/
def touchImport (t : Entries) : Option Entries :=
  match (t.get? (str! "import")).getD (.array []) with
  | .array a => some (t.insert (str! "import") (.array a))
  | _ => none

theorem permEdit_touch : PermEdit touchImport (fun p => { p with imports := some (p.imports.getD []) }) where
  perms := by
    intro es es' p h hp
    rw [readPerms_iff] at hp ⊢
    obtain ⟨h1, h2, h3, h4, h5, h6, h7⟩ := hp
    unfold touchImport at h
    split at h
    · rename_i a ha
      cases h
      have h7' := optField_field h7
      unfold optField
      refine ⟨?_, ?_, ?_, ?_, ?_, ?_, ?_⟩
      case refine_7 =>
        rw [field_insert_eq]
        unfold field at h7'
        cases hg : es.get? (str! "import") with
        | none =>
          rw [hg] at ha h7'
          simp only [Option.getD_none, Item.array.injEq] at ha
          subst ha
          simp only [Option.some.injEq] at h7'
          rw [← h7']
          rfl
        | some it =>
          rw [hg] at ha h7'
          simp only [Option.getD_some] at ha
          subst ha
          simp only at h7'
          rw [h7']
          rfl
      all_goals rw [field_insert_ne (by decide)]; assumption
    · cases h
  known := by
    intro es es' h hk
    unfold touchImport at h
    split at h
    · cases h; exact known_insert hk (by decide)
    · cases h
  nested := by
    intro es es' h k hk
    unfold touchImport at h
    split at h
    · cases h; exact nested_insert (by decide) k hk
    · cases h

theorem load_packages {b : AMap Api ApiCfg} {n : Nat} {doc doc' : Entries} {r : Raw} (h : load b n doc = some r)
    {F : AMap Str PkgCfg → AMap Str PkgCfg}
    (he : ∀ r0, readDoc n doc = some r0 → readDoc n doc' = some { r0 with packages := F r0.packages }) :
    load b n doc' = some { r with packages := F r.packages } := by
  unfold load at h ⊢
  simp only [Option.bind_eq_some_iff] at h ⊢
  obtain ⟨r0, hr, hp⟩ := h
  obtain ⟨h1, h2, _⟩ := parseRaw_packages hp (F r0.packages)
  rw [h2]
  exact ⟨_, he r0 hr, h1⟩

theorem load_section {f : Entries → Option Entries} {g : Perms → Perms} (hf : PermEdit f g) {b : AMap Api ApiCfg}
    {n : Nat} {sel : PermSel} {doc doc' : Entries} {r : Raw} (h : load b (n + 2) doc = some r)
    (he : withTable f (pkgPath sel) doc = some doc') :
    load b (n + 2) doc' = some { r with
      packages := r.packages.insert sel.pkg (modSection g sel.scope ((r.packages.get? sel.pkg).getD .default)) } :=
  load_packages h (F := fun m => m.insert sel.pkg (modSection g sel.scope ((m.get? sel.pkg).getD .default)))
    (fun _ hr => edit_doc hf hr he)

theorem listed_modSection (r : Raw) (g : Perms → Perms) (sel : PermSel) (q : Str) (s : Scope)
    (hs : sel.scope = .all) :
    listed { r with
      packages := r.packages.insert sel.pkg (modSection g sel.scope ((r.packages.get? sel.pkg).getD .default)) } q s
      = if q = sel.pkg ∧ s = .all then some (g ((listed r q .all).getD {})) else listed r q s := by
  rw [listed_eq, listed_eq, listed_eq]
  simp only [AMap.get?_insert]
  by_cases hq : q = sel.pkg
  · subst hq
    simp only [if_true, Option.bind_some, true_and]
    rw [section_modSection, hs]
    cases hg : AMap.get? r.packages sel.pkg with
    | none => cases s <;> rfl
    | some c => cases s <;> simp
  · have : ¬ sel.pkg = q := fun e => hq e.symm
    simp [hq, this]

/-! ## `[common]` -/

theorem readCommon_iff {it : Item} {c : Common} :
    readCommon it = some c ↔ ∃ es, it.entries = some es ∧
      known [str! "version", str! "explicit_build_scripts", str! "build_flags", str! "import_std",
        str! "features", str! "profile"] es = true ∧
      (es.get? (str! "version")).bind readInt = some c.version ∧
      field readBool false es (str! "explicit_build_scripts") = some c.explicitBuildScripts ∧
      (optField readStrs es (str! "build_flags")).isSome ∧
      field readStrs [] es (str! "import_std") = some c.importStd ∧
      (field readStrs [] es (str! "features")).isSome ∧ (optField readStr es (str! "profile")).isSome := by
  constructor
  · intro h
    simp only [readCommon, Option.bind_eq_some_iff, Option.ite_none_right_eq_some, Option.some.injEq] at h
    obtain ⟨es, he, hk, v, hv, a, ha, b, hb, i, hi, f, hf, p, hp, rfl⟩ := h
    exact ⟨es, he, hk, Option.bind_eq_some_iff.mpr hv, ha, by simp [hb], hi, by simp [hf], by simp [hp]⟩
  · rintro ⟨es, he, hk, hv, ha, hb, hi, hf, hp⟩
    obtain ⟨b, hb⟩ := Option.isSome_iff_exists.mp hb
    obtain ⟨f, hf⟩ := Option.isSome_iff_exists.mp hf
    obtain ⟨p, hp⟩ := Option.isSome_iff_exists.mp hp
    simp [readCommon, he, hk, hv, ha, hb, hi, hf, hp]

/-- Replacing `[common]`. -/
theorem edit_common {f : Entries → Option Entries} {g : Common → Common}
    (hf : ∀ es es' c, f es = some es' → readCommon (.table es) = some c → readCommon (.table es') = some (g c))
    {n : Nat} {doc doc' : Entries} {r : Raw} (h : readDoc n doc = some r)
    (he : withTable f [str! "common"] doc = some doc') :
    readDoc n doc' = some { r with common := g r.common } := by
  obtain ⟨sub, sub', hs, h1, rfl⟩ := withTable_cons he
  rw [readDoc_iff] at h ⊢
  obtain ⟨hk, c1, h2, h3, h4, h5⟩ := h
  refine ⟨known_insert hk (by decide), ?_, ?_, ?_, ?_, ?_⟩
  · rw [AMap.get?_insert, if_pos rfl]
    refine hf _ _ _ h1 ?_
    obtain ⟨it, h6, h7⟩ := Option.bind_eq_some_iff.mp c1
    rw [h6] at hs
    simp only [Option.getD_some] at hs
    rw [← hs]
    exact h7
  · unfold mapField at h2 ⊢
    rw [field_insert_ne (by decide)]; exact h2
  · unfold mapField at h3 ⊢
    rw [field_insert_ne (by decide)]; exact h3
  · rw [field_insert_ne (by decide)]; exact h4
  · rw [field_insert_ne (by decide)]; exact h5

theorem readDoc_setVersion {k : Int} {n : Nat} {doc doc' : Entries} {r : Raw} (h : readDoc n doc = some r)
    (he : setVersion k doc = some doc') :
    readDoc n doc' = some { r with common := { r.common with version := k } } := by
  refine edit_common (g := fun c => { c with version := k }) ?_ h he
  intro es es' c hf hc
  cases hf
  rw [readCommon_iff] at hc ⊢
  obtain ⟨es0, h0, hk, hv, ha, hb, hi, hfe, hp⟩ := hc
  cases h0
  unfold optField at *
  refine ⟨_, rfl, known_insert hk (by decide), ?_, ?_, ?_, ?_, ?_, ?_⟩
  · rw [AMap.get?_insert, if_pos rfl]; rfl
  all_goals rw [field_insert_ne (by decide)]; assumption

theorem readStrs_append {a : List Item} {l : List Str} (v : Str) (h : readStrs (.array a) = some l) :
    readStrs (.array (a ++ [.str v])) = some (l ++ [v]) := by
  induction a generalizing l with
  | nil =>
    simp only [readStrs, List.mapM_nil, Option.pure_def, Option.some.injEq] at h
    subst h
    rfl
  | cons e rest ih =>
    obtain ⟨s, l', rfl, h', rfl⟩ := readStrs_cons.mp h
    exact readStrs_cons.mpr ⟨s, _, rfl, ih h', rfl⟩

theorem readStrs_any {a : List Item} {l : List Str} (v : Str) (h : readStrs (.array a) = some l) :
    (a.any (fun e => e.asStr = some v) = true) ↔ v ∈ l := by
  induction a generalizing l with
  | nil =>
    simp only [readStrs, List.mapM_nil, Option.pure_def, Option.some.injEq] at h
    subst h
    simp
  | cons e rest ih =>
    obtain ⟨s, l', rfl, h', rfl⟩ := readStrs_cons.mp h
    rw [List.any_cons, Bool.or_eq_true, ih h', List.mem_cons]
    refine or_congr ?_ Iff.rfl
    simp only [Item.asStr, Option.some.injEq, decide_eq_true_eq]
    exact eq_comm

theorem readDoc_toggle {api : Api} {n : Nat} {doc doc' : Entries} {r : Raw} (h : readDoc n doc = some r)
    (he : toggleStdImport api doc = some doc') :
    readDoc n doc' = some { r with common := { r.common with
      importStd := if api ∈ r.common.importStd then r.common.importStd.erase api
        else r.common.importStd ++ [api] } } := by
  refine edit_common (g := fun c => { c with importStd :=
    if api ∈ c.importStd then c.importStd.erase api else c.importStd ++ [api] }) ?_ h he
  intro es es' c hf hc
  rw [readCommon_iff] at hc ⊢
  obtain ⟨es0, h0, hk, hv, ha, hb, hi, hfe, hp⟩ := hc
  cases h0
  split at hf
  · rename_i a hg
    cases hf
    have hr : readStrs (.array a) = some c.importStd := by
      unfold field at hi
      cases hx : es.get? (str! "import_std") with
      | none =>
        rw [hx] at hg hi
        simp only [Option.getD_none, Item.array.injEq] at hg
        subst hg
        simpa [readStrs] using hi
      | some it =>
        rw [hx] at hg hi
        simp only [Option.getD_some] at hg
        subst hg
        exact hi
    unfold optField at *
    refine ⟨_, rfl, known_insert hk (by decide), ?_, ?_, ?_, ?_, ?_, ?_⟩
    case refine_1 => rw [AMap.get?_insert, if_neg (by decide)]; exact hv
    case refine_4 =>
      rw [field_insert_eq]
      by_cases hm : api ∈ c.importStd
      · rw [if_pos ((readStrs_any api hr).mpr hm)]
        simp only [hm, if_true]
        exact readStrs_removeFirst api hr
      · rw [if_neg (fun hx => hm ((readStrs_any api hr).mp hx))]
        simp only [hm, if_false]
        exact readStrs_append api hr
    all_goals rw [field_insert_ne (by decide)]; assumption
  · cases hf

/-! ## Version updates -/

/-- The change of the `[rustc.sandbox]` table made by the update to version 2. -/
def setKind (t : Entries) : Option Entries :=
  some (if (t.get? (str! "kind")).isSome then t else t.insert (str! "kind") (.str (str! "Disabled")))

theorem readSandbox_setKind {es es' : Entries} {s : Sandbox} (h : setKind es = some es')
    (hs : readSandbox (.table es) = some s) :
    readSandbox (.table es') = some (if s.kind.isNone then { s with kind := some .disabled } else s) := by
  unfold setKind at h
  rw [readSandbox_iff] at hs ⊢
  obtain ⟨e0, h0, hk, h1, h2, h3, h4, h5, h6⟩ := hs
  cases h0
  cases hg : es.get? (str! "kind") with
  | some it =>
    rw [hg] at h
    simp only [Option.isSome_some, if_true, Option.some.injEq] at h
    subst h
    obtain ⟨a, _, ha⟩ := optField_some h1 hg
    have hn : ¬ s.kind.isNone = true := by rw [ha]; simp
    rw [if_neg hn]
    exact ⟨_, rfl, hk, h1, h2, h3, h4, h5, h6⟩
  | none =>
    rw [hg] at h
    simp only [Option.isSome_none, Bool.false_eq_true, if_false, Option.some.injEq] at h
    subst h
    have ha := optField_none h1 hg
    rw [ha]
    unfold optField at *
    refine ⟨_, rfl, known_insert hk (by decide), by rw [field_insert_eq]; rfl, ?_, ?_, ?_, ?_, ?_⟩ <;>
      rw [field_insert_ne (by decide)] <;> assumption

theorem field_getD {α : Type} {read : Item → Option α} {d : α} {es : Entries} {k : Str} {a : α}
    (h : field read d es k = some a) (hd : read (.table []) = some d) :
    read ((es.get? k).getD (.table [])) = some a := by
  unfold field at h
  cases hg : es.get? k with
  | none =>
    rw [hg] at h
    cases h
    simpa using hd
  | some it =>
    rw [hg] at h
    simpa using h

/-- The edited document is read as the edited configuration. -/
theorem readDoc_updatePreserving {k : Nat} {n : Nat} {doc doc' : Entries} {r : Raw} (h : readDoc n doc = some r)
    (he : updatePreserving k doc = some doc') : readDoc n doc' = some (Config.updatePreserving k r) := by
  unfold updatePreserving at he
  simp only [Option.bind_eq_some_iff] at he
  obtain ⟨d, hd, he⟩ := he
  have key : readDoc n d = some (if k = 2 then patch2 r else r) := by
    split at hd
    · obtain ⟨ru, ru', hru, h1, rfl⟩ := withTable_cons hd
      obtain ⟨sb, sb', hsb, h2, rfl⟩ := withTable_cons h1
      rename_i hk2
      rw [if_pos hk2]
      have hr := (readDoc_iff.mp h).2.2.2.2.2
      have h3 := field_getD hr rfl
      rw [hru] at h3
      unfold readRustc at h3
      simp only [Item.entries, Option.bind_some, Option.ite_none_right_eq_some] at h3
      obtain ⟨hk, h3⟩ := h3
      have h4 := field_getD h3 rfl
      rw [hsb] at h4
      have h5 := readSandbox_setKind h2 h4
      have hp : patch2 r = { r with rustcSandbox :=
          if r.rustcSandbox.kind.isNone then { r.rustcSandbox with kind := some .disabled } else r.rustcSandbox } := by
        unfold patch2
        split <;> rfl
      rw [hp]
      rw [readDoc_iff] at h ⊢
      obtain ⟨hk', g1, g2, g3, g4, g5⟩ := h
      refine ⟨known_insert hk' (by decide), ?_, ?_, ?_, ?_, ?_⟩
      · rw [AMap.get?_insert, if_neg (by decide)]; exact g1
      · unfold mapField at g2 ⊢
        rw [field_insert_ne (by decide)]; exact g2
      · unfold mapField at g3 ⊢
        rw [field_insert_ne (by decide)]; exact g3
      · rw [field_insert_ne (by decide)]; exact g4
      · rw [field_insert_eq]
        unfold readRustc
        simp only [Item.entries, Option.bind_some, Option.ite_none_right_eq_some]
        refine ⟨known_insert hk (by decide), ?_⟩
        rw [field_insert_eq]
        exact h5
    · rename_i hk2
      cases hd
      rw [if_neg hk2]
      exact h
  rw [readDoc_setVersion key he]
  unfold Config.updatePreserving
  split <;> rfl

/-! ## Removing sections -/

theorem readMap_erase {α : Type} {read : Item → Option α} (k : Str) : ∀ {es : Entries} {m : AMap Str α},
    readMap read es = some m → readMap read (es.erase k) = some (m.erase k)
  | [], m, h => by
    simp only [readMap, Option.some.injEq] at h
    subst h
    rfl
  | (q, it) :: rest, m, h => by
    simp only [readMap, Option.bind_eq_some_iff, Option.some.injEq] at h
    obtain ⟨v, hv, m', hm, rfl⟩ := h
    simp only [AMap.erase]
    split
    · exact readMap_erase k hm
    · simp [readMap, hv, readMap_erase k hm]

theorem optField_erase_ne {α : Type} {read : Item → Option α} {es : Entries} {k q : Str} (h : k ≠ q) :
    optField read (es.erase k) q = optField read es q := field_erase_ne h

theorem optField_erase_eq {α : Type} {read : Item → Option α} {es : Entries} {k : Str} :
    optField read (es.erase k) k = some none := field_erase_eq

theorem readPerms_erase {es : Entries} {k : Str} (hk : k ∈ nestedKeys) : readPerms (es.erase k) = readPerms es := by
  apply readPerms_congr
  intro q hq
  have : k ≠ q := by
    rintro rfl
    exact hq hk
  simp [this]

/-- Removing a nested section. -/
def dropSection : Scope → PkgCfg → PkgCfg
  | .all, c => c
  | .build, c => .mk c.perms none c.test c.from_
  | .test, c => .mk c.perms c.build none c.from_
  | .fromBuild, c => .mk c.perms c.build c.test (c.from_.map (fun f => (none, f.2)))
  | .fromTest, c => .mk c.perms c.build c.test (c.from_.map (fun f => (f.1, none)))

theorem section_drop (s s' : Scope) (hs : s ≠ .all) (c : PkgCfg) :
    sectionOf (dropSection s c) s' = if s' = s then none else sectionOf c s' := by
  obtain ⟨p, b, t, f⟩ := c
  cases s <;> cases s' <;> cases f <;>
    simp_all [dropSection, sectionOf, PkgCfg.perms, PkgCfg.build, PkgCfg.test, PkgCfg.from_]

theorem edit_drop {n : Nat} (s : Scope) (hs : s ≠ .all) {es es' : Entries} {c : PkgCfg}
    (h : readPkg (n + 2) (.table es) = some c)
    (he : withOptTable (fun t => some (t.erase ((scopePath s).getLast?.getD []))) (scopePath s).dropLast es =
      some es') :
    readPkg (n + 2) (.table es') = some (dropSection s c) := by
  have h' := h
  rw [readPkg_iff] at h
  obtain ⟨es0, h0, hk, hp, hb, ht, hfr⟩ := h
  cases h0
  have hfrom : ∀ (k : Str) (hk2 : k = str! "build" ∨ k = str! "test"),
      withOptTable (fun t => some (t.erase k)) [str! "from"] es = some es' →
      (es' = es ∧ c.from_ = none) ∨ ∃ (fs : Entries) (fr : _), es' = es.insert (str! "from") (.table (AMap.erase fs k)) ∧
        c.from_ = some fr ∧ readFrom (n + 1) (.table fs) = some fr := by
    intro k hk2 he
    rcases withOptTable_cons he with ⟨hn, rfl⟩ | ⟨fs, fs', hs', h1, rfl⟩
    · exact .inl ⟨rfl, optField_none hfr hn⟩
    · obtain ⟨fr, h2, h3⟩ := optField_some hfr hs'
      cases h1
      exact .inr ⟨fs, fr, rfl, h3, h2⟩
  cases s with
  | all => exact absurd rfl hs
  | build =>
    cases he
    rw [readPkg_iff]
    refine ⟨_, rfl, known_erase hk, ?_, ?_, ?_, ?_⟩
    · exact (readPerms_erase (by decide)).trans hp
    · exact optField_erase_eq
    · exact (optField_erase_ne (by decide)).trans ht
    · exact (optField_erase_ne (by decide)).trans hfr
  | test =>
    cases he
    rw [readPkg_iff]
    refine ⟨_, rfl, known_erase hk, ?_, ?_, ?_, ?_⟩
    · exact (readPerms_erase (by decide)).trans hp
    · exact (optField_erase_ne (by decide)).trans hb
    · exact optField_erase_eq
    · exact (optField_erase_ne (by decide)).trans hfr
  | fromBuild =>
    rcases hfrom (str! "build") (.inl rfl) he with ⟨rfl, hn⟩ | ⟨fs, fr, rfl, h1, h2⟩
    · rw [h']
      cases c
      simp_all [dropSection, PkgCfg.build, PkgCfg.perms, PkgCfg.test, PkgCfg.from_]
    · rw [readPkg_iff]
      refine ⟨_, rfl, known_insert hk (by decide), ?_, ?_, ?_, ?_⟩
      · rw [readPerms_nested (by decide), hp]; rfl
      · rw [optField_insert_ne (by decide), hb]; rfl
      · rw [optField_insert_ne (by decide), ht]; rfl
      · rw [optField_insert_eq]
        show _ = some (Option.map _ c.from_)
        rw [h1]
        rw [readFrom_iff] at h2
        obtain ⟨e1, h3, hk1, hb1, ht1⟩ := h2
        cases h3
        have : readFrom (n + 1) (.table (AMap.erase fs (str! "build"))) = some (none, fr.2) := by
          rw [readFrom_iff]
          exact ⟨_, rfl, known_erase hk1, optField_erase_eq, (optField_erase_ne (by decide)).trans ht1⟩
        rw [this]
        rfl
  | fromTest =>
    rcases hfrom (str! "test") (.inr rfl) he with ⟨rfl, hn⟩ | ⟨fs, fr, rfl, h1, h2⟩
    · rw [h']
      cases c
      simp_all [dropSection, PkgCfg.build, PkgCfg.perms, PkgCfg.test, PkgCfg.from_]
    · rw [readPkg_iff]
      refine ⟨_, rfl, known_insert hk (by decide), ?_, ?_, ?_, ?_⟩
      · rw [readPerms_nested (by decide), hp]; rfl
      · rw [optField_insert_ne (by decide), hb]; rfl
      · rw [optField_insert_ne (by decide), ht]; rfl
      · rw [optField_insert_eq]
        show _ = some (Option.map _ c.from_)
        rw [h1]
        rw [readFrom_iff] at h2
        obtain ⟨e1, h3, hk1, hb1, ht1⟩ := h2
        cases h3
        have : readFrom (n + 1) (.table (AMap.erase fs (str! "test"))) = some (fr.1, none) := by
          rw [readFrom_iff]
          exact ⟨_, rfl, known_erase hk1, (optField_erase_ne (by decide)).trans hb1, optField_erase_eq⟩
        rw [this]
        rfl

/-- What `removeUnusedPkgConfig` does to the packages. -/
def dropPkg (sel : PermSel) (m : AMap Str PkgCfg) : AMap Str PkgCfg :=
  if sel.scope = .all then m.erase sel.pkg
  else match m.get? sel.pkg with
    | none => m
    | some c => m.insert sel.pkg (dropSection sel.scope c)

theorem readDoc_drop {n : Nat} {sel : PermSel} {doc doc' : Entries} {r : Raw} (h : readDoc (n + 2) doc = some r)
    (he : removeUnusedPkgConfig sel doc = some doc') :
    ∃ m, readDoc (n + 2) doc' = some { r with packages := m } ∧
      ∀ q, AMap.get? m q = AMap.get? (dropPkg sel r.packages) q := by
  unfold removeUnusedPkgConfig at he
  have hmf := (readDoc_iff.mp h).2.2.2.1
  by_cases hs : sel.scope = .all
  · have hpath : pkgPath sel = [str! "pkg", sel.pkg] := by simp [pkgPath, hs, scopePath]
    rw [hpath] at he
    simp only [List.getLast?_cons_cons, List.getLast?_singleton, Option.getD_some, List.dropLast_cons₂,
      List.dropLast_singleton] at he
    unfold dropPkg
    rw [if_pos hs]
    rcases withOptTable_cons he with ⟨hn, rfl⟩ | ⟨pk, pk', hpk, h1, rfl⟩
    · refine ⟨r.packages, h, ?_⟩
      have := mapField_get (sub := []) hmf (by rw [hn]; rfl)
      simp only [readMap, Option.some.injEq] at this
      rw [← this]
      intro q
      rfl
    · cases h1
      have hm := mapField_get hmf (by rw [hpk]; rfl)
      refine ⟨r.packages.erase sel.pkg, ?_, fun q => rfl⟩
      rw [readDoc_iff] at h ⊢
      obtain ⟨hk, h1, h2, h3, h4, h5⟩ := h
      refine ⟨known_insert hk (by decide), ?_, ?_, ?_, ?_, ?_⟩
      · rw [AMap.get?_insert, if_neg (by decide)]; exact h1
      · unfold mapField at h2 ⊢
        rw [field_insert_ne (by decide)]; exact h2
      · unfold mapField
        rw [field_insert_eq]
        exact readMap_erase sel.pkg hm
      · rw [field_insert_ne (by decide)]; exact h4
      · rw [field_insert_ne (by decide)]; exact h5
  · have hpath : (pkgPath sel).dropLast = str! "pkg" :: sel.pkg :: (scopePath sel.scope).dropLast ∧
        (pkgPath sel).getLast? = (scopePath sel.scope).getLast? := by
      obtain ⟨p, s⟩ := sel
      cases s <;> simp_all [pkgPath, scopePath]
    rw [hpath.1, hpath.2] at he
    unfold dropPkg
    rw [if_neg hs]
    rcases withOptTable_cons he with ⟨hn, rfl⟩ | ⟨pk, pk', hpk, h1, rfl⟩
    · refine ⟨r.packages, h, ?_⟩
      have := mapField_get (sub := []) hmf (by rw [hn]; rfl)
      have hg := readMap_get this sel.pkg
      rw [show AMap.get? r.packages sel.pkg = none from hg]
      exact fun q => rfl
    · have hm := mapField_get hmf (by rw [hpk]; rfl)
      rcases withOptTable_cons h1 with ⟨hn, rfl⟩ | ⟨sub, sub', hsub, h2, rfl⟩
      · have hg := readMap_get hm sel.pkg
        rw [hn] at hg
        rw [show AMap.get? r.packages sel.pkg = none from hg]
        refine ⟨r.packages, ?_, fun q => rfl⟩
        rw [insert_get_self hpk]
        exact h
      · obtain ⟨c, hc1, hc2⟩ := readMap_item hm hsub
        rw [hc2]
        refine ⟨_, readDoc_pkg h (by rw [hpk]; rfl) (edit_drop sel.scope hs hc1 h2), fun q => rfl⟩

end Cackle.Editor
