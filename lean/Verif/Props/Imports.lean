import Verif.Props.Config

/-!
# C39: importing API definitions
-/

namespace Cackle.Config
open Cackle.ApiMap (Api)

/-- The definition of an API, empty if there is none. -/
def defOf (apis : AMap Api ApiCfg) (a : Api) : ApiCfg := (apis.get? a).getD {}

/-! ## Built-in APIs -/

/-- One iteration of the loop of `merge_built_ins`, as a function. -/
private def stepBuiltIn (builtIns : AMap Api ApiCfg) (apis : AMap Api ApiCfg) (imp : Api) :
    Option (AMap Api ApiCfg) := do
  let b ← AMap.get? builtIns imp
  let c := (AMap.get? apis imp).getD {}
  pure (AMap.insert apis imp { c with incl := c.incl ++ b.incl, excl := c.excl ++ b.excl })

private theorem foldBuiltIns (builtIns : AMap Api ApiCfg) (l : List Api) (apis : AMap Api ApiCfg) :
    (l.foldlM (stepBuiltIn builtIns) apis = none ↔ ∃ i ∈ l, builtIns.get? i = none) ∧
    ∀ apis', l.foldlM (stepBuiltIn builtIns) apis = some apis' → ∀ a,
      (∀ x, x ∈ (defOf apis' a).incl ↔
        x ∈ (defOf apis a).incl ∨ a ∈ l ∧ x ∈ (defOf builtIns a).incl) ∧
      (∀ x, x ∈ (defOf apis' a).excl ↔
        x ∈ (defOf apis a).excl ∨ a ∈ l ∧ x ∈ (defOf builtIns a).excl) ∧
      (defOf apis' a).noAutoDetect = (defOf apis a).noAutoDetect ∧
      (a ∉ l → apis'.get? a = apis.get? a) := by
  induction l generalizing apis with
  | nil =>
    refine ⟨by simp, fun apis' h => ?_⟩
    simp at h; subst h
    intro a; simp
  | cons i l ih =>
    simp only [List.foldlM_cons, Option.bind_eq_bind]
    cases hb : builtIns.get? i with
    | none =>
      have : stepBuiltIn builtIns apis i = none := by simp [stepBuiltIn, hb]
      simp [this, hb]
    | some b =>
      have hs : stepBuiltIn builtIns apis i = some (AMap.insert apis i
          { (defOf apis i) with incl := (defOf apis i).incl ++ b.incl,
                                excl := (defOf apis i).excl ++ b.excl }) := by
        simp [stepBuiltIn, hb, defOf]
      simp only [hs, Option.bind_some]
      obtain ⟨ih1, ih2⟩ := ih (AMap.insert apis i
          { (defOf apis i) with incl := (defOf apis i).incl ++ b.incl,
                                excl := (defOf apis i).excl ++ b.excl })
      refine ⟨?_, ?_⟩
      · rw [ih1]
        constructor
        · rintro ⟨j, hj, e⟩; exact ⟨j, List.mem_cons_of_mem _ hj, e⟩
        · rintro ⟨j, hj, e⟩
          rcases List.mem_cons.mp hj with rfl | hj
          · rw [hb] at e; cases e
          · exact ⟨j, hj, e⟩
      · intro apis' h a
        obtain ⟨p1, p2, p3, p4⟩ := ih2 apis' h a
        by_cases ha : i = a
        · subst ha
          have hd : defOf (AMap.insert apis i
            { (defOf apis i) with incl := (defOf apis i).incl ++ b.incl,
                                  excl := (defOf apis i).excl ++ b.excl }) i =
            { (defOf apis i) with incl := (defOf apis i).incl ++ b.incl,
                                  excl := (defOf apis i).excl ++ b.excl } := by
            simp [defOf]
          have hbi : defOf builtIns i = b := by simp [defOf, hb]
          rw [hd] at p1 p2 p3
          rw [hbi] at p1 p2 ⊢
          refine ⟨fun x => ?_, fun x => ?_, p3, fun hn => absurd (List.mem_cons_self ..) hn⟩
          · rw [p1]; simp only [List.mem_append, List.mem_cons, true_or, true_and]; grind
          · rw [p2]; simp only [List.mem_append, List.mem_cons, true_or, true_and]; grind
        · have hd : defOf (AMap.insert apis i
            { (defOf apis i) with incl := (defOf apis i).incl ++ b.incl,
                                  excl := (defOf apis i).excl ++ b.excl }) a = defOf apis a := by
            simp [defOf, ha]
          rw [hd] at p1 p2 p3
          have hm : a ∈ i :: l ↔ a ∈ l := by
            simp only [List.mem_cons]; constructor
            · rintro (e | h)
              · exact absurd e.symm ha
              · exact h
            · exact Or.inr
          rw [hm]
          refine ⟨p1, p2, p3, fun hn => ?_⟩
          rw [p4 hn]; simp [ha]

/-- **C39, built-in APIs.** Loading fails exactly if `import_std` has an unknown name. Otherwise the
definition of every API has exactly the paths that it had before plus, if it is imported, the built-in
ones; other APIs are unchanged. -/
theorem C39_import_std (builtIns : AMap Api ApiCfg) (cfg : Raw) :
    (mergeBuiltIns builtIns cfg = none ↔ ∃ i ∈ cfg.common.importStd, builtIns.get? i = none) ∧
    ∀ cfg', mergeBuiltIns builtIns cfg = some cfg' → ∀ a,
      (∀ x, x ∈ (defOf cfg'.apis a).incl ↔ x ∈ (defOf cfg.apis a).incl ∨
        a ∈ cfg.common.importStd ∧ x ∈ (defOf builtIns a).incl) ∧
      (∀ x, x ∈ (defOf cfg'.apis a).excl ↔ x ∈ (defOf cfg.apis a).excl ∨
        a ∈ cfg.common.importStd ∧ x ∈ (defOf builtIns a).excl) ∧
      (defOf cfg'.apis a).noAutoDetect = (defOf cfg.apis a).noAutoDetect ∧
      (a ∉ cfg.common.importStd → cfg'.apis.get? a = cfg.apis.get? a) := by
  have hm : mergeBuiltIns builtIns cfg =
      (cfg.common.importStd.foldlM (stepBuiltIn builtIns) cfg.apis).bind
        (fun apis => some { cfg with apis := apis, common := { cfg.common with importStd := [] } }) :=
    rfl
  obtain ⟨h1, h2⟩ := foldBuiltIns builtIns cfg.common.importStd cfg.apis
  rw [hm]
  refine ⟨?_, ?_⟩
  · rw [← h1]
    cases List.foldlM (stepBuiltIn builtIns) cfg.apis cfg.common.importStd <;> simp
  · intro cfg' h
    obtain ⟨apis, h3, h4⟩ := Option.bind_eq_some_iff.mp h
    simp only [Option.some.injEq] at h4
    subst h4
    exact h2 apis h3

example : (mergeBuiltIns [(str! "fs", { incl := [str! "std::fs"] })]
    { common := { importStd := [str! "fs"] }, apis := [(str! "fs", { incl := [str! "mine"] })] }).map
    (fun c => c.apis) = some [(str! "fs", { incl := [str! "mine", str! "std::fs"] })] := by decide
example : (mergeBuiltIns [] { common := { importStd := [str! "fs"] } }).isNone = true := by decide

/-! ## APIs exported by packages -/

/-- The config asks to import API `n` of package `pkg`, and the package exports it as `d`. -/
def Imported (exports : Str → Option (AMap Api ApiCfg)) (cfg : Raw) (pkg n : Str) (d : ApiCfg) : Prop :=
  ∃ c l ex, cfg.packages.get? pkg = some c ∧ c.perms.imports = some l ∧ n ∈ l ∧
    exports pkg = some ex ∧ ex.get? n = some d

/-- The name under which an imported API is known. -/
def qualified (pkg n : Str) : Api := pkg ++ str! "::" ++ n

private def stepImp (pkg : Str) (imports : List Str) (apis : AMap Api ApiCfg) (e : Api × ApiCfg) :
    Option (AMap Api ApiCfg) :=
  if e.1 ∈ imports then
    if (AMap.get? apis (qualified pkg e.1)).isSome then none
    else some (AMap.insert apis (qualified pkg e.1) e.2)
  else some apis

private theorem foldImp (pkg : Str) (imports : List Str) (ex : AMap Api ApiCfg)
    (apis apis' : AMap Api ApiCfg) (h : ex.foldlM (stepImp pkg imports) apis = some apis') :
    (∀ a d, apis.get? a = some d → apis'.get? a = some d) ∧
    (∀ e ∈ ex, e.1 ∈ imports → apis'.get? (qualified pkg e.1) = some e.2) ∧
    (∀ a d, apis'.get? a = some d → apis.get? a = some d ∨
      ∃ e ∈ ex, e.1 ∈ imports ∧ a = qualified pkg e.1 ∧ d = e.2) := by
  induction ex generalizing apis with
  | nil => simp at h; subst h; simp
  | cons e ex ih =>
    simp only [List.foldlM_cons, Option.bind_eq_bind] at h
    obtain ⟨apis1, h1, h2⟩ := Option.bind_eq_some_iff.mp h
    obtain ⟨i1, i2, i3⟩ := ih apis1 h2
    unfold stepImp at h1
    by_cases hm : e.1 ∈ imports
    · rw [if_pos hm] at h1
      by_cases hs : (AMap.get? apis (qualified pkg e.1)).isSome
      · rw [if_pos hs] at h1; cases h1
      · rw [if_neg hs] at h1
        simp only [Option.some.injEq] at h1
        subst h1
        have hnone : AMap.get? apis (qualified pkg e.1) = none := by simpa using hs
        refine ⟨?_, ?_, ?_⟩
        · intro a d ha
          refine i1 a d ?_
          rw [AMap.get?_insert, if_neg]
          · exact ha
          · rintro rfl; rw [hnone] at ha; cases ha
        · intro e' he' hi
          rcases List.mem_cons.mp he' with rfl | he'
          · exact i1 _ _ (by simp)
          · exact i2 e' he' hi
        · intro a d ha
          rcases i3 a d ha with h | ⟨e', he', h⟩
          · rw [AMap.get?_insert] at h
            split at h
            · rename_i heq
              simp only [Option.some.injEq] at h
              exact Or.inr ⟨e, List.mem_cons_self .., hm, heq.symm, h.symm⟩
            · exact Or.inl h
          · exact Or.inr ⟨e', List.mem_cons_of_mem _ he', h⟩
    · rw [if_neg hm] at h1
      simp only [Option.some.injEq] at h1
      subst h1
      refine ⟨i1, ?_, ?_⟩
      · intro e' he' hi
        rcases List.mem_cons.mp he' with rfl | he'
        · exact absurd hi hm
        · exact i2 e' he' hi
      · intro a d ha
        rcases i3 a d ha with h | ⟨e', he', h⟩
        · exact Or.inl h
        · exact Or.inr ⟨e', List.mem_cons_of_mem _ he', h⟩

private theorem importPackage_spec (pkg : Str) (imports : List Str)
    (exports : Option (AMap Api ApiCfg)) (hn : ∀ ex, exports = some ex → ex.keys.Nodup)
    (apis apis' : AMap Api ApiCfg) (h : importPackage pkg imports exports apis = some apis') :
    (∀ a d, apis.get? a = some d → apis'.get? a = some d) ∧
    (∀ ex n d, exports = some ex → ex.get? n = some d → n ∈ imports →
      apis'.get? (qualified pkg n) = some d) ∧
    (∀ a d, apis'.get? a = some d → apis.get? a = some d ∨
      ∃ ex n, exports = some ex ∧ ex.get? n = some d ∧ n ∈ imports ∧ a = qualified pkg n) := by
  unfold importPackage at h
  by_cases hi : imports = []
  · rw [if_pos hi] at h
    simp only [Option.some.injEq] at h
    subst h; subst hi; simp +contextual
  · rw [if_neg hi] at h
    obtain ⟨ex, h1, h2⟩ := Option.bind_eq_some_iff.mp h
    obtain ⟨j1, j2, j3⟩ := foldImp pkg imports ex apis apis' h2
    refine ⟨j1, ?_, ?_⟩
    · intro ex' n d he hg hm
      rw [h1] at he; cases he
      exact j2 (n, d) (AMap.mem_of_get? hg) hm
    · intro a d ha
      rcases j3 a d ha with h | ⟨e, he, hm, rfl, rfl⟩
      · exact Or.inl h
      · exact Or.inr ⟨ex, e.1, h1, AMap.get?_of_mem (hn ex h1) he, hm, rfl⟩

/-- **C39, package imports.** If loading succeeds, every existing definition is kept as it is, every
requested and exported API is defined as exported under the name `pkg::api`, and there is nothing
else. Loading fails if APIs are requested from a package without exports. `exports` and the package
table are maps (their keys are distinct). -/
theorem C39_import_pkg (exports : Str → Option (AMap Api ApiCfg)) (cfg cfg' : Raw)
    (hn : cfg.packages.keys.Nodup) (hx : ∀ p ex, exports p = some ex → ex.keys.Nodup)
    (h : loadImports exports cfg = some cfg') :
    (∀ a d, cfg.apis.get? a = some d → cfg'.apis.get? a = some d) ∧
    (∀ pkg n d, Imported exports cfg pkg n d → cfg'.apis.get? (qualified pkg n) = some d) ∧
    (∀ a d, cfg'.apis.get? a = some d → cfg.apis.get? a = some d ∨
      ∃ pkg n, a = qualified pkg n ∧ Imported exports cfg pkg n d) := by
  have key : ∀ (l : AMap Str PkgCfg) (apis apis' : AMap Api ApiCfg),
      l.foldlM (fun apis (p : Str × PkgCfg) =>
        importPackage p.1 (p.2.perms.imports.getD []) (exports p.1) apis) apis = some apis' →
      (∀ a d, apis.get? a = some d → apis'.get? a = some d) ∧
      (∀ e ∈ l, ∀ ex n d, exports e.1 = some ex → ex.get? n = some d →
        n ∈ e.2.perms.imports.getD [] → apis'.get? (qualified e.1 n) = some d) ∧
      (∀ a d, apis'.get? a = some d → apis.get? a = some d ∨
        ∃ e ∈ l, ∃ ex n, exports e.1 = some ex ∧ ex.get? n = some d ∧
          n ∈ e.2.perms.imports.getD [] ∧ a = qualified e.1 n) := by
    intro l
    induction l with
    | nil => intro apis apis' h; simp at h; subst h; simp
    | cons e l ih =>
      intro apis apis' h
      simp only [List.foldlM_cons, Option.bind_eq_bind] at h
      obtain ⟨apis1, h1, h2⟩ := Option.bind_eq_some_iff.mp h
      obtain ⟨i1, i2, i3⟩ := ih apis1 apis' h2
      obtain ⟨j1, j2, j3⟩ := importPackage_spec _ _ _ (hx e.1) _ _ h1
      refine ⟨fun a d ha => i1 a d (j1 a d ha), ?_, ?_⟩
      · intro e' he' ex n d hex hg hm
        rcases List.mem_cons.mp he' with rfl | he'
        · exact i1 _ _ (j2 ex n d hex hg hm)
        · exact i2 e' he' ex n d hex hg hm
      · intro a d ha
        rcases i3 a d ha with h | ⟨e', he', r⟩
        · rcases j3 a d h with h | r
          · exact Or.inl h
          · exact Or.inr ⟨e, List.mem_cons_self .., r⟩
        · exact Or.inr ⟨e', List.mem_cons_of_mem _ he', r⟩
  unfold loadImports at h
  obtain ⟨apis, h1, h2⟩ := Option.bind_eq_some_iff.mp h
  simp only [Option.pure_def, Option.some.injEq] at h2
  subst h2
  obtain ⟨k1, k2, k3⟩ := key _ _ _ h1
  refine ⟨k1, ?_, ?_⟩
  · rintro pkg n d ⟨c, l, ex, hc, hl, hm, hex, hg⟩
    exact k2 (pkg, c) (AMap.mem_of_get? hc) ex n d hex hg (by simp [hl, hm])
  · intro a d ha
    rcases k3 a d ha with h | ⟨e, he, ex, n, hex, hg, hm, rfl⟩
    · exact Or.inl h
    · refine Or.inr ⟨e.1, n, rfl, e.2, ?_⟩
      cases hi : e.2.perms.imports with
      | none => simp [hi] at hm
      | some l => exact ⟨l, ex, AMap.get?_of_mem hn he, rfl, by simpa [hi] using hm, hex, hg⟩

/-- A package from which APIs are requested must have exports. -/
theorem C39_import_missing_package (exports : Str → Option (AMap Api ApiCfg)) (cfg : Raw)
    (pkg : Str) (c : PkgCfg) (n : Str) (l : List Str) (hc : cfg.packages.get? pkg = some c)
    (hl : c.perms.imports = some (n :: l)) (he : exports pkg = none) :
    loadImports exports cfg = none := by
  have key : ∀ (l' : AMap Str PkgCfg), (pkg, c) ∈ l' → ∀ apis,
      l'.foldlM (fun apis (p : Str × PkgCfg) =>
        importPackage p.1 (p.2.perms.imports.getD []) (exports p.1) apis) apis = none := by
    intro l'
    induction l' with
    | nil => intro h; cases h
    | cons e l' ih =>
      intro hmem apis
      simp only [List.foldlM_cons, Option.bind_eq_bind]
      rcases List.mem_cons.mp hmem with rfl | hmem
      · have : importPackage pkg (c.perms.imports.getD []) (exports pkg) apis = none := by
          simp [importPackage, hl, he]
        simp [this]
      · cases importPackage e.1 (e.2.perms.imports.getD []) (exports e.1) apis with
        | none => rfl
        | some a => exact ih hmem a
  unfold loadImports
  rw [key _ (AMap.mem_of_get? hc)]; rfl

/-- The last part of the English claim C39: asking for an API that the package does not export is
reported. -/
def C39_Reported : Prop :=
  ∀ (exports : Str → Option (AMap Api ApiCfg)) (cfg : Raw) (pkg n : Str) (c : PkgCfg) (l : List Str),
    cfg.packages.get? pkg = some c → c.perms.imports = some l → n ∈ l →
    (∀ d, ¬ Imported exports cfg pkg n d) → loadImports exports cfg = none

/-- **C39, disagreement.** A misspelt import is silently ignored. -/
theorem C39_missing_export_ignored : ¬ C39_Reported := by
  intro h
  have := h (fun _ => some [(str! "net", {})])
    { packages := [(str! "p", .leaf { imports := some [str! "nett"] })] } (str! "p") (str! "nett")
    _ _ rfl rfl (by simp) (by
      rintro d ⟨c, l, ex, _, _, _, h4, h5⟩
      simp only [Option.some.injEq] at h4
      subst h4
      simp [AMap.get?] at h5)
  revert this; decide

example : (loadImports (fun _ => some [(str! "net", { incl := [str! "p::net"] }), (str! "x", {})])
    { packages := [(str! "p", .leaf { imports := some [str! "net"] })] }).map (fun c => c.apis) =
    some [(str! "p::net", { incl := [str! "p::net"] })] := by decide

end Cackle.Config
