import Verif.Lemmas.Editor
import Verif.Props.Permissions

/-!
# Lemmas: what each edit does to the fields of a section, and to effective permissions
-/

namespace Cackle.Editor
open Cackle Config Perm Toml
open Cackle.ApiMap (Api)

theorem readPerms_iff {es : Entries} {p : Perms} :
    readPerms es = some p ↔
      field readBool false es (str! "allow_unsafe") = some p.allowUnsafe ∧
      field readBool false es (str! "allow_extern") = some p.allowExtern ∧
      field readStrs [] es (str! "allow_build_instructions") = some p.allowBuildInstructions ∧
      field readStrs [] es (str! "allow_apis") = some p.allowApis ∧
      field readBool false es (str! "allow_proc_macro") = some p.allowProcMacro ∧
      field readSandbox {} es (str! "sandbox") = some p.sandbox ∧
      optField readStrs es (str! "import") = some p.imports := by
  constructor
  · intro h
    simp only [readPerms, Option.bind_eq_some_iff, Option.some.injEq] at h
    obtain ⟨a, ha, b, hb, c, hc, d, hd, e, he, f, hf, g, hg, rfl⟩ := h
    exact ⟨ha, hb, hc, hd, he, hf, hg⟩
  · rintro ⟨ha, hb, hc, hd, he, hf, hg⟩
    simp [readPerms, ha, hb, hc, hd, he, hf, hg]

theorem nested_insert {es : Entries} {key : Str} {v : Item} (hk : key ∉ nestedKeys) :
    ∀ k ∈ nestedKeys, (es.insert key v).get? k = es.get? k := by
  intro k hk'
  have : key ≠ k := by
    rintro rfl
    exact hk hk'
  simp [this]

theorem nested_erase {es : Entries} {key : Str} (hk : key ∉ nestedKeys) :
    ∀ k ∈ nestedKeys, (es.erase key).get? k = es.get? k := by
  intro k hk'
  have : key ≠ k := by
    rintro rfl
    exact hk hk'
  simp [this]

/-! ## Single values -/

theorem permEdit_unsafe :
    PermEdit (setValue (str! "allow_unsafe") (.bool true)) (fun p => { p with allowUnsafe := true }) where
  perms := by
    intro es es' p h hp
    cases h
    rw [readPerms_iff] at hp ⊢
    unfold optField at hp ⊢
    obtain ⟨h1, h2, h3, h4, h5, h6, h7⟩ := hp
    refine ⟨by rw [field_insert_eq]; rfl, ?_, ?_, ?_, ?_, ?_, ?_⟩ <;>
      rw [field_insert_ne (by decide)] <;> assumption
  known := by
    intro es es' h hk
    cases h
    exact known_insert hk (by decide)
  nested := by
    intro es es' h
    cases h
    exact nested_insert (by decide)

theorem permEdit_extern :
    PermEdit (setValue (str! "allow_extern") (.bool true)) (fun p => { p with allowExtern := true }) where
  perms := by
    intro es es' p h hp
    cases h
    rw [readPerms_iff] at hp ⊢
    unfold optField at hp ⊢
    obtain ⟨h1, h2, h3, h4, h5, h6, h7⟩ := hp
    refine ⟨?_, by rw [field_insert_eq]; rfl, ?_, ?_, ?_, ?_, ?_⟩ <;>
      rw [field_insert_ne (by decide)] <;> assumption
  known := by
    intro es es' h hk
    cases h
    exact known_insert hk (by decide)
  nested := by
    intro es es' h
    cases h
    exact nested_insert (by decide)

theorem permEdit_procMacro :
    PermEdit (setValue (str! "allow_proc_macro") (.bool true)) (fun p => { p with allowProcMacro := true }) where
  perms := by
    intro es es' p h hp
    cases h
    rw [readPerms_iff] at hp ⊢
    unfold optField at hp ⊢
    obtain ⟨h1, h2, h3, h4, h5, h6, h7⟩ := hp
    refine ⟨?_, ?_, ?_, ?_, by rw [field_insert_eq]; rfl, ?_, ?_⟩ <;>
      rw [field_insert_ne (by decide)] <;> assumption
  known := by
    intro es es' h hk
    cases h
    exact known_insert hk (by decide)
  nested := by
    intro es es' h
    cases h
    exact nested_insert (by decide)

/-! ## Lists -/

/-- `addOne` on a list of strings. -/
def addStr (v : Str) : List Str → List Str
  | [] => [v]
  | s :: rest => if strLe v s then (if s = v then s :: rest else v :: s :: rest) else s :: addStr v rest

theorem readStrs_cons {e : Item} {rest : List Item} {l : List Str} :
    readStrs (.array (e :: rest)) = some l ↔ ∃ s l', e = .str s ∧ readStrs (.array rest) = some l' ∧ l = s :: l' := by
  cases e with
  | str s =>
    simp only [readStrs, List.mapM_cons, Item.asStr, Option.bind_eq_bind, Option.bind_some, Option.pure_def,
      Option.bind_eq_some_iff, Option.some.injEq, Item.str.injEq]
    constructor
    · rintro ⟨x, hx, rfl⟩
      exact ⟨s, x, rfl, hx, rfl⟩
    · rintro ⟨s', x, rfl, hx, rfl⟩
      exact ⟨x, hx, rfl⟩
  | _ => simp [readStrs, Item.asStr]

theorem readStrs_addOne (v : Str) : ∀ {a : List Item} {l : List Str}, readStrs (.array a) = some l →
    readStrs (.array (addOne v a)) = some (addStr v l)
  | [], l, h => by
    simp only [readStrs, List.mapM_nil, Option.pure_def, Option.some.injEq] at h
    subst h
    rfl
  | e :: rest, l, h => by
    obtain ⟨s, l', rfl, h', rfl⟩ := readStrs_cons.mp h
    simp only [addOne, addStr]
    split
    · split
      · exact h
      · exact readStrs_cons.mpr ⟨v, _, rfl, h, rfl⟩
    · exact readStrs_cons.mpr ⟨s, _, rfl, readStrs_addOne v h', rfl⟩

theorem readStrs_addAll (vs : List Str) : ∀ {a : List Item} {l : List Str}, readStrs (.array a) = some l →
    readStrs (.array (vs.foldl (fun a v => addOne v a) a)) = some (vs.foldl (fun l v => addStr v l) l) := by
  induction vs with
  | nil => exact fun h => h
  | cons v vs ih =>
    intro a l h
    exact ih (readStrs_addOne v h)

theorem readStrs_removeFirst (v : Str) : ∀ {a : List Item} {l : List Str}, readStrs (.array a) = some l →
    readStrs (.array (removeFirst v a)) = some (l.erase v)
  | [], l, h => by
    simp only [readStrs, List.mapM_nil, Option.pure_def, Option.some.injEq] at h
    subst h
    rfl
  | e :: rest, l, h => by
    obtain ⟨s, l', rfl, h', rfl⟩ := readStrs_cons.mp h
    simp only [removeFirst, Item.asStr, Option.some.injEq]
    split
    · rename_i he
      subst he
      simpa using h'
    · rename_i he
      rw [List.erase_cons_tail (by simpa using he)]
      exact readStrs_cons.mpr ⟨s, _, rfl, readStrs_removeFirst v h', rfl⟩

theorem readStrs_removeAll (vs : List Str) : ∀ {a : List Item} {l : List Str}, readStrs (.array a) = some l →
    readStrs (.array (vs.foldl (fun a v => removeFirst v a) a)) = some (vs.foldl (fun l v => l.erase v) l) := by
  induction vs with
  | nil => exact fun h => h
  | cons v vs ih =>
    intro a l h
    exact ih (readStrs_removeFirst v h)

theorem mem_addStr {v x : Str} {l : List Str} : x ∈ addStr v l ↔ x = v ∨ x ∈ l := by
  induction l with
  | nil => simp [addStr]
  | cons s rest ih =>
    simp only [addStr]
    split
    · split
      · rename_i h
        subst h
        simp
      · simp
    · simp only [List.mem_cons, ih]
      constructor
      · rintro (h | h | h) <;> simp [h]
      · rintro (h | h | h) <;> simp [h]

theorem addToArray_field {name : Str} {vs : List Str} {t t' : Entries} (h : addToArray name vs t = some t')
    {l : List Str} (hl : field readStrs [] t name = some l) :
    field readStrs [] t' name = some (vs.foldl (fun l v => addStr v l) l) ∧
      (∀ k, k ≠ name → t'.get? k = t.get? k) := by
  unfold addToArray at h
  split at h
  · rename_i hv
    subst hv
    cases h
    exact ⟨hl, fun _ _ => rfl⟩
  · split at h
    · rename_i a ha
      cases h
      constructor
      · rw [field_insert_eq]
        apply readStrs_addAll
        unfold field at hl
        cases hg : t.get? name with
        | none =>
          rw [hg] at ha hl
          simp only [Option.getD_none, Item.array.injEq] at ha
          subst ha
          simpa [readStrs] using hl
        | some it =>
          rw [hg] at ha hl
          simp only [Option.getD_some] at ha
          subst ha
          exact hl
      · intro k hk
        simp [Ne.symm hk]
    · simp at h

theorem addToArray_known {name : Str} {vs : List Str} {t t' : Entries} (h : addToArray name vs t = some t')
    {fields : List Str} (hn : name ∈ fields) (hk : known fields t = true) : known fields t' = true := by
  unfold addToArray at h
  split at h
  · cases h; exact hk
  · split at h
    · cases h
      exact known_insert hk hn
    · simp at h

theorem permEdit_addApi (apis : List Api) : PermEdit (addToArray (str! "allow_apis") apis)
    (fun p => { p with allowApis := apis.foldl (fun l v => addStr v l) p.allowApis }) where
  perms := by
    intro es es' p h hp
    rw [readPerms_iff] at hp ⊢
    unfold optField at hp ⊢
    obtain ⟨h1, h2, h3, h4, h5, h6, h7⟩ := hp
    obtain ⟨hf, hne⟩ := addToArray_field h h4
    refine ⟨?_, ?_, ?_, hf, ?_, ?_, ?_⟩ <;>
      rw [field_congr (hne _ (by decide))] <;> assumption
  known := fun es es' h hk => addToArray_known h (by decide) hk
  nested := by
    intro es es' h k hk
    unfold addToArray at h
    split at h
    · cases h; rfl
    · split at h
      · cases h
        exact nested_insert (by decide) k hk
      · simp at h

theorem permEdit_addInstruction (is : List Str) : PermEdit (addToArray (str! "allow_build_instructions") is)
    (fun p => { p with allowBuildInstructions := is.foldl (fun l v => addStr v l) p.allowBuildInstructions }) where
  perms := by
    intro es es' p h hp
    rw [readPerms_iff] at hp ⊢
    unfold optField at hp ⊢
    obtain ⟨h1, h2, h3, h4, h5, h6, h7⟩ := hp
    obtain ⟨hf, hne⟩ := addToArray_field h h3
    refine ⟨?_, ?_, hf, ?_, ?_, ?_, ?_⟩ <;>
      rw [field_congr (hne _ (by decide))] <;> assumption
  known := fun es es' h hk => addToArray_known h (by decide) hk
  nested := by
    intro es es' h k hk
    unfold addToArray at h
    split at h
    · cases h; rfl
    · split at h
      · cases h
        exact nested_insert (by decide) k hk
      · simp at h

theorem permEdit_removeApis (apis : List Api) : PermEdit (removeApis apis)
    (fun p => { p with allowApis := apis.foldl (fun l v => l.erase v) p.allowApis }) where
  perms := by
    intro es es' p h hp
    rw [readPerms_iff] at hp ⊢
    unfold optField at hp ⊢
    obtain ⟨h1, h2, h3, h4, h5, h6, h7⟩ := hp
    unfold removeApis at h
    split at h
    · rename_i hn
      cases h
      refine ⟨h1, h2, h3, ?_, h5, h6, h7⟩
      unfold field at h4 ⊢
      rw [hn] at h4 ⊢
      simp only [Option.some.injEq] at h4 ⊢
      rw [← h4]
      clear h4
      induction apis with
      | nil => rfl
      | cons v vs ih => simpa using ih
    · rename_i a ha
      have hr : readStrs (.array a) = some p.allowApis := by
        unfold field at h4
        rw [ha] at h4
        exact h4
      have hr' := readStrs_removeAll apis hr
      simp only [Option.some.injEq] at h
      split at h
      · rename_i he
        subst h
        rw [List.isEmpty_iff.mp he] at hr'
        refine ⟨?_, ?_, ?_, ?_, ?_, ?_, ?_⟩
        case refine_4 =>
          rw [field_erase_eq]
          simpa [readStrs] using hr'
        all_goals rw [field_erase_ne (by decide)]; assumption
      · subst h
        refine ⟨?_, ?_, ?_, ?_, ?_, ?_, ?_⟩
        case refine_4 =>
          rw [field_insert_eq]
          exact hr'
        all_goals rw [field_insert_ne (by decide)]; assumption
    · simp at h
  known := by
    intro es es' h hk
    unfold removeApis at h
    split at h
    · cases h; exact hk
    · simp only [Option.some.injEq] at h
      split at h
      · subst h; exact known_erase hk
      · subst h; exact known_insert hk (by decide)
    · simp at h
  nested := by
    intro es es' h k hk
    unfold removeApis at h
    split at h
    · cases h; rfl
    · simp only [Option.some.injEq] at h
      split at h
      · subst h; exact nested_erase (by decide) k hk
      · subst h; exact nested_insert (by decide) k hk
    · simp at h

/-! ## Sandbox settings -/

theorem withTable_append (f : Entries → Option Entries) (ps qs : List Str) (es : Entries) :
    withTable f (ps ++ qs) es = withTable (withTable f qs) ps es := by
  induction ps generalizing es with
  | nil => rfl
  | cons p ps ih =>
    simp only [List.cons_append, withTable, ih]

theorem readSandbox_iff {it : Item} {s : Sandbox} :
    readSandbox it = some s ↔ ∃ es, it.entries = some es ∧ known sandboxFields es = true ∧
      optField readKind es (str! "kind") = some s.kind ∧
      field readStrs [] es (str! "extra_args") = some s.extraArgs ∧
      optField readBool es (str! "allow_network") = some s.allowNetwork ∧
      field readStrs [] es (str! "bind_writable") = some s.bindWritable ∧
      field readStrs [] es (str! "make_writable") = some s.makeWritable ∧
      field readStrs [] es (str! "pass_env") = some s.passEnv := by
  constructor
  · intro h
    simp only [readSandbox, Option.bind_eq_some_iff, Option.ite_none_right_eq_some, Option.some.injEq] at h
    obtain ⟨es, he, hk, a, ha, b, hb, c, hc, d, hd, e, he', f, hf, rfl⟩ := h
    exact ⟨es, he, hk, ha, hb, hc, hd, he', hf⟩
  · rintro ⟨es, he, hk, ha, hb, hc, hd, he', hf⟩
    simp [readSandbox, he, hk, ha, hb, hc, hd, he', hf]

/-- An edit of the `sandbox` table of a section. -/
theorem permEdit_sandbox {f : Entries → Option Entries} {g : Sandbox → Sandbox}
    (hf : ∀ es es' s, f es = some es' → readSandbox (.table es) = some s →
      readSandbox (.table es') = some (g s)) :
    PermEdit (withTable f [str! "sandbox"]) (fun p => { p with sandbox := g p.sandbox }) where
  perms := by
    intro es es' p h hp
    obtain ⟨sub, sub', hs, h1, rfl⟩ := withTable_cons h
    rw [readPerms_iff] at hp ⊢
    unfold optField at hp ⊢
    obtain ⟨h1', h2, h3, h4, h5, h6, h7⟩ := hp
    have hsub : readSandbox (.table sub) = some p.sandbox := by
      unfold field at h6
      cases hg : es.get? (str! "sandbox") with
      | none =>
        rw [hg] at hs h6
        simp only [Option.getD_none] at hs
        rw [← hs, ← h6]
        rfl
      | some it =>
        rw [hg] at hs h6
        simp only [Option.getD_some] at hs
        rw [← hs]
        exact h6
    refine ⟨?_, ?_, ?_, ?_, ?_, ?_, ?_⟩
    case refine_6 =>
      rw [field_insert_eq]
      exact hf _ _ _ h1 hsub
    all_goals rw [field_insert_ne (by decide)]; assumption
  known := by
    intro es es' h hk
    obtain ⟨sub, sub', hs, h1, rfl⟩ := withTable_cons h
    exact known_insert hk (by decide)
  nested := by
    intro es es' h k hk
    obtain ⟨sub, sub', hs, h1, rfl⟩ := withTable_cons h
    exact nested_insert (by decide) k hk

theorem permEdit_disable :
    PermEdit (withTable (setValue (str! "kind") (.str (str! "Disabled"))) [str! "sandbox"])
      (fun p => { p with sandbox := { p.sandbox with kind := some .disabled } }) := by
  apply permEdit_sandbox (g := fun s => { s with kind := some .disabled })
  intro es es' s h hs
  cases h
  rw [readSandbox_iff] at hs ⊢
  obtain ⟨e0, h0, hk, h1, h2, h3, h4, h5, h6⟩ := hs
  cases h0
  unfold optField at *
  refine ⟨_, rfl, known_insert hk (by decide), by rw [field_insert_eq]; rfl, ?_, ?_, ?_, ?_, ?_⟩ <;>
    rw [field_insert_ne (by decide)] <;> assumption

theorem permEdit_network :
    PermEdit (withTable (setValue (str! "allow_network") (.bool true)) [str! "sandbox"])
      (fun p => { p with sandbox := { p.sandbox with allowNetwork := some true } }) := by
  apply permEdit_sandbox (g := fun s => { s with allowNetwork := some true })
  intro es es' s h hs
  cases h
  rw [readSandbox_iff] at hs ⊢
  obtain ⟨e0, h0, hk, h1, h2, h3, h4, h5, h6⟩ := hs
  cases h0
  unfold optField at *
  refine ⟨_, rfl, known_insert hk (by decide), ?_, ?_, by rw [field_insert_eq]; rfl, ?_, ?_, ?_⟩ <;>
    rw [field_insert_ne (by decide)] <;> assumption

/-! ## Levels and effective permissions -/

theorem section_modSection (g : Perms → Perms) (s s' : Scope) (c : PkgCfg) :
    (sectionOf (modSection g s c) s').map PkgCfg.perms =
      if s' = s then some (g (((sectionOf c s).map PkgCfg.perms).getD {}))
      else (sectionOf c s').map PkgCfg.perms := by
  obtain ⟨p, b, t, f⟩ := c
  cases s <;> cases s' <;> cases f <;>
    simp [modSection, sectionOf, PkgCfg.perms, PkgCfg.build, PkgCfg.test, PkgCfg.from_]
  all_goals first
    | (rename_i x; obtain ⟨x1, x2⟩ := x; first | cases x1 <;> rfl | cases x2 <;> rfl)
    | (cases b <;> rfl)
    | (cases t <;> rfl)
    | rfl

theorem section_modOpt (g : Perms → Perms) (hg : g {} = {}) (s s' : Scope) (c : PkgCfg) :
    ((sectionOf (modOpt g s c) s').map PkgCfg.perms).getD {} =
      if s' = s then g (((sectionOf c s).map PkgCfg.perms).getD {})
      else ((sectionOf c s').map PkgCfg.perms).getD {} := by
  obtain ⟨p, b, t, f⟩ := c
  have key : ∀ o : Option PkgCfg, (Option.map PkgCfg.perms (Option.map (fun c =>
      PkgCfg.mk (g c.perms) c.build c.test c.from_) o)).getD {} = g ((Option.map PkgCfg.perms o).getD {}) := by
    intro o
    cases o with
    | none => exact hg.symm
    | some c => rfl
  cases s <;> cases s' <;> first
    | rfl
    | exact key _
    | (cases f <;> first | rfl | exact key _ | exact hg.symm)

theorem isSome_modOpt (g : Perms → Perms) (s s' : Scope) (c : PkgCfg) :
    (sectionOf (modOpt g s c) s').isSome = (sectionOf c s').isSome := by
  obtain ⟨p, b, t, f⟩ := c
  cases s <;> cases s' <;> cases f <;>
    simp [modOpt, sectionOf, PkgCfg.perms, PkgCfg.build, PkgCfg.test, PkgCfg.from_]

end Cackle.Editor
