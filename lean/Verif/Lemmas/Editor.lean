import Verif.Model.Editor
import Verif.Lemmas.Permissions

/-!
# Lemmas: how edits of the document change the configuration that is read from it
-/

namespace Cackle.Editor
open Cackle Config Perm Toml
open Cackle.ApiMap (Api)

/-! ## Tables -/

theorem keys_insert (m : Entries) (k : Str) (v : Item) : ∀ q ∈ (m.insert k v).keys, q ∈ m.keys ∨ q = k := by
  intro q hq
  rw [← AMap.get?_isSome_iff] at hq
  rw [AMap.get?_insert] at hq
  by_cases h : k = q
  · exact Or.inr h.symm
  · rw [if_neg h] at hq
    exact Or.inl (AMap.get?_isSome_iff.mp hq)

theorem insert_get_self {m : Entries} {k : Str} {v : Item} (h : m.get? k = some v) : m.insert k v = m := by
  induction m with
  | nil => simp at h
  | cons e rest ih =>
    obtain ⟨q, w⟩ := e
    simp only [AMap.get?] at h
    simp only [AMap.insert]
    split at h
    · rename_i hq
      simp only [Option.some.injEq] at h
      simp [hq, h]
    · rename_i hq
      simp [hq, ih h]

theorem keys_erase (m : Entries) (k : Str) : ∀ q ∈ (m.erase k).keys, q ∈ m.keys := by
  intro q hq
  rw [← AMap.get?_isSome_iff, AMap.get?_erase] at hq
  split at hq
  · simp at hq
  · exact AMap.get?_isSome_iff.mp hq

theorem known_insert {fields : List Str} {m : Entries} {k : Str} {v : Item} (h : known fields m = true)
    (hk : k ∈ fields) : known fields (m.insert k v) = true := by
  unfold known at h ⊢
  rw [List.all_eq_true] at h ⊢
  intro q hq
  rcases keys_insert m k v q hq with hq | rfl
  · exact h q hq
  · simpa using hk

theorem known_erase {fields : List Str} {m : Entries} {k : Str} (h : known fields m = true) :
    known fields (m.erase k) = true := by
  unfold known at h ⊢
  rw [List.all_eq_true] at h ⊢
  intro q hq
  exact h q (keys_erase m k q hq)

theorem field_insert_ne {α : Type} {read : Item → Option α} {d : α} {es : Entries} {k q : Str} {v : Item}
    (h : k ≠ q) : field read d (es.insert k v) q = field read d es q := by
  simp [field, h]

theorem field_insert_eq {α : Type} {read : Item → Option α} {d : α} {es : Entries} {k : Str} {v : Item} :
    field read d (es.insert k v) k = read v := by
  simp [field]

theorem field_erase_ne {α : Type} {read : Item → Option α} {d : α} {es : Entries} {k q : Str}
    (h : k ≠ q) : field read d (es.erase k) q = field read d es q := by
  simp [field, h]

theorem field_erase_eq {α : Type} {read : Item → Option α} {d : α} {es : Entries} {k : Str} :
    field read d (es.erase k) k = some d := by
  simp [field]

theorem field_congr {α : Type} {read : Item → Option α} {d : α} {es es' : Entries} {k : Str}
    (h : es'.get? k = es.get? k) : field read d es' k = field read d es k := by
  simp [field, h]

/-! ## Edits of the plain fields of a section -/

/-- The nested sections of a package's table. -/
def nestedKeys : List Str := [str! "build", str! "test", str! "from"]

/-- `f` changes the plain fields of a section as described by `g`, and nothing else. -/
structure PermEdit (f : Entries → Option Entries) (g : Perms → Perms) : Prop where
  perms : ∀ es es' p, f es = some es' → readPerms es = some p → readPerms es' = some (g p)
  known : ∀ es es', f es = some es' → known pkgFields es = true → known pkgFields es' = true
  nested : ∀ es es', f es = some es' → ∀ k ∈ nestedKeys, es'.get? k = es.get? k

/-- Changing the configuration at a scope, creating the section if it does not exist. -/
def modSection (g : Perms → Perms) (s : Scope) (c : PkgCfg) : PkgCfg :=
  let upd : Option PkgCfg → Option PkgCfg := fun o =>
    let c := o.getD .default
    some (.mk (g c.perms) c.build c.test c.from_)
  match s with
  | .all => .mk (g c.perms) c.build c.test c.from_
  | .build => .mk c.perms (upd c.build) c.test c.from_
  | .test => .mk c.perms c.build (upd c.test) c.from_
  | .fromBuild => .mk c.perms c.build c.test
      (some (upd ((c.from_.getD (none, none)).1), (c.from_.getD (none, none)).2))
  | .fromTest => .mk c.perms c.build c.test
      (some ((c.from_.getD (none, none)).1, upd ((c.from_.getD (none, none)).2)))

/-- `readPkg` of a `from` table. -/
def readFrom (n : Nat) (f : Item) : Option (Option PkgCfg × Option PkgCfg) :=
  f.entries.bind fun fs =>
    if known [str! "build", str! "test"] fs then
      (optField (readPkg n) fs (str! "build")).bind fun b =>
      (optField (readPkg n) fs (str! "test")).bind fun t =>
      some (b, t)
    else none

/-- What `readPkg` needs. -/
theorem readPkg_iff {n : Nat} {it : Item} {c : PkgCfg} :
    readPkg (n + 1) it = some c ↔ ∃ es, it.entries = some es ∧ known pkgFields es = true ∧
      readPerms es = some c.perms ∧ optField (readPkg n) es (str! "build") = some c.build ∧
      optField (readPkg n) es (str! "test") = some c.test ∧
      optField (readFrom n) es (str! "from") = some c.from_ := by
  constructor
  · intro h
    simp only [readPkg, Option.bind_eq_some_iff, Option.ite_none_right_eq_some, Option.some.injEq] at h
    obtain ⟨es, he, hk, p, hp, b, hb, t, ht, f, hf, rfl⟩ := h
    exact ⟨es, he, hk, hp, hb, ht, hf⟩
  · rintro ⟨es, he, hk, hp, hb, ht, hf⟩
    simp only [readPkg, Option.bind_eq_some_iff, Option.ite_none_right_eq_some, Option.some.injEq]
    refine ⟨es, he, hk, _, hp, _, hb, _, ht, _, hf, ?_⟩
    cases c
    rfl

theorem readFrom_iff {n : Nat} {it : Item} {c : Option PkgCfg × Option PkgCfg} :
    readFrom n it = some c ↔ ∃ es, it.entries = some es ∧ known [str! "build", str! "test"] es = true ∧
      optField (readPkg n) es (str! "build") = some c.1 ∧
      optField (readPkg n) es (str! "test") = some c.2 := by
  constructor
  · intro h
    simp only [readFrom, Option.bind_eq_some_iff, Option.ite_none_right_eq_some, Option.some.injEq] at h
    obtain ⟨es, he, hk, b, hb, t, ht, rfl⟩ := h
    exact ⟨es, he, hk, hb, ht⟩
  · rintro ⟨es, he, hk, hb, ht⟩
    simp only [readFrom, Option.bind_eq_some_iff, Option.ite_none_right_eq_some, Option.some.injEq]
    exact ⟨es, he, hk, _, hb, _, ht, rfl⟩

theorem readPkg_empty (n : Nat) : readPkg (n + 1) (.table []) = some PkgCfg.default := by
  rw [readPkg_iff]
  exact ⟨[], rfl, rfl, rfl, rfl, rfl, rfl⟩

theorem readFrom_empty (n : Nat) : readFrom n (.table []) = some (none, none) := by
  rw [readFrom_iff]
  exact ⟨[], rfl, rfl, rfl, rfl⟩

/-- The value of an optional field, or of the empty table that an edit creates. -/
theorem optField_getD {α : Type} {read : Item → Option α} {es : Entries} {k : Str} {o : Option α} {d : α}
    (h : optField read es k = some o) (hd : read (.table []) = some d) :
    read ((es.get? k).getD (.table [])) = some (o.getD d) := by
  unfold optField field at h
  cases hg : es.get? k with
  | none =>
    rw [hg] at h
    simp only [Option.some.injEq] at h
    subst h
    simpa using hd
  | some it =>
    rw [hg] at h
    simp only [Option.map_eq_some_iff] at h
    obtain ⟨a, ha, rfl⟩ := h
    simpa using ha

theorem optField_insert_ne {α : Type} {read : Item → Option α} {es : Entries} {k q : Str} {v : Item}
    (h : k ≠ q) : optField read (es.insert k v) q = optField read es q := field_insert_ne h

theorem optField_insert_eq {α : Type} {read : Item → Option α} {es : Entries} {k : Str} {v : Item} :
    optField read (es.insert k v) k = (read v).map some := field_insert_eq

theorem readPerms_congr {es es' : Entries}
    (h : ∀ k, k ∉ nestedKeys → es'.get? k = es.get? k) : readPerms es' = readPerms es := by
  unfold readPerms optField
  rw [field_congr (h (str! "allow_unsafe") (by decide)), field_congr (h (str! "allow_extern") (by decide)),
    field_congr (h (str! "allow_build_instructions") (by decide)),
    field_congr (h (str! "allow_apis") (by decide)),
    field_congr (h (str! "allow_proc_macro") (by decide)), field_congr (h (str! "sandbox") (by decide)),
    field_congr (h (str! "import") (by decide))]

theorem readPerms_nested {es : Entries} {k : Str} {v : Item} (hk : k ∈ nestedKeys) :
    readPerms (es.insert k v) = readPerms es := by
  apply readPerms_congr
  intro q hq
  have : k ≠ q := by
    rintro rfl
    exact hq hk
  simp [this]

/-- An edit of a section that is a whole package configuration. -/
theorem edit_all {f : Entries → Option Entries} {g : Perms → Perms} (hf : PermEdit f g) {n : Nat}
    {es es' : Entries} {c : PkgCfg} (h : readPkg (n + 1) (.table es) = some c) (he : f es = some es') :
    readPkg (n + 1) (.table es') = some (modSection g .all c) := by
  rw [readPkg_iff] at h ⊢
  obtain ⟨es0, h0, hk, hp, hb, ht, hfr⟩ := h
  cases h0
  refine ⟨es', rfl, hf.known _ _ he hk, hf.perms _ _ _ he hp, ?_, ?_, ?_⟩
  · exact Eq.trans (field_congr (hf.nested _ _ he _ (by decide))) hb
  · exact Eq.trans (field_congr (hf.nested _ _ he _ (by decide))) ht
  · exact Eq.trans (field_congr (hf.nested _ _ he _ (by decide))) hfr

theorem withTable_cons {f : Entries → Option Entries} {p : Str} {ps : List Str} {es es' : Entries}
    (h : withTable f (p :: ps) es = some es') :
    ∃ sub sub', (es.get? p).getD (.table []) = .table sub ∧ withTable f ps sub = some sub' ∧
      es' = es.insert p (.table sub') := by
  unfold withTable at h
  split at h
  · rename_i sub hs
    simp only [Option.map_eq_some_iff] at h
    obtain ⟨sub', h1, rfl⟩ := h
    exact ⟨sub, sub', hs, h1, rfl⟩
  · simp at h

/-- An edit at any scope of a package. -/
theorem edit_scope {f : Entries → Option Entries} {g : Perms → Perms} (hf : PermEdit f g) {n : Nat} (s : Scope)
    {es es' : Entries} {c : PkgCfg} (h : readPkg (n + 2) (.table es) = some c)
    (he : withTable f (scopePath s) es = some es') :
    readPkg (n + 2) (.table es') = some (modSection g s c) := by
  cases s with
  | all => exact edit_all hf h he
  | build =>
    obtain ⟨sub, sub', hs, h1, rfl⟩ := withTable_cons he
    rw [readPkg_iff] at h ⊢
    obtain ⟨es0, h0, hk, hp, hb, ht, hfr⟩ := h
    cases h0
    refine ⟨_, rfl, known_insert hk (by decide), ?_, ?_, ?_, ?_⟩
    · rw [readPerms_nested (by decide), hp]; rfl
    · rw [optField_insert_eq]
      have := optField_getD hb (readPkg_empty n)
      rw [hs] at this
      rw [edit_all hf this h1]
      rfl
    · rw [optField_insert_ne (by decide), ht]; rfl
    · rw [optField_insert_ne (by decide), hfr]; rfl
  | test =>
    obtain ⟨sub, sub', hs, h1, rfl⟩ := withTable_cons he
    rw [readPkg_iff] at h ⊢
    obtain ⟨es0, h0, hk, hp, hb, ht, hfr⟩ := h
    cases h0
    refine ⟨_, rfl, known_insert hk (by decide), ?_, ?_, ?_, ?_⟩
    · rw [readPerms_nested (by decide), hp]; rfl
    · rw [optField_insert_ne (by decide), hb]; rfl
    · rw [optField_insert_eq]
      have := optField_getD ht (readPkg_empty n)
      rw [hs] at this
      rw [edit_all hf this h1]
      rfl
    · rw [optField_insert_ne (by decide), hfr]; rfl
  | fromBuild =>
    obtain ⟨fs, fs', hs, h1, rfl⟩ := withTable_cons he
    obtain ⟨sub, sub', hs2, h2, rfl⟩ := withTable_cons h1
    rw [readPkg_iff] at h ⊢
    obtain ⟨es0, h0, hk, hp, hb, ht, hfr⟩ := h
    cases h0
    refine ⟨_, rfl, known_insert hk (by decide), ?_, ?_, ?_, ?_⟩
    · rw [readPerms_nested (by decide), hp]; rfl
    · rw [optField_insert_ne (by decide), hb]; rfl
    · rw [optField_insert_ne (by decide), ht]; rfl
    · rw [optField_insert_eq]
      have := optField_getD hfr (readFrom_empty (n + 1))
      rw [hs, readFrom_iff] at this
      obtain ⟨e1, h3, hk1, hb1, ht1⟩ := this
      cases h3
      have h4 := optField_getD hb1 (readPkg_empty n)
      rw [hs2] at h4
      have h5 := edit_all hf h4 h2
      simp only [Option.map_eq_some_iff]
      refine ⟨_, ?_, rfl⟩
      rw [readFrom_iff]
      refine ⟨_, rfl, known_insert hk1 (by decide), ?_, ?_⟩
      · rw [optField_insert_eq, h5]; rfl
      · rw [optField_insert_ne (by decide), ht1]
  | fromTest =>
    obtain ⟨fs, fs', hs, h1, rfl⟩ := withTable_cons he
    obtain ⟨sub, sub', hs2, h2, rfl⟩ := withTable_cons h1
    rw [readPkg_iff] at h ⊢
    obtain ⟨es0, h0, hk, hp, hb, ht, hfr⟩ := h
    cases h0
    refine ⟨_, rfl, known_insert hk (by decide), ?_, ?_, ?_, ?_⟩
    · rw [readPerms_nested (by decide), hp]; rfl
    · rw [optField_insert_ne (by decide), hb]; rfl
    · rw [optField_insert_ne (by decide), ht]; rfl
    · rw [optField_insert_eq]
      have := optField_getD hfr (readFrom_empty (n + 1))
      rw [hs, readFrom_iff] at this
      obtain ⟨e1, h3, hk1, hb1, ht1⟩ := this
      cases h3
      have h4 := optField_getD ht1 (readPkg_empty n)
      rw [hs2] at h4
      have h5 := edit_all hf h4 h2
      simp only [Option.map_eq_some_iff]
      refine ⟨_, ?_, rfl⟩
      rw [readFrom_iff]
      refine ⟨_, rfl, known_insert hk1 (by decide), ?_, ?_⟩
      · rw [optField_insert_ne (by decide), hb1]
      · rw [optField_insert_eq, h5]; rfl

/-! ## Edits of sections that may be absent -/

/-- Changing the configuration at a scope, if the section exists. -/
def modOpt (g : Perms → Perms) (s : Scope) (c : PkgCfg) : PkgCfg :=
  let upd : Option PkgCfg → Option PkgCfg := fun o =>
    o.map (fun c => .mk (g c.perms) c.build c.test c.from_)
  match s with
  | .all => .mk (g c.perms) c.build c.test c.from_
  | .build => .mk c.perms (upd c.build) c.test c.from_
  | .test => .mk c.perms c.build (upd c.test) c.from_
  | .fromBuild => .mk c.perms c.build c.test (c.from_.map (fun f => (upd f.1, f.2)))
  | .fromTest => .mk c.perms c.build c.test (c.from_.map (fun f => (f.1, upd f.2)))

theorem withOptTable_cons {f : Entries → Option Entries} {p : Str} {ps : List Str} {es es' : Entries}
    (h : withOptTable f (p :: ps) es = some es') :
    (es.get? p = none ∧ es' = es) ∨ ∃ sub sub', es.get? p = some (.table sub) ∧
      withOptTable f ps sub = some sub' ∧ es' = es.insert p (.table sub') := by
  unfold withOptTable at h
  split at h
  · rename_i hs
    simp only [Option.some.injEq] at h
    exact Or.inl ⟨hs, h.symm⟩
  · rename_i sub hs
    simp only [Option.map_eq_some_iff] at h
    obtain ⟨sub', h1, rfl⟩ := h
    exact Or.inr ⟨sub, sub', hs, h1, rfl⟩
  · simp at h

theorem optField_none {α : Type} {read : Item → Option α} {es : Entries} {k : Str} {o : Option α}
    (h : optField read es k = some o) (hn : es.get? k = none) : o = none := by
  unfold optField field at h
  rw [hn] at h
  simpa using h.symm

theorem optField_some {α : Type} {read : Item → Option α} {es : Entries} {k : Str} {o : Option α} {it : Item}
    (h : optField read es k = some o) (hn : es.get? k = some it) : ∃ a, read it = some a ∧ o = some a := by
  unfold optField field at h
  rw [hn] at h
  simp only [Option.map_eq_some_iff] at h
  obtain ⟨a, h1, h2⟩ := h
  exact ⟨a, h1, h2.symm⟩

/-- An edit at any scope of a package, if the section exists. -/
theorem edit_opt {f : Entries → Option Entries} {g : Perms → Perms} (hf : PermEdit f g) {n : Nat} (s : Scope)
    {es es' : Entries} {c : PkgCfg} (h : readPkg (n + 2) (.table es) = some c)
    (he : withOptTable f (scopePath s) es = some es') :
    readPkg (n + 2) (.table es') = some (modOpt g s c) := by
  have h' := h
  cases s with
  | all => exact edit_all hf h he
  | build =>
    rw [readPkg_iff] at h
    obtain ⟨es0, h0, hk, hp, hb, ht, hfr⟩ := h
    cases h0
    rcases withOptTable_cons he with ⟨hn, rfl⟩ | ⟨sub, sub', hs, h1, rfl⟩
    · rw [h']
      have := optField_none hb hn
      cases c
      simp_all [modOpt, PkgCfg.build, PkgCfg.perms, PkgCfg.test, PkgCfg.from_]
    · obtain ⟨a, ha, hca⟩ := optField_some hb hs
      rw [readPkg_iff]
      refine ⟨_, rfl, known_insert hk (by decide), ?_, ?_, ?_, ?_⟩
      · rw [readPerms_nested (by decide), hp]; rfl
      · rw [optField_insert_eq, edit_all hf ha h1]
        simp only [modOpt, hca]
        rfl
      · rw [optField_insert_ne (by decide), ht]; rfl
      · rw [optField_insert_ne (by decide), hfr]; rfl
  | test =>
    rw [readPkg_iff] at h
    obtain ⟨es0, h0, hk, hp, hb, ht, hfr⟩ := h
    cases h0
    rcases withOptTable_cons he with ⟨hn, rfl⟩ | ⟨sub, sub', hs, h1, rfl⟩
    · rw [h']
      have := optField_none ht hn
      cases c
      simp_all [modOpt, PkgCfg.build, PkgCfg.perms, PkgCfg.test, PkgCfg.from_]
    · obtain ⟨a, ha, hca⟩ := optField_some ht hs
      rw [readPkg_iff]
      refine ⟨_, rfl, known_insert hk (by decide), ?_, ?_, ?_, ?_⟩
      · rw [readPerms_nested (by decide), hp]; rfl
      · rw [optField_insert_ne (by decide), hb]; rfl
      · rw [optField_insert_eq, edit_all hf ha h1]
        simp only [modOpt, hca]
        rfl
      · rw [optField_insert_ne (by decide), hfr]; rfl
  | fromBuild =>
    rw [readPkg_iff] at h
    obtain ⟨es0, h0, hk, hp, hb, ht, hfr⟩ := h
    cases h0
    rcases withOptTable_cons he with ⟨hn, rfl⟩ | ⟨fs, fs', hs, h1, rfl⟩
    · rw [h']
      have := optField_none hfr hn
      cases c
      simp_all [modOpt, PkgCfg.build, PkgCfg.perms, PkgCfg.test, PkgCfg.from_]
    · obtain ⟨fr, hfr2, hcf⟩ := optField_some hfr hs
      rw [readFrom_iff] at hfr2
      obtain ⟨e1, h3, hk1, hb1, ht1⟩ := hfr2
      cases h3
      obtain ⟨f1, f2⟩ := fr
      simp only at hb1 ht1
      rw [readPkg_iff]
      refine ⟨_, rfl, known_insert hk (by decide), ?_, ?_, ?_, ?_⟩
      · rw [readPerms_nested (by decide), hp]; rfl
      · rw [optField_insert_ne (by decide), hb]; rfl
      · rw [optField_insert_ne (by decide), ht]; rfl
      · rw [optField_insert_eq]
        refine Option.map_eq_some_iff.mpr ?_
        show ∃ a, _ ∧ some a = Option.map _ c.from_
        rw [hcf]
        refine ⟨_, ?_, rfl⟩
        rw [readFrom_iff]
        rcases withOptTable_cons h1 with ⟨hn, rfl⟩ | ⟨sub, sub', hs2, h2, rfl⟩
        · have := optField_none hb1 hn
          subst this; exact ⟨_, rfl, hk1, hb1, ht1⟩
        · obtain ⟨a, ha, hca⟩ := optField_some hb1 hs2
          refine ⟨_, rfl, known_insert hk1 (by decide), ?_, ?_⟩
          · subst hca; rw [optField_insert_eq, edit_all hf ha h2]; rfl
          · rw [optField_insert_ne (by decide), ht1]
  | fromTest =>
    rw [readPkg_iff] at h
    obtain ⟨es0, h0, hk, hp, hb, ht, hfr⟩ := h
    cases h0
    rcases withOptTable_cons he with ⟨hn, rfl⟩ | ⟨fs, fs', hs, h1, rfl⟩
    · rw [h']
      have := optField_none hfr hn
      cases c
      simp_all [modOpt, PkgCfg.build, PkgCfg.perms, PkgCfg.test, PkgCfg.from_]
    · obtain ⟨fr, hfr2, hcf⟩ := optField_some hfr hs
      rw [readFrom_iff] at hfr2
      obtain ⟨e1, h3, hk1, hb1, ht1⟩ := hfr2
      cases h3
      obtain ⟨f1, f2⟩ := fr
      simp only at hb1 ht1
      rw [readPkg_iff]
      refine ⟨_, rfl, known_insert hk (by decide), ?_, ?_, ?_, ?_⟩
      · rw [readPerms_nested (by decide), hp]; rfl
      · rw [optField_insert_ne (by decide), hb]; rfl
      · rw [optField_insert_ne (by decide), ht]; rfl
      · rw [optField_insert_eq]
        refine Option.map_eq_some_iff.mpr ?_
        show ∃ a, _ ∧ some a = Option.map _ c.from_
        rw [hcf]
        refine ⟨_, ?_, rfl⟩
        rw [readFrom_iff]
        rcases withOptTable_cons h1 with ⟨hn, rfl⟩ | ⟨sub, sub', hs2, h2, rfl⟩
        · have := optField_none ht1 hn
          subst this; exact ⟨_, rfl, hk1, hb1, ht1⟩
        · obtain ⟨a, ha, hca⟩ := optField_some ht1 hs2
          refine ⟨_, rfl, known_insert hk1 (by decide), ?_, ?_⟩
          · rw [optField_insert_ne (by decide), hb1]
          · subst hca; rw [optField_insert_eq, edit_all hf ha h2]; rfl

/-! ## Whole documents -/

theorem readMap_get {α : Type} {read : Item → Option α} : ∀ {es : Entries} {m : AMap Str α},
    readMap read es = some m → ∀ k, m.get? k = (es.get? k).bind read
  | [], m, h, k => by
    simp only [readMap, Option.some.injEq] at h
    subst h
    simp
  | (q, it) :: rest, m, h, k => by
    simp only [readMap, Option.bind_eq_some_iff, Option.some.injEq] at h
    obtain ⟨v, hv, m', hm, rfl⟩ := h
    simp only [AMap.get?]
    split
    · simp [hv]
    · exact readMap_get hm k

theorem readMap_keys {α : Type} {read : Item → Option α} : ∀ {es : Entries} {m : AMap Str α},
    readMap read es = some m → m.keys = es.keys
  | [], m, h => by
    simp only [readMap, Option.some.injEq] at h
    subst h
    simp [AMap.keys]
  | (q, it) :: rest, m, h => by
    simp only [readMap, Option.bind_eq_some_iff, Option.some.injEq] at h
    obtain ⟨v, hv, m', hm, rfl⟩ := h
    have := readMap_keys hm
    simp only [AMap.keys] at this ⊢
    simp [this]

theorem readMap_insert {α : Type} {read : Item → Option α} {k : Str} {it : Item} {v : α} (hv : read it = some v) :
    ∀ {es : Entries} {m : AMap Str α}, readMap read es = some m →
      readMap read (es.insert k it) = some (m.insert k v)
  | [], m, h => by
    simp only [readMap, Option.some.injEq] at h
    subst h
    simp [AMap.insert, readMap, hv]
  | (q, it') :: rest, m, h => by
    simp only [readMap, Option.bind_eq_some_iff, Option.some.injEq] at h
    obtain ⟨v', hv', m', hm, rfl⟩ := h
    simp only [AMap.insert]
    split
    · simp [readMap, hv, hm]
    · simp [readMap, hv', readMap_insert hv hm]

theorem nodup_insert {α : Type} : ∀ {m : AMap Str α} {k : Str} {v : α}, m.keys.Nodup → (m.insert k v).keys.Nodup
  | [], k, v, h => by simp [AMap.insert, AMap.keys]
  | (q, w) :: rest, k, v, h => by
    simp only [AMap.keys, List.map_cons, List.nodup_cons] at h
    simp only [AMap.insert]
    split
    · simp only [AMap.keys, List.map_cons, List.nodup_cons]
      exact h
    · rename_i hne
      simp only [AMap.keys, List.map_cons, List.nodup_cons]
      refine ⟨?_, nodup_insert h.2⟩
      intro hm
      have hm : q ∈ (AMap.insert rest k v).keys := hm
      rw [← AMap.get?_isSome_iff, AMap.get?_insert] at hm
      have hne' : ¬ k = q := fun e => hne e.symm
      rw [if_neg hne', AMap.get?_isSome_iff] at hm
      exact h.1 hm

/-- What `readDoc` needs. -/
theorem readDoc_iff {n : Nat} {doc : Entries} {r : Raw} :
    readDoc n doc = some r ↔
      known [str! "common", str! "api", str! "pkg", str! "sandbox", str! "rustc"] doc = true ∧
      (doc.get? (str! "common")).bind readCommon = some r.common ∧
      mapField readApi doc (str! "api") = some r.apis ∧
      mapField (readPkg n) doc (str! "pkg") = some r.packages ∧
      field readSandbox {} doc (str! "sandbox") = some r.sandbox ∧
      field readRustc {} doc (str! "rustc") = some r.rustcSandbox := by
  constructor
  · intro h
    simp only [readDoc, Option.bind_eq_some_iff, Option.ite_none_right_eq_some, Option.some.injEq] at h
    obtain ⟨hk, c, hc, a, ha, p, hp, s, hs, rs, hrs, rfl⟩ := h
    exact ⟨hk, Option.bind_eq_some_iff.mpr hc, ha, hp, hs, hrs⟩
  · rintro ⟨hk, hc, ha, hp, hs, hrs⟩
    simp only [readDoc, Option.ite_none_right_eq_some]
    refine ⟨hk, ?_⟩
    simp [hc, ha, hp, hs, hrs]

theorem mapField_get {α : Type} {read : Item → Option α} {es : Entries} {k : Str} {m : AMap Str α} {sub : Entries}
    (h : mapField read es k = some m) (hs : (es.get? k).getD (.table []) = .table sub) :
    readMap read sub = some m := by
  unfold mapField field at h
  cases hg : es.get? k with
  | none =>
    rw [hg] at h hs
    simp only [Option.getD_none, Item.table.injEq] at hs
    subst hs
    simpa [readMap] using h
  | some it =>
    rw [hg] at h hs
    simp only [Option.getD_some] at hs
    subst hs
    exact h

/-- Replacing one package's configuration. -/
theorem readDoc_pkg {n : Nat} {doc : Entries} {r : Raw} (h : readDoc n doc = some r) {pk : Entries} {name : Str}
    {it : Item} {c : PkgCfg} (hpk : (doc.get? (str! "pkg")).getD (.table []) = .table pk)
    (hc : readPkg n it = some c) :
    readDoc n (doc.insert (str! "pkg") (.table (pk.insert name it))) =
      some { r with packages := r.packages.insert name c } := by
  rw [readDoc_iff] at h ⊢
  obtain ⟨hk, h1, h2, h3, h4, h5⟩ := h
  refine ⟨known_insert hk (by decide), ?_, ?_, ?_, ?_, ?_⟩
  · rw [AMap.get?_insert, if_neg (by decide)]; exact h1
  · unfold mapField at h2 ⊢
    rw [field_insert_ne (by decide)]; exact h2
  · unfold mapField
    rw [field_insert_eq]
    exact readMap_insert hc (mapField_get h3 hpk)
  · rw [field_insert_ne (by decide)]; exact h4
  · rw [field_insert_ne (by decide)]; exact h5

/-- **Edits that create the section.** -/
theorem edit_doc {f : Entries → Option Entries} {g : Perms → Perms} (hf : PermEdit f g) {n : Nat} {sel : PermSel}
    {doc doc' : Entries} {r : Raw} (h : readDoc (n + 2) doc = some r)
    (he : withTable f (pkgPath sel) doc = some doc') :
    readDoc (n + 2) doc' = some { r with
      packages := r.packages.insert sel.pkg (modSection g sel.scope ((r.packages.get? sel.pkg).getD .default)) } := by
  obtain ⟨pk, pk', hpk, h1, rfl⟩ := withTable_cons he
  obtain ⟨sub, sub', hs, h2, rfl⟩ := withTable_cons h1
  apply readDoc_pkg h hpk
  apply edit_scope hf _ _ h2
  rw [← hs]
  have hm := mapField_get (readDoc_iff.mp h).2.2.2.1 hpk
  rw [readMap_get hm sel.pkg]
  cases hg : AMap.get? pk sel.pkg with
  | none => simpa using readPkg_empty (n + 1)
  | some it =>
    simp only [Option.bind_some, Option.getD_some]
    have : (r.packages.get? sel.pkg).isSome := by
      rw [AMap.get?_isSome_iff, readMap_keys hm, ← AMap.get?_isSome_iff, hg]
      rfl
    rw [readMap_get hm sel.pkg, hg] at this
    simp only [Option.bind_some] at this
    obtain ⟨c, hc⟩ := Option.isSome_iff_exists.mp this
    simp [hc]

/-- **Edits that only apply if the section exists.** -/
theorem edit_doc_opt {f : Entries → Option Entries} {g : Perms → Perms} (hf : PermEdit f g) {n : Nat}
    {sel : PermSel} {doc doc' : Entries} {r : Raw} (h : readDoc (n + 2) doc = some r)
    (he : withOptTable f (pkgPath sel) doc = some doc') :
    (doc' = doc ∧ r.packages.get? sel.pkg = none) ∨
    ∃ c, r.packages.get? sel.pkg = some c ∧
      readDoc (n + 2) doc' = some { r with packages := r.packages.insert sel.pkg (modOpt g sel.scope c) } := by
  have hmf := (readDoc_iff.mp h).2.2.2.1
  rcases withOptTable_cons he with ⟨hn, rfl⟩ | ⟨pk, pk', hpk, h1, rfl⟩
  · refine Or.inl ⟨rfl, ?_⟩
    have := mapField_get (sub := []) hmf (by rw [hn]; rfl)
    rw [readMap_get this]
    rfl
  · have hm := mapField_get hmf (by rw [hpk]; rfl)
    have hg := readMap_get hm sel.pkg
    rcases withOptTable_cons h1 with ⟨hn, rfl⟩ | ⟨sub, sub', hs, h2, rfl⟩
    · refine Or.inl ⟨?_, by rw [hg, hn]; rfl⟩
      exact insert_get_self hpk
    · rw [hs] at hg
      simp only [Option.bind_some] at hg
      have : (r.packages.get? sel.pkg).isSome := by
        rw [AMap.get?_isSome_iff, readMap_keys hm, ← AMap.get?_isSome_iff, hs]
        rfl
      obtain ⟨c, hc⟩ := Option.isSome_iff_exists.mp this
      refine Or.inr ⟨c, hc, ?_⟩
      apply readDoc_pkg h (by rw [hpk]; rfl)
      exact edit_opt hf _ (by rw [← hg, hc]) h2

end Cackle.Editor
