import Verif.Model.ConfigFile
import Verif.Lemmas.EditApis
import Verif.Props.Config

/-!
# C141: every setting in the config file is in force or refused
-/

namespace Cackle.ConfigFile
open Cackle Config Perm Toml
open Cackle.ApiMap (Api)
open Cackle.Editor (readDoc_iff readPkg_iff readFrom_iff readPerms_iff readSandbox_iff readApi_iff readCommon_iff
  readMap_get readFrom)

/-! ## Specification -/

/-- The value of a setting. -/
inductive Val where
  | flag (b : Bool)
  | num (n : Int)
  | text (s : Str)
  | list (l : List Str)
deriving DecidableEq

/-- The texts in an array, if it has nothing else. -/
def texts : List Item → Option (List Str)
  | [] => some []
  | .str s :: rest => (texts rest).map (s :: ·)
  | _ :: _ => none

/-- The value that is written in the file. -/
def says : Item → Option Val
  | .bool b => some (.flag b)
  | .int n => some (.num n)
  | .str s => some (.text s)
  | .array items => (texts items).map .list
  | _ => none

/-- What is in a table. -/
def sub : Item → Option Entries
  | .table es => some es
  | .inline es => some es
  | _ => none

/-- What is written in the file at a place, e.g. `pkg.foo.build.allow_apis`. -/
def at? (es : Entries) : List Str → Option Item
  | [] => none
  | [k] => es.get? k
  | k :: q :: rest =>
    match (es.get? k).bind sub with
    | none => none
    | some es' => at? es' (q :: rest)

/-- The value in force of a setting of a sandbox. -/
def sandboxSays (s : Sandbox) (k : Str) : Option Val :=
  if k = str! "kind" then
    match s.kind with
    | none => none
    | some .disabled => some (.text (str! "Disabled"))
    | some .bubblewrap => some (.text (str! "Bubblewrap"))
  else if k = str! "extra_args" then some (.list s.extraArgs)
  else if k = str! "allow_network" then s.allowNetwork.map .flag
  else if k = str! "bind_writable" then some (.list s.bindWritable)
  else if k = str! "make_writable" then some (.list s.makeWritable)
  else if k = str! "pass_env" then some (.list s.passEnv)
  else none

/-- The value in force of a setting of a section of a package. -/
def permsSays (p : Perms) : List Str → Option Val
  | [k] =>
    if k = str! "allow_unsafe" then some (.flag p.allowUnsafe)
    else if k = str! "allow_extern" then some (.flag p.allowExtern)
    else if k = str! "allow_build_instructions" then some (.list p.allowBuildInstructions)
    else if k = str! "allow_apis" then some (.list p.allowApis)
    else if k = str! "allow_proc_macro" then some (.flag p.allowProcMacro)
    else if k = str! "import" then p.imports.map .list
    else none
  | [k, q] => if k = str! "sandbox" then sandboxSays p.sandbox q else none
  | _ => none

/-- The value in force of a setting of an optional section. -/
def sectionSays (c : Option PkgCfg) (p : List Str) : Option Val :=
  match c with
  | none => none
  | some c => permsSays c.perms p

/-- The value in force of a setting of a package: the section is one of the documented five. -/
def pkgSays (c : PkgCfg) : List Str → Option Val
  | k :: q :: rest =>
    if k = str! "build" then sectionSays c.build (q :: rest)
    else if k = str! "test" then sectionSays c.test (q :: rest)
    else if k = str! "from" then
      match c.from_ with
      | none => none
      | some (b, t) =>
        if q = str! "build" then sectionSays b rest
        else if q = str! "test" then sectionSays t rest
        else none
    else permsSays c.perms (k :: q :: rest)
  | p => permsSays c.perms p

/-- The value in force of a setting of an API definition. -/
def apiSays (a : ApiCfg) : List Str → Option Val
  | [k] =>
    if k = str! "include" then some (.list a.incl)
    else if k = str! "exclude" then some (.list a.excl)
    else if k = str! "no_auto_detect" then some (.list a.noAutoDetect)
    else none
  | _ => none

/-- The value in force of a setting in `[common]`. -/
def commonSays (c : Common) (o : Cargo.Common) : List Str → Option Val
  | [k] =>
    if k = str! "version" then some (.num c.version)
    else if k = str! "explicit_build_scripts" then some (.flag c.explicitBuildScripts)
    else if k = str! "build_flags" then o.buildFlags.map .list
    else if k = str! "import_std" then some (.list c.importStd)
    else if k = str! "features" then some (.list o.features)
    else if k = str! "profile" then o.profile.map .text
    else none
  | _ => none

/-- The value in force of the setting at a place of the file. -/
def cfgSays (c : Raw) (o : Cargo.Common) : List Str → Option Val
  | k :: rest =>
    if k = str! "common" then commonSays c.common o rest
    else if k = str! "sandbox" then
      match rest with
      | [q] => sandboxSays c.sandbox q
      | _ => none
    else if k = str! "rustc" then
      match rest with
      | [r, q] => if r = str! "sandbox" then sandboxSays c.rustcSandbox q else none
      | _ => none
    else if k = str! "api" then
      match rest with
      | n :: p =>
        match c.apis.get? n with
        | none => none
        | some a => apiSays a p
      | [] => none
    else if k = str! "pkg" then
      match rest with
      | n :: p =>
        match c.packages.get? n with
        | none => none
        | some a => pkgSays a p
      | [] => none
    else none
  | [] => none

/-- The places where a table may be. -/
inductive Section : List Str → Prop
  | common : Section [str! "common"]
  | sandbox : Section [str! "sandbox"]
  | rustc : Section [str! "rustc"]
  | rustcSandbox : Section [str! "rustc", str! "sandbox"]
  | apis : Section [str! "api"]
  | api (n : Str) : Section [str! "api", n]
  | pkgs : Section [str! "pkg"]
  | pkg (n : Str) : Section [str! "pkg", n]
  | build (n : Str) : Section [str! "pkg", n, str! "build"]
  | test (n : Str) : Section [str! "pkg", n, str! "test"]
  | from_ (n : Str) : Section [str! "pkg", n, str! "from"]
  | fromBuild (n : Str) : Section [str! "pkg", n, str! "from", str! "build"]
  | fromTest (n : Str) : Section [str! "pkg", n, str! "from", str! "test"]
  | pkgSandbox (n : Str) : Section [str! "pkg", n, str! "sandbox"]
  | buildSandbox (n : Str) : Section [str! "pkg", n, str! "build", str! "sandbox"]
  | testSandbox (n : Str) : Section [str! "pkg", n, str! "test", str! "sandbox"]
  | fromBuildSandbox (n : Str) : Section [str! "pkg", n, str! "from", str! "build", str! "sandbox"]
  | fromTestSandbox (n : Str) : Section [str! "pkg", n, str! "from", str! "test", str! "sandbox"]

/-- Nothing, or what a setting is that has not been made. -/
def Unset (o : Option Val) : Prop := o = none ∨ o = some (.flag false) ∨ o = some (.list [])

/-- Tables are only at places in `sec`; settings have the values that `look` gives; `look` gives nothing else. -/
structure Agrees (es : Entries) (look : List Str → Option Val) (sec : List Str → Prop) : Prop where
  setting : ∀ p it, at? es p = some it → sub it = none → ∃ v, says it = some v ∧ look p = some v
  tables : ∀ p it, at? es p = some it → sub it ≠ none → sec p
  absent : ∀ p, p ≠ [] → at? es p = none → Unset (look p)

/-! ## Proofs -/

theorem at?_nil_path (es : Entries) : at? es [] = none := by unfold at?; rfl

theorem at?_cons (es : Entries) (k q : Str) (rest : List Str) :
    at? es (k :: q :: rest) = ((es.get? k).bind sub).bind (fun es' => at? es' (q :: rest)) := by
  rw [at?]
  cases (es.get? k).bind sub <;> rfl

/-- A table agrees if its entries do. -/
theorem agrees_intro {es : Entries} {look : List Str → Option Val} {sec : List Str → Prop}
    (h1 : ∀ k it, es.get? k = some it → sub it = none →
      (∃ v, says it = some v ∧ look [k] = some v) ∧ ∀ q p, Unset (look (k :: q :: p)))
    (h2 : ∀ k it es', es.get? k = some it → sub it = some es' →
      sec [k] ∧ Agrees es' (fun p => look (k :: p)) (fun p => sec (k :: p)))
    (h3 : ∀ k, es.get? k = none → ∀ p, Unset (look (k :: p))) : Agrees es look sec where
  setting := by
    intro p it hp hs
    match p, hp with
    | [k], hp => exact (h1 k it hp hs).1
    | k :: q :: rest, hp =>
      rw [at?_cons] at hp
      cases hk : es.get? k with
      | none => rw [hk] at hp; cases hp
      | some i =>
        rw [hk, Option.bind_some] at hp
        cases hi : sub i with
        | none => rw [hi] at hp; cases hp
        | some es' =>
          rw [hi, Option.bind_some] at hp
          exact (h2 k i es' hk hi).2.setting _ _ hp hs
  tables := by
    intro p it hp hs
    match p, hp with
    | [k], hp =>
      cases hi : sub it with
      | none => exact absurd hi hs
      | some es' => exact (h2 k it es' hp hi).1
    | k :: q :: rest, hp =>
      rw [at?_cons] at hp
      cases hk : es.get? k with
      | none => rw [hk] at hp; cases hp
      | some i =>
        rw [hk, Option.bind_some] at hp
        cases hi : sub i with
        | none => rw [hi] at hp; cases hp
        | some es' =>
          rw [hi, Option.bind_some] at hp
          exact (h2 k i es' hk hi).2.tables _ _ hp hs
  absent := by
    intro p hne hp
    match p, hne, hp with
    | [k], _, hp => exact h3 k hp []
    | k :: q :: rest, _, hp =>
      rw [at?_cons] at hp
      cases hk : es.get? k with
      | none => exact h3 k hk _
      | some i =>
        rw [hk, Option.bind_some] at hp
        cases hi : sub i with
        | none => exact (h1 k i hk hi).2 q rest
        | some es' =>
          rw [hi, Option.bind_some] at hp
          exact (h2 k i es' hk hi).2.absent _ (by simp) hp

theorem entries_eq_sub (it : Item) : it.entries = sub it := by cases it <;> rfl

theorem known_mem {fields : List Str} {es : Entries} {k : Str} {it : Item} (h : known fields es = true)
    (hk : es.get? k = some it) : k ∈ fields := by
  unfold known at h
  rw [List.all_eq_true] at h
  have := h k (AMap.get?_isSome_iff.mp (by rw [hk]; rfl))
  simpa using this

theorem field_of {α : Type} {read : Item → Option α} {d v : α} {es : Entries} {k : Str} {it : Item}
    (h : field read d es k = some v) (hk : es.get? k = some it) : read it = some v := by
  unfold field at h
  rw [hk] at h
  exact h

theorem field_none {α : Type} {read : Item → Option α} {d v : α} {es : Entries} {k : Str}
    (h : field read d es k = some v) (hk : es.get? k = none) : v = d := by
  unfold field at h
  rw [hk] at h
  cases h
  rfl

theorem readBool_says {it : Item} {b : Bool} (h : readBool it = some b) : sub it = none ∧ says it = some (.flag b) := by
  cases it <;> simp_all [readBool, sub, says]

theorem readStr_says {it : Item} {b : Str} (h : readStr it = some b) : sub it = none ∧ says it = some (.text b) := by
  cases it <;> simp_all [readStr, Item.asStr, sub, says]

theorem readInt_says {it : Item} {b : Int} (h : readInt it = some b) : sub it = none ∧ says it = some (.num b) := by
  cases it <;> simp_all [readInt, sub, says]

theorem texts_eq : ∀ {items : List Item} {l : List Str}, items.mapM Item.asStr = some l → texts items = some l
  | [], l, h => by simpa [texts] using h
  | it :: rest, l, h => by
    rw [List.mapM_cons] at h
    cases it <;> simp only [Item.asStr, Option.bind_eq_bind, Option.bind_some, Option.bind_none, reduceCtorEq] at h
    rename_i s
    cases hr : rest.mapM Item.asStr with
    | none => rw [hr] at h; cases h
    | some l' =>
      rw [hr] at h
      cases h
      simp [texts, texts_eq hr]

theorem readStrs_says {it : Item} {b : List Str} (h : readStrs it = some b) :
    sub it = none ∧ says it = some (.list b) := by
  cases it <;> simp only [readStrs, reduceCtorEq] at h
  simp [sub, says, texts_eq h]

theorem readKind_says {it : Item} {b : SandboxKind} (h : readKind it = some b) :
    sub it = none ∧ says it = some (.text (match b with
      | .disabled => str! "Disabled" | .bubblewrap => str! "Bubblewrap")) := by
  cases it <;> simp only [readKind, reduceCtorEq] at h
  rename_i s
  split at h
  · rename_i hs; cases h; subst hs; exact ⟨rfl, rfl⟩
  · split at h
    · rename_i hs; cases h; subst hs; exact ⟨rfl, rfl⟩
    · cases h

theorem optField_of {α : Type} {read : Item → Option α} {o : Option α} {es : Entries} {k : Str} {it : Item}
    (h : optField read es k = some o) (hk : es.get? k = some it) : ∃ a, read it = some a ∧ o = some a :=
  Editor.optField_some h hk

theorem optField_none {α : Type} {read : Item → Option α} {o : Option α} {es : Entries} {k : Str}
    (h : optField read es k = some o) (hk : es.get? k = none) : o = none := field_none h hk

theorem unset_none : Unset none := Or.inl rfl
theorem unset_false : Unset (some (.flag false)) := Or.inr (Or.inl rfl)
theorem unset_nil : Unset (some (.list [])) := Or.inr (Or.inr rfl)

/-- Sandbox settings. -/
theorem agrees_sandbox {it : Item} {s : Sandbox} {es : Entries} (h : readSandbox it = some s) (he : sub it = some es) :
    Agrees es (fun p => match p with | [q] => sandboxSays s q | _ => none) (fun _ => False) := by
  rw [readSandbox_iff] at h
  obtain ⟨es0, h0, hk, a, b, c, d, e, f⟩ := h
  rw [entries_eq_sub, he] at h0
  cases h0
  have key : ∀ k it, es.get? k = some it → sub it = none ∧ ∃ v, says it = some v ∧ sandboxSays s k = some v := by
    intro k it hg
    have hm := known_mem hk hg
    simp only [sandboxFields, List.mem_cons, List.not_mem_nil, or_false] at hm
    rcases hm with rfl | rfl | rfl | rfl | rfl | rfl
    · obtain ⟨v, h1, h2⟩ := optField_of a hg
      obtain ⟨g1, g2⟩ := readKind_says h1
      refine ⟨g1, _, g2, ?_⟩
      rw [sandboxSays, if_pos rfl, h2]
      cases v <;> rfl
    · obtain ⟨g1, g2⟩ := readStrs_says (field_of b hg)
      exact ⟨g1, _, g2, rfl⟩
    · obtain ⟨v, h1, h2⟩ := optField_of c hg
      obtain ⟨g1, g2⟩ := readBool_says h1
      refine ⟨g1, _, g2, ?_⟩
      show s.allowNetwork.map Val.flag = _
      rw [h2]; rfl
    · obtain ⟨g1, g2⟩ := readStrs_says (field_of d hg)
      exact ⟨g1, _, g2, rfl⟩
    · obtain ⟨g1, g2⟩ := readStrs_says (field_of e hg)
      exact ⟨g1, _, g2, rfl⟩
    · obtain ⟨g1, g2⟩ := readStrs_says (field_of f hg)
      exact ⟨g1, _, g2, rfl⟩
  refine agrees_intro ?_ ?_ ?_
  · intro k it hg _
    exact ⟨(key k it hg).2, fun _ _ => unset_none⟩
  · intro k it es' hg hs
    rw [(key k it hg).1] at hs
    cases hs
  · intro k hg p
    cases p with
    | cons => exact unset_none
    | nil =>
      show Unset (sandboxSays s k)
      unfold sandboxSays
      repeat' split
      all_goals first | exact unset_none | skip
      · rename_i hk1 _ hk2; subst hk1; rw [optField_none a hg] at hk2; cases hk2
      · rename_i hk1 _ hk2; subst hk1; rw [optField_none a hg] at hk2; cases hk2
      · rename_i hk1; subst hk1; rw [field_none b hg]; exact unset_nil
      · rename_i hk1; subst hk1; rw [optField_none c hg]; exact unset_none
      · rename_i hk1; subst hk1; rw [field_none d hg]; exact unset_nil
      · rename_i hk1; subst hk1; rw [field_none e hg]; exact unset_nil
      · rename_i hk1; subst hk1; rw [field_none f hg]; exact unset_nil

theorem sandboxSays_default (q : Str) : Unset (sandboxSays {} q) := by
  unfold sandboxSays
  repeat' split
  all_goals first | exact unset_none | exact unset_nil | skip
  all_goals rename_i hk; cases hk

theorem permsSays_long (p : Perms) {k q : Str} {rest : List Str} (h : k ≠ str! "sandbox") :
    permsSays p (k :: q :: rest) = none := by
  cases rest with
  | nil => simp only [permsSays]; rw [if_neg (show ¬ k = str! "sandbox" from h)]
  | cons => rfl

theorem permsSays_sandbox (p : Perms) (q : Str) (rest : List Str) :
    permsSays p (str! "sandbox" :: q :: rest) =
      match (q :: rest) with
      | [r] => sandboxSays p.sandbox r
      | _ => none := by
  cases rest <;> rfl

/-- A setting of a section that is in the file. -/
theorem perms_key {es : Entries} {p : Perms} (hp : readPerms es = some p) (hk : known pkgFields es = true)
    {k : Str} {it : Item} (hg : es.get? k = some it) (h1 : k ≠ str! "build") (h2 : k ≠ str! "test")
    (h3 : k ≠ str! "from") :
    (sub it = none ∧ k ≠ str! "sandbox" ∧ ∃ v, says it = some v ∧ permsSays p [k] = some v) ∨
    (k = str! "sandbox" ∧ readSandbox it = some p.sandbox) := by
  rw [readPerms_iff] at hp
  obtain ⟨a, b, c, d, e, f, g⟩ := hp
  have hm := known_mem hk hg
  simp only [pkgFields, List.mem_cons, List.not_mem_nil, or_false] at hm
  rcases hm with rfl | rfl | rfl | rfl | rfl | rfl | rfl | rfl | rfl | rfl
  · obtain ⟨g1, g2⟩ := readBool_says (field_of a hg)
    exact Or.inl ⟨g1, by decide, _, g2, rfl⟩
  · obtain ⟨g1, g2⟩ := readBool_says (field_of b hg)
    exact Or.inl ⟨g1, by decide, _, g2, rfl⟩
  · obtain ⟨g1, g2⟩ := readStrs_says (field_of c hg)
    exact Or.inl ⟨g1, by decide, _, g2, rfl⟩
  · obtain ⟨g1, g2⟩ := readStrs_says (field_of d hg)
    exact Or.inl ⟨g1, by decide, _, g2, rfl⟩
  · obtain ⟨g1, g2⟩ := readBool_says (field_of e hg)
    exact Or.inl ⟨g1, by decide, _, g2, rfl⟩
  · exact absurd rfl h1
  · exact absurd rfl h2
  · exact absurd rfl h3
  · exact Or.inr ⟨rfl, field_of f hg⟩
  · obtain ⟨v, q1, q2⟩ := optField_of g hg
    obtain ⟨g1, g2⟩ := readStrs_says q1
    refine Or.inl ⟨g1, by decide, _, g2, ?_⟩
    show p.imports.map Val.list = _
    rw [q2]; rfl

/-- A setting of a section that is not in the file. -/
theorem perms_absent {es : Entries} {p : Perms} (hp : readPerms es = some p) {k : Str} (hg : es.get? k = none)
    (q : List Str) : Unset (permsSays p (k :: q)) := by
  rw [readPerms_iff] at hp
  obtain ⟨a, b, c, d, e, f, g⟩ := hp
  match q with
  | [] =>
    unfold permsSays
    dsimp only
    repeat' split
    · rename_i hk1; subst hk1; rw [field_none a hg]; exact unset_false
    · rename_i hk1; subst hk1; rw [field_none b hg]; exact unset_false
    · rename_i hk1; subst hk1; rw [field_none c hg]; exact unset_nil
    · rename_i hk1; subst hk1; rw [field_none d hg]; exact unset_nil
    · rename_i hk1; subst hk1; rw [field_none e hg]; exact unset_false
    · rename_i hk1; subst hk1; rw [optField_none g hg]; exact unset_none
    · exact unset_none
  | [r] =>
    simp only [permsSays]
    split
    · rename_i hk1; subst hk1; rw [field_none f hg]; exact sandboxSays_default r
    · exact unset_none
  | _ :: _ :: _ => exact unset_none

theorem sub_of_sandbox {it : Item} {s : Sandbox} (h : readSandbox it = some s) : ∃ es, sub it = some es := by
  rw [readSandbox_iff] at h
  obtain ⟨es, h0, _⟩ := h
  exact ⟨es, entries_eq_sub it ▸ h0⟩

theorem sub_of_pkg {n : Nat} {it : Item} {c : PkgCfg} (h : readPkg n it = some c) : ∃ es, sub it = some es := by
  cases n with
  | zero => cases h
  | succ n =>
    rw [readPkg_iff] at h
    obtain ⟨es, h0, _⟩ := h
    exact ⟨es, entries_eq_sub it ▸ h0⟩

theorem Agrees.congr {es : Entries} {look look' : List Str → Option Val} {sec sec' : List Str → Prop}
    (h : Agrees es look sec) (hl : ∀ p, p ≠ [] → look' p = look p) (hs : ∀ p, p ≠ [] → sec p → sec' p) :
    Agrees es look' sec' where
  setting := by
    intro p it hp hi
    have hne : p ≠ [] := by rintro rfl; rw [at?_nil_path] at hp; cases hp
    rw [hl p hne]
    exact h.setting p it hp hi
  tables := by
    intro p it hp hi
    have hne : p ≠ [] := by rintro rfl; rw [at?_nil_path] at hp; cases hp
    exact hs p hne (h.tables p it hp hi)
  absent := by
    intro p hne hp
    rw [hl p hne]
    exact h.absent p hne hp

/-- A section without nested sections. -/
theorem agrees_section {n : Nat} {it : Item} {c : PkgCfg} {es : Entries} (h : readPkg n it = some c)
    (he : sub it = some es) (hb : c.build = none) (ht : c.test = none) (hf : c.from_ = none) :
    Agrees es (permsSays c.perms) (fun p => p = [str! "sandbox"]) := by
  cases n with
  | zero => cases h
  | succ n =>
  rw [readPkg_iff] at h
  obtain ⟨es0, h0, hk, hp, b, t, f⟩ := h
  rw [entries_eq_sub, he] at h0
  cases h0
  have nb : ∀ k it, es.get? k = some it → k ≠ str! "build" := by
    rintro _ it hg rfl
    obtain ⟨_, _, h2⟩ := optField_of b hg
    rw [hb] at h2; cases h2
  have nt : ∀ k it, es.get? k = some it → k ≠ str! "test" := by
    rintro _ it hg rfl
    obtain ⟨_, _, h2⟩ := optField_of t hg
    rw [ht] at h2; cases h2
  have nf : ∀ k it, es.get? k = some it → k ≠ str! "from" := by
    rintro _ it hg rfl
    obtain ⟨_, _, h2⟩ := optField_of f hg
    rw [hf] at h2; cases h2
  refine agrees_intro ?_ ?_ ?_
  · intro k it hg hs
    rcases perms_key hp hk hg (nb k it hg) (nt k it hg) (nf k it hg) with ⟨_, hne, hv⟩ | ⟨_, hr⟩
    · refine ⟨hv, fun q r => ?_⟩
      rw [permsSays_long _ hne]
      exact unset_none
    · obtain ⟨es', h'⟩ := sub_of_sandbox hr
      rw [hs] at h'; cases h'
  · intro k it es' hg hs
    rcases perms_key hp hk hg (nb k it hg) (nt k it hg) (nf k it hg) with ⟨h', _⟩ | ⟨rfl, hr⟩
    · rw [hs] at h'; cases h'
    · refine ⟨rfl, (agrees_sandbox hr hs).congr ?_ (fun _ _ h => h.elim)⟩
      intro p hne
      cases p with
      | nil => exact absurd rfl hne
      | cons q rest => exact permsSays_sandbox _ q rest
  · intro k hg p
    exact perms_absent hp hg p

/-- The places of tables in the table of a package. -/
inductive PkgSection : List Str → Prop
  | build : PkgSection [str! "build"]
  | test : PkgSection [str! "test"]
  | from_ : PkgSection [str! "from"]
  | fromBuild : PkgSection [str! "from", str! "build"]
  | fromTest : PkgSection [str! "from", str! "test"]
  | pkgSandbox : PkgSection [str! "sandbox"]
  | buildSandbox : PkgSection [str! "build", str! "sandbox"]
  | testSandbox : PkgSection [str! "test", str! "sandbox"]
  | fromBuildSandbox : PkgSection [str! "from", str! "build", str! "sandbox"]
  | fromTestSandbox : PkgSection [str! "from", str! "test", str! "sandbox"]

/-- No sections are nested below the documented ones. -/
structure Flat (c : PkgCfg) : Prop where
  build : ∀ d, c.build = some d → d.build = none ∧ d.test = none ∧ d.from_ = none
  test : ∀ d, c.test = some d → d.build = none ∧ d.test = none ∧ d.from_ = none
  fromBuild : ∀ d, c.from_.bind Prod.fst = some d → d.build = none ∧ d.test = none ∧ d.from_ = none
  fromTest : ∀ d, c.from_.bind Prod.snd = some d → d.build = none ∧ d.test = none ∧ d.from_ = none

theorem agrees_from {n : Nat} {it : Item} {b t : Option PkgCfg} {es : Entries} (h : readFrom n it = some (b, t))
    (he : sub it = some es)
    (hb : ∀ d, b = some d → d.build = none ∧ d.test = none ∧ d.from_ = none)
    (ht : ∀ d, t = some d → d.build = none ∧ d.test = none ∧ d.from_ = none) :
    Agrees es (fun p => match p with
      | q :: rest => if q = str! "build" then sectionSays b rest
        else if q = str! "test" then sectionSays t rest else none
      | [] => none) (fun p => PkgSection (str! "from" :: p)) := by
  rw [readFrom_iff] at h
  obtain ⟨es0, h0, hk, h1, h2⟩ := h
  rw [entries_eq_sub, he] at h0
  cases h0
  dsimp only at h1 h2
  have key : ∀ k it, es.get? k = some it → (∃ d, k = str! "build" ∧ b = some d ∧ readPkg n it = some d) ∨
      (∃ d, k = str! "test" ∧ t = some d ∧ readPkg n it = some d) := by
    intro k it hg
    have hm := known_mem hk hg
    simp only [List.mem_cons, List.not_mem_nil, or_false] at hm
    rcases hm with rfl | rfl
    · obtain ⟨d, q1, q2⟩ := optField_of h1 hg
      exact Or.inl ⟨d, rfl, q2, q1⟩
    · obtain ⟨d, q1, q2⟩ := optField_of h2 hg
      exact Or.inr ⟨d, rfl, q2, q1⟩
  refine agrees_intro ?_ ?_ ?_
  · intro k it hg hs
    rcases key k it hg with ⟨d, _, _, hr⟩ | ⟨d, _, _, hr⟩ <;>
    · obtain ⟨es', h'⟩ := sub_of_pkg hr
      rw [hs] at h'; cases h'
  · intro k it es' hg hs
    rcases key k it hg with ⟨d, rfl, rfl, hr⟩ | ⟨d, rfl, rfl, hr⟩
    · obtain ⟨g1, g2, g3⟩ := hb d rfl
      refine ⟨.fromBuild, (agrees_section hr hs g1 g2 g3).congr (fun _ _ => rfl) ?_⟩
      rintro _ _ rfl
      exact .fromBuildSandbox
    · obtain ⟨g1, g2, g3⟩ := ht d rfl
      refine ⟨.fromTest, (agrees_section hr hs g1 g2 g3).congr (fun _ _ => rfl) ?_⟩
      rintro _ _ rfl
      exact .fromTestSandbox
  · intro k hg p
    dsimp only
    split
    · rename_i hk1; subst hk1; rw [optField_none h1 hg]; exact unset_none
    · split
      · rename_i hk1; subst hk1; rw [optField_none h2 hg]; exact unset_none
      · exact unset_none

theorem pkgSays_other (c : PkgCfg) {k : Str} (rest : List Str) (h1 : k ≠ str! "build") (h2 : k ≠ str! "test")
    (h3 : k ≠ str! "from") : pkgSays c (k :: rest) = permsSays c.perms (k :: rest) := by
  cases rest with
  | nil => rfl
  | cons q rest =>
    simp only [pkgSays]
    rw [if_neg (show ¬ k = str! "build" from h1), if_neg (show ¬ k = str! "test" from h2),
      if_neg (show ¬ k = str! "from" from h3)]

theorem pkgSays_build (c : PkgCfg) (q : Str) (rest : List Str) :
    pkgSays c (str! "build" :: q :: rest) = sectionSays c.build (q :: rest) := rfl

theorem pkgSays_test (c : PkgCfg) (q : Str) (rest : List Str) :
    pkgSays c (str! "test" :: q :: rest) = sectionSays c.test (q :: rest) := rfl

theorem pkgSays_from (c : PkgCfg) (q : Str) (rest : List Str) :
    pkgSays c (str! "from" :: q :: rest) = match c.from_ with
      | none => none
      | some (b, t) =>
        if q = str! "build" then sectionSays b rest
        else if q = str! "test" then sectionSays t rest
        else none := rfl

theorem agrees_pkg {n : Nat} {it : Item} {c : PkgCfg} {es : Entries} (h : readPkg n it = some c)
    (he : sub it = some es) (hf : Flat c) : Agrees es (pkgSays c) PkgSection := by
  cases n with
  | zero => cases h
  | succ n =>
  rw [readPkg_iff] at h
  obtain ⟨es0, h0, hk, hp, b, t, f⟩ := h
  rw [entries_eq_sub, he] at h0
  cases h0
  refine agrees_intro ?_ ?_ ?_
  · intro k it hg hs
    have n1 : k ≠ str! "build" := by
      rintro rfl
      obtain ⟨d, q1, _⟩ := optField_of b hg
      obtain ⟨es', h'⟩ := sub_of_pkg q1
      rw [hs] at h'; cases h'
    have n2 : k ≠ str! "test" := by
      rintro rfl
      obtain ⟨d, q1, _⟩ := optField_of t hg
      obtain ⟨es', h'⟩ := sub_of_pkg q1
      rw [hs] at h'; cases h'
    have n3 : k ≠ str! "from" := by
      rintro rfl
      obtain ⟨d, q1, _⟩ := optField_of f hg
      rw [readFrom_iff] at q1
      obtain ⟨es', h', _⟩ := q1
      rw [entries_eq_sub, hs] at h'; cases h'
    rcases perms_key hp hk hg n1 n2 n3 with ⟨_, hne, hv⟩ | ⟨_, hr⟩
    · refine ⟨?_, fun q r => ?_⟩
      · rw [pkgSays_other c _ n1 n2 n3]; exact hv
      · rw [pkgSays_other c _ n1 n2 n3, permsSays_long _ hne]
        exact unset_none
    · obtain ⟨es', h'⟩ := sub_of_sandbox hr
      rw [hs] at h'; cases h'
  · intro k it es' hg hs
    by_cases n1 : k = str! "build"
    · subst n1
      obtain ⟨d, q1, q2⟩ := optField_of b hg
      obtain ⟨g1, g2, g3⟩ := hf.build d q2
      refine ⟨.build, (agrees_section q1 hs g1 g2 g3).congr ?_ ?_⟩
      · intro p hne
        cases p with
        | nil => exact absurd rfl hne
        | cons q rest => rw [pkgSays_build, q2]; rfl
      · rintro _ _ rfl; exact .buildSandbox
    by_cases n2 : k = str! "test"
    · subst n2
      obtain ⟨d, q1, q2⟩ := optField_of t hg
      obtain ⟨g1, g2, g3⟩ := hf.test d q2
      refine ⟨.test, (agrees_section q1 hs g1 g2 g3).congr ?_ ?_⟩
      · intro p hne
        cases p with
        | nil => exact absurd rfl hne
        | cons q rest => rw [pkgSays_test, q2]; rfl
      · rintro _ _ rfl; exact .testSandbox
    by_cases n3 : k = str! "from"
    · subst n3
      obtain ⟨⟨fb, ft⟩, q1, q2⟩ := optField_of f hg
      refine ⟨.from_, (agrees_from q1 hs (fun d hd => hf.fromBuild d (by rw [q2]; exact hd))
        (fun d hd => hf.fromTest d (by rw [q2]; exact hd))).congr ?_ (fun _ _ h => h)⟩
      intro p hne
      cases p with
      | nil => exact absurd rfl hne
      | cons q rest => rw [pkgSays_from, q2]
    rcases perms_key hp hk hg n1 n2 n3 with ⟨h', _⟩ | ⟨rfl, hr⟩
    · rw [hs] at h'; cases h'
    · refine ⟨.pkgSandbox, (agrees_sandbox hr hs).congr ?_ (fun _ _ h => h.elim)⟩
      intro p hne
      cases p with
      | nil => exact absurd rfl hne
      | cons q rest => rw [pkgSays_other c _ n1 n2 n3]; exact permsSays_sandbox _ q rest
  · intro k hg p
    by_cases n1 : k = str! "build"
    · subst n1
      cases p with
      | nil => exact unset_none
      | cons q rest => rw [pkgSays_build, optField_none b hg]; exact unset_none
    by_cases n2 : k = str! "test"
    · subst n2
      cases p with
      | nil => exact unset_none
      | cons q rest => rw [pkgSays_test, optField_none t hg]; exact unset_none
    by_cases n3 : k = str! "from"
    · subst n3
      cases p with
      | nil => exact unset_none
      | cons q rest => rw [pkgSays_from, optField_none f hg]; exact unset_none
    rw [pkgSays_other c _ n1 n2 n3]
    exact perms_absent hp hg p

theorem agrees_api {it : Item} {c : ApiCfg} {es : Entries} (h : readApi it = some c) (he : sub it = some es) :
    Agrees es (apiSays c) (fun _ => False) := by
  rw [readApi_iff] at h
  obtain ⟨es0, h0, hk, a, b, d⟩ := h
  rw [entries_eq_sub, he] at h0
  cases h0
  have key : ∀ k it, es.get? k = some it → sub it = none ∧ ∃ v, says it = some v ∧ apiSays c [k] = some v := by
    intro k it hg
    have hm := known_mem hk hg
    simp only [List.mem_cons, List.not_mem_nil, or_false] at hm
    rcases hm with rfl | rfl | rfl
    · obtain ⟨g1, g2⟩ := readStrs_says (field_of a hg)
      exact ⟨g1, _, g2, rfl⟩
    · obtain ⟨g1, g2⟩ := readStrs_says (field_of b hg)
      exact ⟨g1, _, g2, rfl⟩
    · obtain ⟨g1, g2⟩ := readStrs_says (field_of d hg)
      exact ⟨g1, _, g2, rfl⟩
  refine agrees_intro ?_ ?_ ?_
  · intro k it hg _
    exact ⟨(key k it hg).2, fun _ _ => unset_none⟩
  · intro k it es' hg hs
    rw [(key k it hg).1] at hs
    cases hs
  · intro k hg p
    cases p with
    | cons => exact unset_none
    | nil =>
      unfold apiSays
      dsimp only
      repeat' split
      · rename_i hk1; subst hk1; rw [field_none a hg]; exact unset_nil
      · rename_i hk1; subst hk1; rw [field_none b hg]; exact unset_nil
      · rename_i hk1; subst hk1; rw [field_none d hg]; exact unset_nil
      · exact unset_none

/-- A table with one table per name. -/
theorem agrees_map {α : Type} {read : Item → Option α} {es : Entries} {m : AMap Str α} {look : α → List Str → Option Val}
    {sec : List Str → Prop} (h : readMap read es = some m)
    (hr : ∀ k it v, es.get? k = some it → read it = some v → ∃ es', sub it = some es' ∧ Agrees es' (look v) sec) :
    Agrees es (fun p => match p with
      | n :: p => match m.get? n with
        | none => none
        | some a => look a p
      | [] => none) (fun p => (∃ n, p = [n]) ∨ ∃ n q, p = n :: q ∧ sec q) := by
  have hm := readMap_get h
  have hall : ∀ {es : Entries} {m : AMap Str α}, readMap read es = some m → ∀ k it,
      es.get? k = some it → ∃ v, read it = some v := by
    intro es
    induction es with
    | nil => intro m _ k it hg; simp at hg
    | cons e rest ih =>
      obtain ⟨q, i⟩ := e
      intro m h k it hg
      simp only [readMap, Option.bind_eq_some_iff, Option.some.injEq] at h
      obtain ⟨v, hv, m', hm', _⟩ := h
      simp only [AMap.get?] at hg
      split at hg
      · cases hg; exact ⟨v, hv⟩
      · exact ih hm' k it hg
  refine agrees_intro ?_ ?_ ?_
  · intro k it hg hs
    obtain ⟨v, hv⟩ := hall h k it hg
    obtain ⟨es', h', _⟩ := hr k it v hg hv
    rw [hs] at h'; cases h'
  · intro k it es' hg hs
    obtain ⟨v, hv⟩ := hall h k it hg
    obtain ⟨es2, h', ha⟩ := hr k it v hg hv
    rw [hs] at h'; cases h'
    refine ⟨Or.inl ⟨k, rfl⟩, ha.congr ?_ ?_⟩
    · intro p _
      dsimp only
      rw [hm k, hg, Option.bind_some, hv]
    · intro p _ hp
      exact Or.inr ⟨k, p, rfl, hp⟩
  · intro k hg p
    dsimp only
    rw [hm k, hg]
    exact unset_none

theorem agrees_common {it : Item} {c : Common} {o : Cargo.Common} {es : Entries} (h : readCommon it = some c)
    (he : sub it = some es) (h1 : optField readStrs es (str! "build_flags") = some o.buildFlags)
    (h2 : field readStrs [] es (str! "features") = some o.features)
    (h3 : optField readStr es (str! "profile") = some o.profile) :
    Agrees es (commonSays c o) (fun _ => False) := by
  rw [readCommon_iff] at h
  obtain ⟨es0, h0, hk, a, b, _, d, _, _⟩ := h
  rw [entries_eq_sub, he] at h0
  cases h0
  obtain ⟨vi, hv, hv'⟩ := Option.bind_eq_some_iff.mp a
  have key : ∀ k it, es.get? k = some it → sub it = none ∧ ∃ v, says it = some v ∧ commonSays c o [k] = some v := by
    intro k it hg
    have hm := known_mem hk hg
    simp only [List.mem_cons, List.not_mem_nil, or_false] at hm
    rcases hm with rfl | rfl | rfl | rfl | rfl | rfl
    · rw [hv] at hg
      cases hg
      obtain ⟨g1, g2⟩ := readInt_says hv'
      exact ⟨g1, _, g2, rfl⟩
    · obtain ⟨g1, g2⟩ := readBool_says (field_of b hg)
      exact ⟨g1, _, g2, rfl⟩
    · obtain ⟨v, q1, q2⟩ := optField_of h1 hg
      obtain ⟨g1, g2⟩ := readStrs_says q1
      refine ⟨g1, _, g2, ?_⟩
      show o.buildFlags.map Val.list = _
      rw [q2]; rfl
    · obtain ⟨g1, g2⟩ := readStrs_says (field_of d hg)
      exact ⟨g1, _, g2, rfl⟩
    · obtain ⟨g1, g2⟩ := readStrs_says (field_of h2 hg)
      exact ⟨g1, _, g2, rfl⟩
    · obtain ⟨v, q1, q2⟩ := optField_of h3 hg
      obtain ⟨g1, g2⟩ := readStr_says q1
      refine ⟨g1, _, g2, ?_⟩
      show o.profile.map Val.text = _
      rw [q2]; rfl
  refine agrees_intro ?_ ?_ ?_
  · intro k it hg _
    exact ⟨(key k it hg).2, fun _ _ => unset_none⟩
  · intro k it es' hg hs
    rw [(key k it hg).1] at hs
    cases hs
  · intro k hg p
    cases p with
    | cons => exact unset_none
    | nil =>
      unfold commonSays
      dsimp only
      repeat' split
      · rename_i hk1; subst hk1; rw [hv] at hg; cases hg
      · rename_i hk1; subst hk1; rw [field_none b hg]; exact unset_false
      · rename_i hk1; subst hk1; rw [optField_none h1 hg]; exact unset_none
      · rename_i hk1; subst hk1; rw [field_none d hg]; exact unset_nil
      · rename_i hk1; subst hk1; rw [field_none h2 hg]; exact unset_nil
      · rename_i hk1; subst hk1; rw [optField_none h3 hg]; exact unset_none
      · exact unset_none

theorem agrees_rustc {it : Item} {s : Sandbox} {es : Entries} (h : readRustc it = some s) (he : sub it = some es) :
    Agrees es (fun p => match p with
      | [r, q] => if r = str! "sandbox" then sandboxSays s q else none
      | _ => none) (fun p => p = [str! "sandbox"]) := by
  unfold readRustc at h
  rw [entries_eq_sub, he, Option.bind_some] at h
  split at h
  · rename_i hk
    have key : ∀ k it, es.get? k = some it → k = str! "sandbox" ∧ readSandbox it = some s := by
      intro k it hg
      have hm := known_mem hk hg
      simp only [List.mem_cons, List.not_mem_nil, or_false] at hm
      subst hm
      exact ⟨rfl, field_of h hg⟩
    refine agrees_intro ?_ ?_ ?_
    · intro k it hg hs
      obtain ⟨es', h'⟩ := sub_of_sandbox (key k it hg).2
      rw [hs] at h'; cases h'
    · intro k it es' hg hs
      obtain ⟨rfl, hr⟩ := key k it hg
      refine ⟨rfl, (agrees_sandbox hr hs).congr ?_ (fun _ _ h => h.elim)⟩
      intro p hne
      match p, hne with
      | [q], _ => rfl
      | _ :: _ :: _, _ => rfl
    · intro k hg p
      match p with
      | [] => exact unset_none
      | [q] =>
        dsimp only
        split
        · rename_i hk1; subst hk1; rw [field_none h hg]; exact sandboxSays_default q
        · exact unset_none
      | _ :: _ :: _ => exact unset_none
  · cases h

/-- Reading a document. -/
theorem agrees_doc {limit : Nat} {doc : Entries} {raw : Raw} {o : Cargo.Common} (h : readDoc limit doc = some raw)
    (ho : readBuildOpts doc = some o) (hf : ∀ n c, raw.packages.get? n = some c → Flat c) :
    Agrees doc (cfgSays raw o) Section := by
  rw [readDoc_iff] at h
  obtain ⟨hk, hc, ha, hp, hs, hr⟩ := h
  unfold readBuildOpts at ho
  simp only [Option.bind_eq_some_iff, Option.some.injEq] at ho
  obtain ⟨ces, ⟨cit, hcg, hce⟩, bf, o1, fe, o2, pr, o3, rfl⟩ := ho
  rw [hcg, Option.bind_some] at hc
  rw [entries_eq_sub] at hce
  have hmap : ∀ {α : Type} {read : Item → Option α} {k : Str} {m : AMap Str α} {it : Item},
      mapField read doc k = some m → doc.get? k = some it → ∃ es, sub it = some es ∧ readMap read es = some m := by
    intro α read k m it hm hg
    have := field_of hm hg
    obtain ⟨es, h1, h2⟩ := Option.bind_eq_some_iff.mp this
    exact ⟨es, entries_eq_sub it ▸ h1, h2⟩
  have key : ∀ k it, doc.get? k = some it →
      (∃ es, sub it = some es ∧ Section [k] ∧
        Agrees es (fun p => cfgSays raw ⟨bf, fe, pr⟩ (k :: p)) (fun p => Section (k :: p))) := by
    intro k it hg
    have hm := known_mem hk hg
    simp only [List.mem_cons, List.not_mem_nil, or_false] at hm
    rcases hm with rfl | rfl | rfl | rfl | rfl
    · rw [hcg] at hg
      cases hg
      exact ⟨ces, hce, .common, (agrees_common hc hce o1 o2 o3).congr (fun _ _ => rfl) (fun _ _ h => h.elim)⟩
    · obtain ⟨es, e1, e2⟩ := hmap ha hg
      refine ⟨es, e1, .apis, (agrees_map (look := apiSays) (sec := fun _ => False) e2 ?_).congr ?_ ?_⟩
      · intro k it v _ hv
        obtain ⟨es', h', _⟩ := readApi_iff.mp hv
        rw [entries_eq_sub] at h'
        exact ⟨es', h', agrees_api hv h'⟩
      · intro p hne
        cases p with
        | nil => exact absurd rfl hne
        | cons n p =>
          show (match raw.apis.get? n with | none => none | some a => apiSays a p) = _
          dsimp only
          cases raw.apis.get? n <;> rfl
      · rintro p _ (⟨n, rfl⟩ | ⟨_, _, _, hq⟩)
        · exact .api n
        · exact hq.elim
    · obtain ⟨es, e1, e2⟩ := hmap hp hg
      refine ⟨es, e1, .pkgs, (agrees_map (look := pkgSays) (sec := PkgSection) e2 ?_).congr ?_ ?_⟩
      · intro k it v hg' hv
        obtain ⟨es', h'⟩ := sub_of_pkg hv
        refine ⟨es', h', agrees_pkg hv h' (hf k v ?_)⟩
        rw [readMap_get e2 k, hg']
        exact hv
      · intro p hne
        cases p with
        | nil => exact absurd rfl hne
        | cons n p =>
          show (match raw.packages.get? n with | none => none | some a => pkgSays a p) = _
          dsimp only
          cases raw.packages.get? n <;> rfl
      · rintro p _ (⟨n, rfl⟩ | ⟨n, q, rfl, hq⟩)
        · exact .pkg n
        · cases hq
          · exact .build n
          · exact .test n
          · exact .from_ n
          · exact .fromBuild n
          · exact .fromTest n
          · exact .pkgSandbox n
          · exact .buildSandbox n
          · exact .testSandbox n
          · exact .fromBuildSandbox n
          · exact .fromTestSandbox n
    · obtain ⟨es, h'⟩ := sub_of_sandbox (field_of hs hg)
      refine ⟨es, h', .sandbox, (agrees_sandbox (field_of hs hg) h').congr (fun _ _ => rfl) (fun _ _ h => h.elim)⟩
    · have hrr := field_of hr hg
      have : ∃ es, sub it = some es := by
        unfold readRustc at hrr
        obtain ⟨es, h1, _⟩ := Option.bind_eq_some_iff.mp hrr
        exact ⟨es, entries_eq_sub it ▸ h1⟩
      obtain ⟨es, h'⟩ := this
      refine ⟨es, h', .rustc, (agrees_rustc hrr h').congr (fun _ _ => rfl) ?_⟩
      rintro _ _ rfl
      exact .rustcSandbox
  refine agrees_intro ?_ ?_ ?_
  · intro k it hg hs
    obtain ⟨es, h', _⟩ := key k it hg
    rw [hs] at h'; cases h'
  · intro k it es' hg hs
    obtain ⟨es, h', h1, h2⟩ := key k it hg
    rw [hs] at h'; cases h'
    exact ⟨h1, h2⟩
  · intro k hg p
    by_cases n1 : k = str! "common"
    · subst n1; rw [hcg] at hg; cases hg
    by_cases n2 : k = str! "sandbox"
    · subst n2
      match p with
      | [] => exact unset_none
      | [q] =>
        show Unset (sandboxSays raw.sandbox q)
        rw [field_none hs hg]; exact sandboxSays_default q
      | _ :: _ :: _ => exact unset_none
    by_cases n3 : k = str! "rustc"
    · subst n3
      match p with
      | [] => exact unset_none
      | [_] => exact unset_none
      | [r, q] =>
        show Unset (if r = str! "sandbox" then sandboxSays raw.rustcSandbox q else none)
        split
        · rw [field_none hr hg]; exact sandboxSays_default q
        · exact unset_none
      | _ :: _ :: _ :: _ => exact unset_none
    by_cases n4 : k = str! "api"
    · subst n4
      cases p with
      | nil => exact unset_none
      | cons n p =>
        show Unset (match raw.apis.get? n with | none => none | some a => apiSays a p)
        rw [field_none ha hg]; exact unset_none
    by_cases n5 : k = str! "pkg"
    · subst n5
      cases p with
      | nil => exact unset_none
      | cons n p =>
        show Unset (match raw.packages.get? n with | none => none | some a => pkgSays a p)
        rw [field_none hp hg]; exact unset_none
    simp only [cfgSays]
    rw [if_neg (show ¬ k = str! "common" from n1), if_neg (show ¬ k = str! "sandbox" from n2),
      if_neg (show ¬ k = str! "rustc" from n3), if_neg (show ¬ k = str! "api" from n4),
      if_neg (show ¬ k = str! "pkg" from n5)]
    exact unset_none

/-! ## The steps after reading -/

theorem parseRaw_keeps {b : AMap Api ApiCfg} {r r1 : Raw} (h : parseRaw b r = some r1) :
    r1.packages = r.packages ∧ r1.sandbox = r.sandbox ∧ r1.common.version = r.common.version ∧
    r1.common.explicitBuildScripts = r.common.explicitBuildScripts := by
  have hp : ∀ (l : List (Raw → Raw)), (∀ f ∈ l, f ∈ patches) → ∀ c : Raw,
      (l.foldl (fun c f => f c) c).packages = c.packages ∧ (l.foldl (fun c f => f c) c).sandbox = c.sandbox ∧
      (l.foldl (fun c f => f c) c).common = c.common := by
    intro l
    induction l with
    | nil => intro _ c; exact ⟨rfl, rfl, rfl⟩
    | cons f l ih =>
      intro hl c
      have hf : (f c).packages = c.packages ∧ (f c).sandbox = c.sandbox ∧ (f c).common = c.common := by
        have := hl f (List.mem_cons_self ..)
        simp only [patches, List.mem_cons, List.not_mem_nil, or_false] at this
        have h2 : (patch2 c).packages = c.packages ∧ (patch2 c).sandbox = c.sandbox ∧ (patch2 c).common = c.common := by
          unfold patch2
          split <;> exact ⟨rfl, rfl, rfl⟩
        rcases this with rfl | rfl | rfl | rfl
        · exact ⟨rfl, rfl, rfl⟩
        · exact ⟨rfl, rfl, rfl⟩
        · exact h2
        · exact ⟨rfl, rfl, rfl⟩
      obtain ⟨i1, i2, i3⟩ := ih (fun g hg => hl g (List.mem_cons_of_mem _ hg)) (f c)
      simp only [List.foldl_cons]
      exact ⟨i1.trans hf.1, i2.trans hf.2.1, i3.trans hf.2.2⟩
  unfold parseRaw mergeBuiltIns at h
  simp only [Option.pure_def, Option.bind_eq_bind, Option.bind_eq_some_iff, Option.some.injEq] at h
  obtain ⟨r0, ⟨apis, _, rfl⟩, rfl⟩ := h
  have := hp (patches.drop (min (patchStart r.common.version) patches.length)) (fun f hf => List.mem_of_mem_drop hf)
    { r with apis := apis, common := { r.common with importStd := [] } }
  unfold applyRuntimePatches
  dsimp only
  obtain ⟨i1, i2, i3⟩ := this
  refine ⟨i1, i2, ?_, ?_⟩ <;> rw [i3]

theorem loadImports_keeps {ex : Str → Option (AMap Api ApiCfg)} {r r1 : Raw} (h : loadImports ex r = some r1) :
    r1.packages = r.packages ∧ r1.sandbox = r.sandbox ∧ r1.common = r.common := by
  unfold loadImports at h
  simp only [Option.pure_def, Option.bind_eq_bind, Option.bind_eq_some_iff, Option.some.injEq] at h
  obtain ⟨apis, _, rfl⟩ := h
  exact ⟨rfl, rfl, rfl⟩

theorem makeAbs_keeps {root : Option Str} {r r1 : Raw} (h : r.makeAbs root = some r1) :
    r1.sandbox = r.sandbox ∧ r1.common = r.common ∧ r1.packages.keys = r.packages.keys ∧
    ∀ n, r1.packages.get? n = (r.packages.get? n).bind (fun c => c.makeAbs root) ∧
      ((r.packages.get? n).isSome → (r1.packages.get? n).isSome) := by
  unfold Raw.makeAbs at h
  simp only [Option.pure_def, Option.bind_eq_bind, Option.bind_eq_some_iff, Option.some.injEq] at h
  obtain ⟨pk, hpk, rfl⟩ := h
  refine ⟨rfl, rfl, ?_⟩
  dsimp only
  generalize r.packages = l at hpk
  induction l generalizing pk with
  | nil =>
    simp only [List.mapM_nil, Option.pure_def, Option.some.injEq] at hpk
    subst hpk
    exact ⟨rfl, fun n => ⟨rfl, fun h => h⟩⟩
  | cons e l ih =>
    obtain ⟨k, c⟩ := e
    rw [List.mapM_cons] at hpk
    simp only [Option.pure_def, Option.bind_eq_bind, Option.bind_eq_some_iff, Option.some.injEq, Option.map_eq_some_iff]
      at hpk
    obtain ⟨_, ⟨c', hc', rfl⟩, l', hl', rfl⟩ := hpk
    obtain ⟨i1, i2⟩ := ih l' hl'
    refine ⟨by simp only [AMap.keys, List.map_cons] at i1 ⊢; rw [i1], fun n => ?_⟩
    simp only [AMap.get?]
    split
    · exact ⟨by rw [Option.bind_some, hc'], fun _ => rfl⟩
    · exact i2 n

/-- A setting that is not a list of paths, which are made absolute. -/
def NotPaths (p : List Str) : Prop :=
  p.getLast? ≠ some (str! "bind_writable") ∧ p.getLast? ≠ some (str! "make_writable")

theorem sandboxSays_abs {root : Option Str} {s s' : Sandbox} (h : s.makeAbs root = some s') {q : Str}
    (h1 : q ≠ str! "bind_writable") (h2 : q ≠ str! "make_writable") : sandboxSays s' q = sandboxSays s q := by
  unfold Sandbox.makeAbs at h
  simp only [Option.pure_def, Option.bind_eq_bind, Option.bind_eq_some_iff, Option.some.injEq] at h
  obtain ⟨b, _, m, _, rfl⟩ := h
  unfold sandboxSays
  rw [if_neg (c := q = str! "bind_writable") h1, if_neg (c := q = str! "bind_writable") h1,
    if_neg (c := q = str! "make_writable") h2, if_neg (c := q = str! "make_writable") h2]

theorem permsSays_abs {root : Option Str} {p : Perms} {s' : Sandbox} (h : p.sandbox.makeAbs root = some s')
    {l : List Str} (hl : NotPaths l) : permsSays { p with sandbox := s' } l = permsSays p l := by
  match l with
  | [] => rfl
  | [k] => rfl
  | [k, q] =>
    simp only [permsSays]
    split
    · refine sandboxSays_abs h ?_ ?_
      · intro hq; exact hl.1 (by rw [hq]; rfl)
      · intro hq; exact hl.2 (by rw [hq]; rfl)
    · rfl
  | _ :: _ :: _ :: _ => rfl

theorem pkg_makeAbs {root : Option Str} {c c' : PkgCfg} (h : c.makeAbs root = some c') :
    ∃ s', c.perms.sandbox.makeAbs root = some s' ∧ c'.perms = { c.perms with sandbox := s' } ∧ c'.from_ = c.from_ ∧
      (c.build = none ∧ c'.build = none ∨ ∃ d d', c.build = some d ∧ c'.build = some d' ∧ d.makeAbs root = some d') ∧
      (c.test = none ∧ c'.test = none ∨ ∃ d d', c.test = some d ∧ c'.test = some d' ∧ d.makeAbs root = some d') := by
  obtain ⟨p, b, t, f⟩ := c
  rw [PkgCfg.makeAbs] at h
  cases b with
  | none =>
    cases t with
    | none =>
      simp only [Option.pure_def, Option.bind_eq_bind, Option.bind_some, Option.bind_eq_some_iff, Option.some.injEq] at h
      obtain ⟨s', hs, rfl⟩ := h
      exact ⟨s', hs, rfl, rfl, Or.inl ⟨rfl, rfl⟩, Or.inl ⟨rfl, rfl⟩⟩
    | some e =>
      simp only [Option.pure_def, Option.bind_eq_bind, Option.bind_some, Option.bind_eq_some_iff, Option.some.injEq,
        Option.map_eq_some_iff] at h
      obtain ⟨s', hs, _, ⟨e', he, rfl⟩, rfl⟩ := h
      exact ⟨s', hs, rfl, rfl, Or.inl ⟨rfl, rfl⟩, Or.inr ⟨e, e', rfl, rfl, he⟩⟩
  | some d =>
    cases t with
    | none =>
      simp only [Option.pure_def, Option.bind_eq_bind, Option.bind_some, Option.bind_eq_some_iff, Option.some.injEq,
        Option.map_eq_some_iff] at h
      obtain ⟨s', hs, _, ⟨d', hd, rfl⟩, rfl⟩ := h
      exact ⟨s', hs, rfl, rfl, Or.inr ⟨d, d', rfl, rfl, hd⟩, Or.inl ⟨rfl, rfl⟩⟩
    | some e =>
      simp only [Option.pure_def, Option.bind_eq_bind, Option.bind_some, Option.bind_eq_some_iff, Option.some.injEq,
        Option.map_eq_some_iff] at h
      obtain ⟨s', hs, _, ⟨d', hd, rfl⟩, _, ⟨e', he, rfl⟩, rfl⟩ := h
      exact ⟨s', hs, rfl, rfl, Or.inr ⟨d, d', rfl, rfl, hd⟩, Or.inr ⟨e, e', rfl, rfl, he⟩⟩

theorem notPaths_cons {k q : Str} {l : List Str} (h : NotPaths (k :: q :: l)) : NotPaths (q :: l) := by
  unfold NotPaths at *
  simpa [List.getLast?_cons_cons] using h

theorem sectionSays_abs {root : Option Str} {c c' : PkgCfg} (h : c.makeAbs root = some c') {l : List Str}
    (hl : NotPaths l) : permsSays c'.perms l = permsSays c.perms l := by
  obtain ⟨s', hs, hp, _⟩ := pkg_makeAbs h
  rw [hp]
  exact permsSays_abs hs hl

theorem pkgSays_abs {root : Option Str} {c c' : PkgCfg} (h : c.makeAbs root = some c') {l : List Str}
    (hl : NotPaths l) : pkgSays c' l = pkgSays c l := by
  have h0 := sectionSays_abs h hl
  obtain ⟨s', hs, hp, hf, hb, ht⟩ := pkg_makeAbs h
  match l, hl, h0 with
  | [], _, h0 => exact h0
  | [k], _, h0 => exact h0
  | k :: q :: rest, hl, h0 =>
    have hl' := notPaths_cons hl
    simp only [pkgSays]
    rw [hf, h0]
    have e1 : sectionSays c'.build (q :: rest) = sectionSays c.build (q :: rest) := by
      rcases hb with ⟨b1, b2⟩ | ⟨d, d', b1, b2, b3⟩
      · rw [b1, b2]
      · rw [b1, b2]; exact sectionSays_abs b3 hl'
    have e2 : sectionSays c'.test (q :: rest) = sectionSays c.test (q :: rest) := by
      rcases ht with ⟨b1, b2⟩ | ⟨d, d', b1, b2, b3⟩
      · rw [b1, b2]
      · rw [b1, b2]; exact sectionSays_abs b3 hl'
    rw [e1, e2]

theorem flat_abs {root : Option Str} {c c' : PkgCfg} (h : c.makeAbs root = some c') (hf : Flat c') : Flat c := by
  obtain ⟨s', hs, hp, hfr, hb, ht⟩ := pkg_makeAbs h
  have down : ∀ {d d' : PkgCfg}, d.makeAbs root = some d' → d'.build = none ∧ d'.test = none ∧ d'.from_ = none →
      d.build = none ∧ d.test = none ∧ d.from_ = none := by
    intro d d' hd ⟨g1, g2, g3⟩
    obtain ⟨_, _, _, q1, q2, q3⟩ := pkg_makeAbs hd
    refine ⟨?_, ?_, q1 ▸ g3⟩
    · rcases q2 with ⟨r1, _⟩ | ⟨_, _, _, r2, _⟩
      · exact r1
      · rw [g1] at r2; cases r2
    · rcases q3 with ⟨r1, _⟩ | ⟨_, _, _, r2, _⟩
      · exact r1
      · rw [g2] at r2; cases r2
  refine ⟨?_, ?_, ?_, ?_⟩
  · intro d hd
    rcases hb with ⟨r1, _⟩ | ⟨e, e', r1, r2, r3⟩
    · rw [r1] at hd; cases hd
    · rw [r1] at hd; cases hd
      exact down r3 (hf.build _ r2)
  · intro d hd
    rcases ht with ⟨r1, _⟩ | ⟨e, e', r1, r2, r3⟩
    · rw [r1] at hd; cases hd
    · rw [r1] at hd; cases hd
      exact down r3 (hf.test _ r2)
  · intro d hd; exact hf.fromBuild d (hfr ▸ hd)
  · intro d hd; exact hf.fromTest d (hfr ▸ hd)

/-- Each package has one table, as TOML demands. -/
def OneTableEach (doc : Entries) : Prop :=
  ∀ it es, at? doc [str! "pkg"] = some it → sub it = some es → es.keys.Nodup

theorem readMap_keys {α : Type} {read : Item → Option α} : ∀ {es : Entries} {m : AMap Str α},
    readMap read es = some m → m.keys = es.keys
  | [], m, h => by cases h; rfl
  | (k, it) :: rest, m, h => by
    simp only [readMap, Option.bind_eq_some_iff, Option.some.injEq] at h
    obtain ⟨v, _, m', hm, rfl⟩ := h
    have := readMap_keys hm
    simp only [AMap.keys, List.map_cons] at this ⊢
    rw [this]

theorem packages_nodup {limit : Nat} {doc : Entries} {raw : Raw} (h : readDoc limit doc = some raw)
    (hn : OneTableEach doc) : raw.packages.keys.Nodup := by
  obtain ⟨_, _, _, hp, _⟩ := readDoc_iff.mp h
  cases hg : doc.get? (str! "pkg") with
  | none => rw [field_none hp hg]; exact List.nodup_nil
  | some it =>
    have := field_of hp hg
    obtain ⟨es, h1, h2⟩ := Option.bind_eq_some_iff.mp this
    rw [readMap_keys h2]
    exact hn it es hg (entries_eq_sub it ▸ h1)

/-- **C141 (partial).** If a config file is loaded, then everything in it is a setting at a place that the documentation
describes, with a value of the right type, and that value is in force; every other setting has its default. Paths of
directories are made absolute. Missing: settings that are read but not used anywhere, see `C141_unused_setting`. -/
theorem C141_partial {limit : Nat} {builtIns : AMap Api ApiCfg} {exports : Str → Option (AMap Api ApiCfg)}
    {root : Option Str} {doc : Entries} {cfg : Raw} (hn : OneTableEach doc)
    (h : parseFile limit builtIns exports root doc = some cfg) :
    ∃ raw o, Agrees doc (cfgSays raw o) Section ∧ readBuildOpts doc = some o ∧
      (∀ p, NotPaths p → cfgSays cfg o (str! "pkg" :: p) = cfgSays raw o (str! "pkg" :: p)) ∧
      (∀ p, cfgSays cfg o (str! "sandbox" :: p) = cfgSays raw o (str! "sandbox" :: p)) ∧
      (∀ k, k = str! "version" ∨ k = str! "explicit_build_scripts" →
        cfgSays cfg o [str! "common", k] = cfgSays raw o [str! "common", k]) := by
  unfold parseFile at h
  simp only [Option.bind_eq_some_iff, Option.ite_none_right_eq_some, Option.some.injEq] at h
  obtain ⟨raw, hr, r1, h1, r2, h2, r3, h3, hv, rfl⟩ := h
  obtain ⟨p1, p2, p3, p4⟩ := parseRaw_keeps h1
  obtain ⟨l1, l2, l3⟩ := loadImports_keeps h2
  obtain ⟨m1, m2, m3, m4⟩ := makeAbs_keeps h3
  have hnd : r3.packages.keys.Nodup := by
    rw [m3, l1, p1]; exact packages_nodup hr hn
  have hwf := (C38_validation r3 hnd).mp hv
  have hflat : ∀ n c, raw.packages.get? n = some c → Flat c := by
    intro n c hc
    have hm := m4 n
    rw [l1, p1, hc] at hm
    obtain ⟨hm1, hm2⟩ := hm
    have := hm2 rfl
    rw [Option.bind_some] at hm1
    obtain ⟨c', hc'⟩ := Option.isSome_iff_exists.mp this
    rw [hm1] at hc'
    refine flat_abs hc' ?_
    rw [hc'] at hm1
    refine ⟨?_, ?_, ?_, ?_⟩
    · intro d hd; exact hwf.depth n .build d (by decide) (by simp only [sectionCfg]; rw [hm1]; exact hd)
    · intro d hd; exact hwf.depth n .test d (by decide) (by simp only [sectionCfg]; rw [hm1]; exact hd)
    · intro d hd; exact hwf.depth n .fromBuild d (by decide) (by simp only [sectionCfg]; rw [hm1]; exact hd)
    · intro d hd; exact hwf.depth n .fromTest d (by decide) (by simp only [sectionCfg]; rw [hm1]; exact hd)
  have ho : ∃ o, readBuildOpts doc = some o := by
    obtain ⟨_, hc, _⟩ := readDoc_iff.mp hr
    obtain ⟨cit, c1, c2⟩ := Option.bind_eq_some_iff.mp hc
    obtain ⟨es, e1, _, _, _, e5, _, e7, e8⟩ := readCommon_iff.mp c2
    obtain ⟨a, ha⟩ := Option.isSome_iff_exists.mp e5
    obtain ⟨b, hb⟩ := Option.isSome_iff_exists.mp e7
    obtain ⟨d, hd⟩ := Option.isSome_iff_exists.mp e8
    refine ⟨⟨a, b, d⟩, ?_⟩
    unfold readBuildOpts
    rw [c1, Option.bind_some, e1, Option.bind_some, ha, Option.bind_some, hb, Option.bind_some, hd, Option.bind_some]
  obtain ⟨o, ho⟩ := ho
  refine ⟨raw, o, agrees_doc hr ho hflat, ho, ?_, ?_, ?_⟩
  · intro p hp
    cases p with
    | nil => rfl
    | cons n p =>
      show (match r3.packages.get? n with | none => none | some a => pkgSays a p) =
        (match raw.packages.get? n with | none => none | some a => pkgSays a p)
      have hm := m4 n
      rw [l1, p1] at hm
      cases hc : raw.packages.get? n with
      | none =>
        rw [hc] at hm
        rw [hm.1]; rfl
      | some c =>
        rw [hc] at hm
        obtain ⟨c', hc'⟩ := Option.isSome_iff_exists.mp (hm.2 rfl)
        rw [hc']
        have hma := hm.1
        rw [hc', Option.bind_some] at hma
        dsimp only
        cases p with
        | nil => rfl
        | cons q p => exact pkgSays_abs hma.symm (notPaths_cons hp)
  · intro p
    show (match p with | [q] => sandboxSays r3.sandbox q | _ => none) =
      (match p with | [q] => sandboxSays raw.sandbox q | _ => none)
    rw [m1, l2, p2]
  · rintro k (rfl | rfl)
    · show some (Val.num r3.common.version) = some (Val.num raw.common.version)
      rw [m2, l3, p3]
    · show some (Val.flag r3.common.explicitBuildScripts) = some (Val.flag raw.common.explicitBuildScripts)
      rw [m2, l3, p4]

/-- **C141.** A config file with anything at a place that the documentation does not describe, such as a misspelt
name, is refused. -/
theorem C141_misspelt {limit : Nat} {builtIns : AMap Api ApiCfg} {exports : Str → Option (AMap Api ApiCfg)}
    {root : Option Str} {doc : Entries} (hn : OneTableEach doc) {p : List Str} {it : Item} (hp : at? doc p = some it)
    (hs : ¬ Section p) (hno : sub it ≠ none ∨ ∀ (cfg : Raw) (o : Cargo.Common), cfgSays cfg o p = none) :
    parseFile limit builtIns exports root doc = none := by
  cases h : parseFile limit builtIns exports root doc with
  | none => rfl
  | some cfg =>
    exfalso
    obtain ⟨raw, o, ha, _⟩ := C141_partial hn h
    rcases hno with h1 | h1
    · exact hs (ha.tables p it hp h1)
    · cases hsub : sub it with
      | some es => exact hs (ha.tables p it hp (by rw [hsub]; simp))
      | none =>
        obtain ⟨v, _, hv⟩ := ha.setting p it hp hsub
        rw [h1 raw o] at hv; cases hv

/-- A file as a user would write it. -/
def wDoc : Entries :=
  [(str! "common", .table [(str! "version", .int 3), (str! "import_std", .array [.str (str! "fs")]),
      (str! "features", .array [.str (str! "f1")])]),
   (str! "sandbox", .table [(str! "kind", .str (str! "Bubblewrap"))]),
   (str! "pkg", .table
     [(str! "a", .table [(str! "allow_unsafe", .bool true),
        (str! "build", .table [(str! "allow_apis", .array [.str (str! "fs")]),
          (str! "sandbox", .table [(str! "make_writable", .array [.str (str! "out")])])]),
        (str! "from", .table [(str! "test", .table [(str! "allow_apis", .array [.str (str! "fs")])])])])])]

example : OneTableEach wDoc ∧
    (parseFile 9 [(str! "fs", { incl := [str! "std::fs"] })] (fun _ => none) (some (str! "/w")) wDoc).isSome := by
  refine ⟨?_, by decide⟩
  intro it es h1 h2
  cases h1; cases h2
  decide

example : at? wDoc [str! "pkg", str! "a", str! "build", str! "sandbox", str! "make_writable"] =
    some (.array [.str (str! "out")]) := rfl

/-- A misspelt name. -/
example : parseFile 9 [] (fun _ => none) (some (str! "/w"))
    [(str! "common", .table [(str! "version", .int 3)]),
     (str! "pkg", .table [(str! "a", .table [(str! "allow_api", .array [.str (str! "fs")])])])] = none := by
  refine C141_misspelt (p := [str! "pkg", str! "a", str! "allow_api"]) ?_ rfl ?_ (Or.inr fun cfg o => ?_)
  · intro it es h1 h2
    cases h1; cases h2
    decide
  · intro h; cases h
  · show (match cfg.packages.get? (str! "a") with | none => none | some a => pkgSays a [str! "allow_api"]) = none
    cases cfg.packages.get? (str! "a") <;> rfl

/-! ## Disagreements -/

/-- The documentation: "if you need to completely disable the rustc sandbox: `kind = "Disable"`" (CONFIG.md, "Sandboxing
rustc"). With that, and nothing else that is wrong, the sandbox for rustc is switched off. -/
def C141_Documented_Claim : Prop :=
  ∀ (limit : Nat) (builtIns : AMap Api ApiCfg) (exports : Str → Option (AMap Api ApiCfg)) (root : Option Str)
    (doc : Entries), OneTableEach doc →
    at? doc [str! "rustc", str! "sandbox", str! "kind"] = some (.str (str! "Disable")) →
    (parseFile limit builtIns exports root (doc.erase (str! "rustc"))).isSome →
    ∃ cfg, parseFile limit builtIns exports root doc = some cfg ∧ cfg.rustcSandbox.kind ≠ some .bubblewrap

/-- **C141, disagreement.** A file with the documented setting is refused, whatever else it says. -/
theorem C141_documented_refused {limit : Nat} {builtIns : AMap Api ApiCfg} {exports : Str → Option (AMap Api ApiCfg)}
    {root : Option Str} {doc : Entries} (hn : OneTableEach doc)
    (h : at? doc [str! "rustc", str! "sandbox", str! "kind"] = some (.str (str! "Disable"))) :
    parseFile limit builtIns exports root doc = none := by
  cases hp : parseFile limit builtIns exports root doc with
  | none => rfl
  | some cfg =>
    exfalso
    obtain ⟨raw, o, ha, _⟩ := C141_partial hn hp
    obtain ⟨v, h1, h2⟩ := ha.setting _ _ h rfl
    cases h1
    have : sandboxSays raw.rustcSandbox (str! "kind") = some (.text (str! "Disable")) := h2
    simp only [sandboxSays, if_true] at this
    revert this
    cases raw.rustcSandbox.kind with
    | none => simp
    | some k => cases k <;> decide

/-- **C141, disagreement.** -/
theorem C141_documented : ¬ C141_Documented_Claim := by
  intro h
  obtain ⟨cfg, h1, _⟩ := h 9 [] (fun _ => none) none
    [(str! "common", .table [(str! "version", .int 3)]),
     (str! "rustc", .table [(str! "sandbox", .table [(str! "kind", .str (str! "Disable"))])])]
    (by intro it es h1; cases h1) rfl (by decide)
  rw [C141_documented_refused (by intro it es h1; cases h1) rfl] at h1
  cases h1

/-- The claim: every setting in a file that is loaded is acted upon. In particular an API that a package exports and that
is listed in an `import` setting of the package, in any of its sections, is defined afterwards. -/
def C141_Claim : Prop :=
  ∀ (limit : Nat) (builtIns : AMap Api ApiCfg) (exports : Str → Option (AMap Api ApiCfg)) (root : Option Str)
    (doc : Entries) (cfg : Raw), OneTableEach doc → parseFile limit builtIns exports root doc = some cfg →
    ∀ (pkg : Str) (sec : List Str) (it : Item) (l : List Str) (api : Str) (ex : AMap Api ApiCfg) (d : ApiCfg),
      at? doc (str! "pkg" :: pkg :: (sec ++ [str! "import"])) = some it → says it = some (.list l) → api ∈ l →
      exports pkg = some ex → ex.get? api = some d → (cfg.apis.get? (pkg ++ str! "::" ++ api)).isSome

/-- **C141, disagreement.** An `import` setting in the section for build scripts is accepted and ignored. -/
theorem C141_unused_setting : ¬ C141_Claim := by
  intro h
  have := h 9 [] (fun _ => some [(str! "fs", {})]) none
    [(str! "common", .table [(str! "version", .int 3)]),
     (str! "pkg", .table [(str! "a", .table [(str! "build", .table [(str! "import", .array [.str (str! "fs")])])])])]
    _ (by intro it es h1 h2; cases h1; cases h2; decide) rfl (str! "a") [str! "build"] _ [str! "fs"] (str! "fs") _ {} rfl rfl
    (by decide) rfl rfl
  revert this
  decide

end Cackle.ConfigFile
