import Verif.Props.Fixes

/-!
# C130: the set-up of a new configuration

Without a configuration file, the user is asked for a kind of sandbox and, for each built-in API, whether to import it, to
inline it or to ignore it.
-/

namespace Cackle.Fixes
open Cackle Config Perm Toml
open Cackle.ApiMap (Api)
open Cackle.Editor (Edit load Reach withTable setValue addToArray)

/-! ## Specification -/

/-- An answer to one of the questions. -/
def Answer (bwrap : Bool) : Fix → Prop
  | .selectSandbox k => k = .bubblewrap → bwrap = true
  | .importStd a | .inlineStd a | .ignoreStd a => (builtIns.get? a).isSome
  | _ => False

/-- What the question was about: a built-in API, or the sandbox. -/
def question : Fix → Option Api
  | .importStd a | .inlineStd a | .ignoreStd a => some a
  | _ => none

/-- Applying edits one after the other. -/
def applyAll (bwrap : Bool) : List Fix → Entries → Option Entries
  | [], doc => some doc
  | f :: fs, doc => (f.apply bwrap doc).bind (applyAll bwrap fs)

/-- The definition has the same paths as the built-in one and nothing else. -/
def SamePaths (d b : ApiCfg) : Prop := (∀ x, x ∈ d.incl ↔ x ∈ b.incl) ∧ (∀ x, x ∈ d.excl ↔ x ∈ b.excl) ∧ d.noAutoDetect = []

/-- The configuration that the answers ask for. -/
structure AsChosen (answers : List Fix) (r : Raw) : Prop where
  version : r.common.version = maxVersion
  packages : r.packages = []
  sandbox : ∀ k, r.sandbox = { kind := some k } ↔ .selectSandbox k ∈ answers
  noSandbox : (∀ k, .selectSandbox k ∉ answers) → r.sandbox = {}
  rustc : r.rustcSandbox = r.sandbox
  chosen : ∀ a b, builtIns.get? a = some b → .importStd a ∈ answers ∨ .inlineStd a ∈ answers →
    ∃ d, r.apis.get? a = some d ∧ SamePaths d b
  others : ∀ a, .importStd a ∉ answers → .inlineStd a ∉ answers → r.apis.get? a = none

/-! ## Proof -/

theorem reach_insert {p : Str} {ps : List Str} {es : Entries} {sub : Entries} {q : Str} (h : Reach (p :: ps) es)
    (hs : p = q → Reach ps sub) : Reach (p :: ps) (es.insert q (.table sub)) := by
  obtain ⟨s, h1, h2⟩ := h
  by_cases hpq : p = q
  · subst hpq
    exact ⟨sub, by rw [AMap.get?_insert, if_pos rfl]; rfl, hs rfl⟩
  · refine ⟨s, ?_, h2⟩
    rw [AMap.get?_insert, if_neg (fun h => hpq h.symm)]
    exact h1

/-- The state of the file during the set-up. -/
structure Stage (n : Nat) (done : List Fix) (doc : Entries) (r : Raw) : Prop where
  read : readDoc n doc = some r
  version : r.common.version = maxVersion
  packages : r.packages = []
  rustc : r.rustcSandbox = {}
  nodup : r.common.importStd.Nodup
  std : ∀ a, a ∈ r.common.importStd ↔ .importStd a ∈ done
  sandbox : ∀ k, r.sandbox = { kind := some k } ↔ .selectSandbox k ∈ done
  noSandbox : (∀ k, .selectSandbox k ∉ done) → r.sandbox = {}
  inlined : ∀ a, .inlineStd a ∈ done → ∃ b d, builtIns.get? a = some b ∧ r.apis.get? a = some d ∧ SamePaths d b
  others : ∀ a, .inlineStd a ∉ done → r.apis.get? a = none
  reach : Reach [str! "common"] doc ∧ Reach [str! "sandbox"] doc ∧ ∀ a, Reach [str! "api", a] doc

theorem toggle_isSome {n : Nat} {api : Api} {doc : Entries} {r : Raw} (h : readDoc n doc = some r)
    (hr : Reach [str! "common"] doc) : ∃ doc', Editor.toggleStdImport api doc = some doc' := by
  rw [← Option.isSome_iff_exists]
  obtain ⟨sub, h1, _⟩ := hr
  unfold Editor.toggleStdImport
  refine Editor.withTable_isSome h1 ?_
  have hc := (Editor.readDoc_iff.mp h).2.1
  obtain ⟨it, h2, h3⟩ := Option.bind_eq_some_iff.mp hc
  rw [h2] at h1
  simp only [Option.getD_some] at h1
  subst h1
  rw [Editor.readCommon_iff] at h3
  obtain ⟨es, e1, _, _, _, _, hi, _⟩ := h3
  cases e1
  simp only [withTable]
  unfold field at hi
  cases hg : AMap.get? sub (str! "import_std") with
  | none => rfl
  | some it =>
    rw [hg] at hi
    cases it <;> simp [readStrs] at hi ⊢

theorem inline_isSome {n : Nat} {api : Api} {cfg : ApiCfg} {doc : Entries} {r : Raw} (h : readDoc n doc = some r)
    (hr : Reach [str! "api", api] doc) : ∃ doc', Editor.inlineApiDef api cfg doc = some doc' := by
  rw [← Option.isSome_iff_exists]
  obtain ⟨ap, h1, sub, h2, _⟩ := hr
  refine Editor.withTable_isSome h1 (Editor.withTable_isSome h2 ?_)
  have hm := Editor.mapField_get (Editor.readDoc_iff.mp h).2.2.1 h1
  have hc : ∃ c, readApi (.table sub) = some c := by
    cases hg : AMap.get? ap api with
    | none =>
      rw [hg] at h2
      cases h2
      exact ⟨{}, rfl⟩
    | some it =>
      rw [hg] at h2
      simp only [Option.getD_some] at h2
      subst h2
      obtain ⟨c, h3, _⟩ := Editor.readMap_item hm hg
      exact ⟨c, h3⟩
  obtain ⟨c, hc⟩ := hc
  simp only [withTable]
  have hi := (Editor.readApi_iff.mp hc)
  obtain ⟨es, e1, _, f1, _, _⟩ := hi
  cases e1
  obtain ⟨mid, hmid⟩ := Option.isSome_iff_exists.mp (Editor.addToArray_isSome (vs := cfg.incl) f1)
  rw [hmid, Option.bind_some]
  obtain ⟨c1, r1, _⟩ := Editor.apiEdit_incl cfg.incl _ _ _ hmid hc
  obtain ⟨es, e1, _, _, f2, _⟩ := Editor.readApi_iff.mp r1
  cases e1
  exact Editor.addToArray_isSome f2

theorem stage_step {n : Nat} {bwrap : Bool} {done : List Fix} {doc : Entries} {r : Raw} {f : Fix} (h : Stage n done doc r)
    (ha : Answer bwrap f) (hq : question f ∉ done.map question) (hd : ∀ g ∈ done, Answer bwrap g) :
    ∃ doc' r', f.apply bwrap doc = some doc' ∧ Stage n (done ++ [f]) doc' r' := by
  have hnew : ∀ g ∈ done, question g ≠ question f := fun g hg he => hq (List.mem_map.mpr ⟨g, hg, he⟩)
  cases f <;> try exact ha.elim
  case selectSandbox k =>
    have hno : ∀ k', .selectSandbox k' ∉ done := fun k' hk' => hnew _ hk' rfl
    have hap : ∃ doc', setSandboxKind bwrap k doc = some doc' := by
      unfold setSandboxKind
      rw [if_neg (by rintro ⟨h1, h2⟩; rw [ha h1] at h2; cases h2), ← Option.isSome_iff_exists]
      obtain ⟨sub, h1, _⟩ := h.reach.2.1
      exact Editor.withTable_isSome h1 rfl
    obtain ⟨doc', hap⟩ := hap
    refine ⟨doc', _, hap, readDoc_setSandbox h.read hap, h.version, h.packages, h.rustc, h.nodup, ?_, ?_, ?_, ?_, ?_, ?_⟩
    · intro a; rw [h.std]; simp
    · intro k'
      rw [h.noSandbox hno]
      simp only [Sandbox.mk.injEq, Option.some.injEq, and_true, List.mem_append, List.mem_singleton, Fix.selectSandbox.injEq,
        hno k', false_or]
      exact eq_comm
    · exact fun hk => absurd (by simp) (hk k)
    · exact fun a hm => h.inlined a (by simpa using hm)
    · exact fun a hm => h.others a (by simpa using hm)
    · unfold setSandboxKind at hap
      split at hap
      · cases hap
      · obtain ⟨sub, sub', _, _, rfl⟩ := Editor.withTable_cons hap
        exact ⟨reach_insert h.reach.1 (fun h => absurd h (by decide)), reach_insert h.reach.2.1 (fun _ => trivial),
          fun a => reach_insert (h.reach.2.2 a) (fun h => absurd h (by decide))⟩
  case importStd a =>
    obtain ⟨doc', hap⟩ := toggle_isSome (api := a) h.read h.reach.1
    have hna : a ∉ r.common.importStd := fun hm => hnew _ ((h.std a).mp hm) rfl
    obtain ⟨r', hr', he, hnd, hm⟩ := Editor.C73_toggle n doc doc' r a h.read h.nodup hap
    have e1 : r'.sandbox = r.sandbox := by rw [he]
    have e2 : r'.apis = r.apis := by rw [he]
    refine ⟨doc', r', hap, hr', by rw [he]; exact h.version, by rw [he]; exact h.packages, by rw [he]; exact h.rustc, hnd, ?_,
      ?_, ?_, ?_, ?_, ?_⟩
    · intro a'
      rw [hm]
      simp only [List.mem_append, List.mem_singleton, Fix.importStd.injEq]
      split
      · rename_i heq
        simp [heq, hna]
      · rename_i hne
        rw [h.std]
        simp [hne]
    · intro k; rw [e1, h.sandbox]; simp
    · intro hk; rw [e1]; exact h.noSandbox (fun k hm => hk k (by simp [hm]))
    · intro a' hm; rw [e2]; exact h.inlined a' (by simpa using hm)
    · intro a' hm; rw [e2]; exact h.others a' (by simpa using hm)
    · have hap : Editor.toggleStdImport a doc = some doc' := hap
      unfold Editor.toggleStdImport at hap
      obtain ⟨sub, sub', _, _, rfl⟩ := Editor.withTable_cons hap
      exact ⟨reach_insert h.reach.1 (fun _ => trivial), reach_insert h.reach.2.1 (fun h => absurd h (by decide)),
        fun a => reach_insert (h.reach.2.2 a) (fun h => absurd h (by decide))⟩
  case inlineStd a =>
    obtain ⟨b, hb⟩ := Option.isSome_iff_exists.mp ha
    obtain ⟨doc', hap⟩ := inline_isSome (cfg := b) h.read (h.reach.2.2 a)
    have hna : .inlineStd a ∉ done := fun hm => hnew _ hm rfl
    obtain ⟨c', hr', h1, h2, h3⟩ := Editor.edit_api (Editor.apiEdit_both b.incl b.excl) h.read hap
    rw [h.others a hna] at h1 h2 h3
    refine ⟨doc', _, ?_, hr', h.version, h.packages, h.rustc, h.nodup, ?_, ?_, ?_, ?_, ?_, ?_⟩
    · show (builtIns.get? a).bind _ = _
      rw [hb]
      exact hap
    · intro a; rw [h.std]; simp
    · intro k; rw [h.sandbox]; simp
    · intro hk; exact h.noSandbox (fun k hm => hk k (by simp [hm]))
    · intro a' hm
      show ∃ b d, _ ∧ AMap.get? (AMap.insert r.apis a c') a' = some d ∧ _
      rw [AMap.get?_insert]
      by_cases haa : a = a'
      · subst haa
        rw [if_pos rfl]
        refine ⟨b, c', hb, rfl, fun x => by rw [h1]; simp, fun x => by rw [h2]; simp, ?_⟩
        exact List.eq_nil_iff_forall_not_mem.mpr (fun x hx => by simpa using (h3 x).mp hx)
      · rw [if_neg haa]
        refine h.inlined a' ?_
        simp only [List.mem_append, List.mem_singleton, Fix.inlineStd.injEq] at hm
        exact hm.resolve_right (fun e => haa e.symm)
    · intro a' hm
      show AMap.get? (AMap.insert r.apis a c') a' = none
      simp only [List.mem_append, List.mem_singleton, Fix.inlineStd.injEq, not_or] at hm
      rw [AMap.get?_insert, if_neg (fun e => hm.2 e.symm)]
      exact h.others a' hm.1
    · have hap : withTable _ _ doc = some doc' := hap
      obtain ⟨sub, sub', hs, hw, rfl⟩ := Editor.withTable_cons hap
      refine ⟨reach_insert h.reach.1 (fun h => absurd h (by decide)), reach_insert h.reach.2.1 (fun h => absurd h (by decide)),
        fun a' => reach_insert (h.reach.2.2 a') (fun _ => ?_)⟩
      obtain ⟨s2, s2', _, _, rfl⟩ := Editor.withTable_cons hw
      obtain ⟨x, hx, hx'⟩ := h.reach.2.2 a'
      rw [hs] at hx
      cases hx
      exact reach_insert hx' (fun _ => trivial)
  case ignoreStd a =>
    refine ⟨doc, r, rfl, h.read, h.version, h.packages, h.rustc, h.nodup, ?_, ?_, ?_, ?_, ?_, h.reach⟩
    · intro a; rw [h.std]; simp
    · intro k; rw [h.sandbox]; simp
    · intro hk; exact h.noSandbox (fun k hm => hk k (by simp [hm]))
    · exact fun a hm => h.inlined a (by simpa using hm)
    · exact fun a hm => h.others a (by simpa using hm)

theorem stage_all {n : Nat} {bwrap : Bool} : ∀ (answers : List Fix) {done : List Fix} {doc : Entries} {r : Raw},
    Stage n done doc r → (∀ f ∈ done ++ answers, Answer bwrap f) → ((done ++ answers).map question).Nodup →
    ∃ doc' r', applyAll bwrap answers doc = some doc' ∧ Stage n (done ++ answers) doc' r'
  | [], done, doc, r, h, _, _ => ⟨doc, r, rfl, by simpa using h⟩
  | f :: fs, done, doc, r, h, ha, hn => by
    have hq : question f ∉ done.map question := by
      rw [List.map_append, List.nodup_append] at hn
      intro hm
      exact hn.2.2 _ hm _ (by simp) rfl
    obtain ⟨doc1, r1, h1, h2⟩ := stage_step h (ha f (by simp)) hq (fun g hg => ha g (by simp [hg]))
    obtain ⟨doc2, r2, h3, h4⟩ := stage_all fs h2 (by simpa using ha) (by simpa using hn)
    refine ⟨doc2, r2, ?_, by simpa using h4⟩
    simp only [applyAll, h1, Option.bind_some]
    exact h3

theorem map_inj_of_nodup {α β : Type} {f : α → β} {l : List α} (h : (l.map f).Nodup) {x y : α} (hx : x ∈ l) (hy : y ∈ l)
    (hf : f x = f y) : x = y := by
  induction l with
  | nil => cases hx
  | cons z l ih =>
    rw [List.map_cons, List.nodup_cons] at h
    rcases List.mem_cons.mp hx with rfl | hx' <;> rcases List.mem_cons.mp hy with rfl | hy'
    · rfl
    · exact absurd (List.mem_map.mpr ⟨y, hy', hf.symm⟩) h.1
    · exact absurd (List.mem_map.mpr ⟨x, hx', hf⟩) h.1
    · exact ih h.2 hx' hy'

theorem builtIn_nonempty {a : Api} {b : ApiCfg} (h : builtIns.get? a = some b) : b.incl ≠ [] := by
  have h1 : ∀ x ∈ builtIns, x.2.incl ≠ [] := by decide +kernel
  exact h1 _ (AMap.mem_of_get? h)

/-- **C130.** For every sequence of answers, at most one to each question, in every order: creating a custom configuration
and then applying the answers to the new file works, and the file is loaded as the configuration that was chosen. -/
theorem C130_setup (bwrap : Bool) (n : Nat) (answers : List Fix) (ha : ∀ f ∈ answers, Answer bwrap f)
    (hq : (answers.map question).Nodup) :
    ∃ doc r, applyAll bwrap (.createCustom :: answers) [] = some doc ∧ load builtIns (n + 2) doc = some r ∧
      AsChosen answers r := by
  have h0 : Stage (n + 2) [] [(str! "common", .table [(str! "version", .int 3)])] { common := { version := 3 } } := by
    refine ⟨rfl, rfl, rfl, rfl, List.nodup_nil, by simp, by simp, fun _ => rfl, by simp, fun _ _ => rfl,
      ⟨⟨_, rfl, trivial⟩, ⟨_, rfl, trivial⟩, fun a => ⟨_, rfl, _, rfl, trivial⟩⟩⟩
  obtain ⟨doc, r, h1, h2⟩ := stage_all (bwrap := bwrap) answers h0 (by simpa using ha) (by simpa using hq)
  rw [List.nil_append] at h2
  have hstd : ∀ a ∈ r.common.importStd, ∃ b, builtIns.get? a = some b := by
    intro a hm
    have := ha _ ((h2.std a).mp hm)
    exact Option.isSome_iff_exists.mp this
  obtain ⟨c39, c39'⟩ := C39_import_std builtIns r
  cases hm : mergeBuiltIns builtIns r with
  | none =>
    obtain ⟨i, hi, hb⟩ := c39.mp hm
    obtain ⟨b, hb'⟩ := hstd i hi
    rw [hb] at hb'
    cases hb'
  | some c =>
    have hc : c = { r with apis := c.apis, common := { r.common with importStd := [] } } := by
      unfold mergeBuiltIns at hm
      simp only [Option.bind_eq_bind, Option.pure_def, Option.bind_eq_some_iff, Option.some.injEq] at hm
      obtain ⟨a, _, rfl⟩ := hm
      rfl
    have hp : applyRuntimePatches c = c := by
      unfold applyRuntimePatches
      have : c.common.version = 3 := by rw [hc]; exact h2.version
      rw [this]
      rfl
    have hv : c.common.version = maxVersion := by rw [hc]; exact h2.version
    have hpk : c.packages = [] := by rw [hc]; exact h2.packages
    have hsb : c.sandbox = r.sandbox := by rw [hc]
    have hrs : c.rustcSandbox = {} := by rw [hc]; exact h2.rustc
    have hshape : r.sandbox = {} ∨ ∃ k, r.sandbox = { kind := some k } := by
      by_cases hk : ∃ k, .selectSandbox k ∈ answers
      · obtain ⟨k, hk⟩ := hk
        exact .inr ⟨k, (h2.sandbox k).mpr hk⟩
      · exact .inl (h2.noSandbox (fun k hm => hk ⟨k, hm⟩))
    refine ⟨doc, { c with rustcSandbox := c.rustcSandbox.inherit c.sandbox }, ?_, ?_, hv, hpk, ?_, ?_, ?_, ?_, ?_⟩
    · exact h1
    · rw [load_iff]
      refine ⟨r, h2.read, ?_⟩
      unfold parseRaw
      simp only [Option.bind_eq_bind, Option.pure_def, hm, Option.bind_some, hp]
    · intro k
      show c.sandbox = _ ↔ _
      rw [hsb]
      exact h2.sandbox k
    · intro hk
      show c.sandbox = _
      rw [hsb]
      exact h2.noSandbox hk
    · show c.rustcSandbox.inherit c.sandbox = c.sandbox
      rw [hrs, hsb]
      rcases hshape with h | ⟨k, h⟩ <;> rw [h] <;> rfl
    · intro a b hb hor
      show ∃ d, c.apis.get? a = some d ∧ _
      obtain ⟨i1, i2, i3, i4⟩ := c39' c hm a
      by_cases hin : .inlineStd a ∈ answers
      · have hni : a ∉ r.common.importStd := by
          intro hm
          cases map_inj_of_nodup hq hin ((h2.std a).mp hm) rfl
        obtain ⟨b', d, hb', hd, hs⟩ := h2.inlined a hin
        rw [hb] at hb'
        cases hb'
        rw [i4 hni]
        exact ⟨d, hd, hs⟩
      · have hnone := h2.others a hin
        have hstd : a ∈ r.common.importStd := (h2.std a).mpr (hor.resolve_right hin)
        have e1 : defOf r.apis a = {} := by unfold defOf; rw [hnone]; rfl
        have e2 : defOf builtIns a = b := by unfold defOf; rw [hb]; rfl
        rw [e1, e2] at i1 i2
        rw [e1] at i3
        have hne := builtIn_nonempty hb
        cases hg : c.apis.get? a with
        | none =>
          have e3 : defOf c.apis a = {} := by unfold defOf; rw [hg]; rfl
          rw [e3] at i1 i2
          obtain ⟨x, hx⟩ := List.exists_mem_of_ne_nil _ hne
          exact absurd ((i1 x).mpr (.inr ⟨hstd, hx⟩)) (by simp)
        | some d =>
          have e3 : defOf c.apis a = d := by unfold defOf; rw [hg]; rfl
          rw [e3] at i1 i2 i3
          exact ⟨d, rfl, fun x => by rw [i1]; simp [hstd], fun x => by rw [i2]; simp [hstd], i3⟩
    · intro a h3 h4
      show c.apis.get? a = none
      rw [(c39' c hm a).2.2.2 (fun hm => h3 ((h2.std a).mp hm))]
      exact h2.others a h4

/-! Non-vacuity of C130. -/
example : ∀ f ∈ [Fix.importStd (str! "fs"), .selectSandbox .bubblewrap, .ignoreStd (str! "env"), .inlineStd (str! "process")],
    Answer true f := by
  intro f hf
  simp only [List.mem_cons, List.not_mem_nil, or_false] at hf
  rcases hf with rfl | rfl | rfl | rfl <;> simp only [Answer] <;> decide +kernel
example : ([Fix.importStd (str! "fs"), .selectSandbox .bubblewrap, .ignoreStd (str! "env"), .inlineStd (str! "process")].map
    question).Nodup := by decide

/-- **C130, recommended configuration.** The recommended configuration has exactly the built-in APIs `fs`, `net` and
`process`, no permissions and no choice of a sandbox. -/
theorem C130_recommended (bwrap : Bool) (n : Nat) :
    ∃ doc r, Fix.createRecommended.apply bwrap [] = some doc ∧ load builtIns (n + 2) doc = some r ∧
      AsChosen [.importStd (str! "fs"), .importStd (str! "net"), .importStd (str! "process")] r := by
  obtain ⟨doc, r, h1, h2, h3⟩ := C130_setup bwrap n [.importStd (str! "fs"), .importStd (str! "net"), .importStd (str! "process")]
    (by
      intro f hf
      simp only [List.mem_cons, List.not_mem_nil, or_false] at hf
      rcases hf with rfl | rfl | rfl <;> (simp only [Answer]; decide +kernel)) (by decide)
  refine ⟨doc, r, ?_, h2, h3⟩
  rw [← h1]
  simp only [applyAll, Fix.apply, recommended, Option.bind_fun_some]

/-- The problem is on the list. -/
def Asked (s : Store.State) (p : Problem) : Prop := ∃ j, (j, p) ∈ Store.live s

/-- **C130, the questions.** In every execution: when there is no configuration file and the user accepts the first
configuration, the choice of a sandbox is on the list afterwards, and with a custom configuration also every built-in API. -/
theorem C130_questions {F : Type} [DecidableEq F] (t : Texts F) (bwrap : Bool) (k : Nat)
    (order : List (List Str) → List (List Str)) (sandboxOf : Str → Sandbox)
    (hp : ∀ a b, t.print a = t.print b → a = b) (ho : ∀ l, (order l).Perm l)
    (x : Ui.Sys F Raw) (tr : List (Ui.Sys F Raw × Ui.Act F Raw)) (h : Ui.Exec (env t bwrap k order sandboxOf) x tr)
    (hl : Ui.Listening x) (ms : List Ui.Mode) (hm : x.ui.modes = .selectEdit :: ms) (key : Ui.Key) (hk : Ui.Accepts key)
    (id : Nat) (path : Str) (hsel : (Store.live x.ui.store)[x.ui.problemIndex]? = some (id, .missingConfiguration path))
    (hfile : x.ui.file = none) (hd : t.parse t.blank = some []) :
    (x.ui.editIndex = 0 → ∃ x', Ui.act (env t bwrap k order sandboxOf) x (.iter true (.key key)) = some x' ∧
      Asked x'.ui.store .selectSandbox) ∧
    (x.ui.editIndex = 1 → ∃ x', Ui.act (env t bwrap k order sandboxOf) x (.iter true (.key key)) = some x' ∧
      Asked x'.ui.store .selectSandbox ∧ ∀ a, (builtIns.get? a).isSome → Asked x'.ui.store (.importStdApi a)) := by
  have key : ∀ f : Fix, [Fix.createRecommended, .createCustom][x.ui.editIndex]? = some f → ∀ doc' r,
      f.apply bwrap [] = some doc' → load builtIns 2 doc' = some r → r.packages = [] →
      ∃ x', Ui.act (env t bwrap k order sandboxOf) x (.iter true (.key key)) = some x' ∧
        ∀ q ∈ f.repl, (∀ q', Store.Grown q q' → q' = q) → about q = none → Ordinary r q → ¬ Handled sandboxOf r [] q →
          Asked x'.ui.store q := by
    intro f hf doc' r ha hr hpk
    have hap : (f.toEditM bwrap).apply x.ui.comment [] = (doc', true) := by
      simp only [Fix.toEditM, ha]
    have := (Ui.C89_accept (env t bwrap k order sandboxOf) (env_sane t bwrap k order sandboxOf) x tr h hl ms hm key hk id _ hsel
      (f.toEditM bwrap) (by
        show (List.map _ _)[x.ui.editIndex]? = _
        rw [List.getElem?_map]
        show Option.map _ ([Fix.createRecommended, .createCustom][x.ui.editIndex]?) = _
        rw [hf]
        rfl) true).1 [] (by rw [hfile]; exact hd) (by rw [hap]) rfl
    obtain ⟨x', h1, h2, h3, _, _, h4⟩ := this
    rw [hap] at h3 h4
    refine ⟨x', h1, fun q hq hgr hab hord hnh => ?_⟩
    obtain ⟨j, q', h5, _, h6⟩ := h4.follow q hq
    cases hgr q' h5
    refine ⟨j, h6 (fun hset => hnh ?_)⟩
    exact C128_settled_partial F t bwrap k order sandboxOf 0 doc' x.ui.config r [] q hp ho hr (by rw [hpk]; exact List.nodup_nil)
      (fun sel hs => by rw [hab] at hs; cases hs) hord hset
  have g1 : ∀ q', Store.Grown .selectSandbox q' → q' = .selectSandbox := by
    rintro q' ⟨h, _⟩
    cases q' <;> simp [Problem.Same] at h ⊢
  have g2 : ∀ a q', Store.Grown (.importStdApi a) q' → q' = .importStdApi a := by
    rintro a q' ⟨h, _⟩
    cases q' <;> simp [Problem.Same] at h ⊢
    exact h.symm
  constructor
  · intro hi
    obtain ⟨doc, r, h1, h2, h3⟩ := C130_recommended bwrap 0
    obtain ⟨x', h4, h5⟩ := key .createRecommended (by rw [hi]; rfl) doc r h1 h2 h3.packages
    refine ⟨x', h4, h5 _ (List.mem_singleton.mpr rfl) g1 rfl trivial ?_⟩
    rw [Handled, h3.noSandbox (by simp)]
    simp
  · intro hi
    obtain ⟨doc, r, h1, h2, h3⟩ := C130_setup bwrap 0 [] (fun f hf => by cases hf) List.nodup_nil
    obtain ⟨x', h4, h5⟩ := key .createCustom (by rw [hi]; rfl) doc r (by simpa [applyAll] using h1) h2 h3.packages
    refine ⟨x', h4, h5 _ (List.mem_cons_self ..) g1 rfl trivial ?_, fun a ha => h5 _ ?_ (g2 a) rfl trivial ?_⟩
    · rw [Handled, h3.noSandbox (by simp)]
      simp
    · simp only [Fix.repl]
      refine List.mem_cons_of_mem _ (List.mem_map.mpr ⟨a, ?_, rfl⟩)
      obtain ⟨b, hb⟩ := Option.isSome_iff_exists.mp ha
      exact mem_sortStr.mpr (List.mem_map.mpr ⟨_, AMap.mem_of_get? hb, rfl⟩)
    · rintro ⟨b, d, _, hd, _⟩
      rw [h3.others a (by simp) (by simp)] at hd
      cases hd

/-! Non-vacuity: there is no file, a missing configuration is reported, and the user moves to the second edit. -/
section
open Classical
private noncomputable def atCustom : Option (Ui.Sys Entries Raw) :=
  Ui.runActs (env plainTexts true 0 id (fun _ => {})) { ui := { file := none, config := {} } }
    [.report [.missingConfiguration []], .iter true .added, .iter true (.key (.char 'f')), .iter true (.key .down)]
example : atCustom.map (fun x => (x.ui.modes, x.ui.editIndex, (Store.live x.ui.store)[x.ui.problemIndex]?)) =
    some ([.selectEdit, .selectProblem], 1, some (0, .missingConfiguration [])) := rfl
example : atCustom.map (fun x => (x.ui.file, x.started, x.ended, x.error)) = some (none, true, false, false) := rfl
end

end Cackle.Fixes
