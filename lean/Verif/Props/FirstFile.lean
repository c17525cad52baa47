import Verif.Props.BasicTerm

/-!
# C184: the first config file does not replace another one

The line-based user interface asks questions and then writes the first config file, if there was none. By then there may
be one.
-/

namespace Cackle.Basic
open Cackle Store
open Cackle.Ui (EditM Env openFile macroA)

variable {F E C : Type}

/-! ## Specification -/

/-- `maybe_create_config` (main.rs:472-479) reports that the config file is missing only if it is. -/
def MissingIfNone (tr : List (State F E C × Act F C)) : Prop :=
  ∀ x ps p, (x, Act.report ps) ∈ tr → p ∈ ps → NoConfig p → x.file = none

/-- The new config file is the old one, `f`, with a fix that the user chose. -/
def Fixed (env : Env F E C) (s : State F E C) (w : Bool) (i : Input) (f : F) (new : Option F) : Prop :=
  ∃ id n ed e, Chose env id n ed s (.input w i) ∧ env.parse f = some e ∧ new = some (env.print (ed.apply none e).1)

/-- The English claim C184: a config file that is there is changed only by applying a chosen fix to it. -/
def C184_Claim : Prop :=
  ∀ (F E C : Type) (env : Env F E C) (su : Setup E), su.Works → ∀ (s : State F E C) (tr : List (State F E C × Act F C)),
    Exec env su s tr → MissingIfNone tr → ∀ (w : Bool) (i : Input) (f : F), s.file = some f →
    (step env su w s i).file ≠ s.file → Fixed env s w i f (step env su w s i).file

/-! ## Lemmas -/

/-- No problem of the store is that there is no config file. -/
def NoneMissing (s : Store.State) : Prop := ∀ (j : Nat) q, s.problems[j]? = some (some q) → ¬ NoConfig q

theorem merge_noConfig {a b m : Problem} (h : a.merge b = some m) (hm : NoConfig m) : NoConfig a := by
  obtain ⟨path, rfl⟩ := hm
  cases a <;> cases b <;> simp_all [Problem.merge, NoConfig] <;> (try split at h) <;> simp_all

theorem addProblem_missing {s s' : Store.State} {p : Problem} {id : Nat} (h : addProblem s p = some (s', id))
    (hs : NoneMissing s) (hp : ¬ NoConfig p) : NoneMissing s' := by
  unfold addProblem at h
  split at h
  · rename_i k hk
    split at h
    · rename_i ex hex
      split at h
      · split at h
        · rename_i m hm
          cases h
          intro j q hq
          change (List.set _ _ _)[j]? = _ at hq
          rw [List.getElem?_set] at hq
          split at hq
          · split at hq
            · cases hq
              exact fun hn => hs _ _ hex (merge_noConfig hm hn)
            · cases hq
          · exact hs _ _ hq
        · cases h
      · cases h; exact hs
    · cases h
  · cases h
    intro j q hq
    have hq : (s.problems ++ [some p])[j]? = some (some q) := hq
    rw [List.getElem?_append] at hq
    split at hq
    · exact hs _ _ hq
    · have := List.mem_of_getElem? hq
      simp only [List.mem_singleton, Option.some.injEq] at this
      rw [this]; exact hp

theorem addProblems_missing {ps : List Problem} {s s' : Store.State} {ids : List Nat} (h : addProblems s ps = some (s', ids))
    (hs : NoneMissing s) (hp : ∀ p ∈ ps, ¬ NoConfig p) : NoneMissing s' := by
  induction ps generalizing s ids with
  | nil => cases h; exact hs
  | cons p ps ih =>
    unfold addProblems at h
    split at h
    · cases h
    · rename_i s1 id1 h1
      split at h
      · cases h
      · rename_i s2 ids2 h2
        cases h
        exact ih h2 (addProblem_missing h1 hs (hp p (by simp))) (fun q hq => hp q (by simp [hq]))

theorem set_missing {s st : Store.State} {id : Nat} (hs : NoneMissing s) (h : st.problems = s.problems.set id none) :
    NoneMissing st := by
  intro j q hq
  rw [h, List.getElem?_set] at hq
  split at hq
  · split at hq <;> cases hq
  · exact hs _ _ hq

/-- As long as there is a config file, nobody says that there is none. -/
theorem exec_missing {env : Env F E C} {su : Setup E} (hw : su.Works) {s : State F E C} {tr : List (State F E C × Act F C)}
    (h : Exec env su s tr) (hm : MissingIfNone tr) (ha : ∀ x a, (x, a) ∈ tr → x.file ≠ none) : NoneMissing s.store := by
  induction h with
  | init => intro j q hq; simp [State.new] at hq
  | @step s s' tr a h hp hs ih =>
    have ih := ih (fun x ps p hx => hm x ps p (by simp [hx])) (fun x a hx => ha x a (by simp [hx]))
    have hnone := ha s a (by simp)
    obtain ⟨P, _, _, hi⟩ := exec_inv hw h
    obtain ⟨t, ht⟩ := hi.store
    have hph := hi.phase
    have hfin : ∀ s0 : State F E C, ∀ id, s0.store = s.store → (∃ p, (id, p) ∈ live s.store) →
        NoneMissing (finish env su s0 id).store := by
      intro s0 id h0 ⟨p, hp⟩
      rw [← h0] at ht hp
      obtain ⟨st, h1, _, h2, _⟩ := finish_spec env su s0 ht hp
      rw [h1, look_store]
      exact set_missing (h0 ▸ ih) h2
    cases a with
    | report ps =>
      obtain ⟨r, h1, rfl⟩ := Option.map_eq_some_iff.mp hs
      unfold add at h1
      split at h1
      · cases h1
      · split at h1
        · cases h1
        · rename_i s1 ids1 h2
          cases h1
          have key : NoneMissing s1 := addProblems_missing h2 ih (fun p hp hn => hnone (hm s ps p (by simp) hp hn))
          exact key
    | reload c => cases hs; exact ih
    | touch f => cases hs; exact ih
    | input w i =>
      have hst := stepped env su w s i
      simp only [act, Option.some.injEq] at hs
      rw [hs] at hst
      cases hst with
      | look _ => rw [look_store]; exact ih
      | apply h1 => exact hfin (written s _) _ rfl ((asked_live hph).1 _ _ h1)
      | confirmed h1 => exact hfin (written s _) _ rfl ((asked_live hph).2.2 _ _ h1)
      | retry h1 => exact hfin { s with last := s.mtime } _ rfl ((asked_live hph).1 _ _ h1)
      | _ => exact ih

/-! ## C184 -/

/-- **C184 (partial).** The claim if there has been a config file all the time since the start. Missing: config files that
are created while the questions about the first one are asked, see `C184_overwritten`. -/
theorem C184_partial (env : Env F E C) (su : Setup E) (hw : su.Works) (s : State F E C) (tr : List (State F E C × Act F C))
    (h : Exec env su s tr) (hm : MissingIfNone tr) (ha : ∀ x a, (x, a) ∈ tr → x.file ≠ none) (w : Bool) (i : Input) (f : F)
    (hf : s.file = some f) (hne : (step env su w s i).file ≠ s.file) : Fixed env s w i f (step env su w s i).file := by
  rcases C98_file_only_by_user env su hw s tr h w i hne with ⟨id, n, ed, e, h1, h2, h3⟩ | ⟨id, e, ⟨l, h1, _⟩, _⟩
  · rw [hf] at h2
    exact ⟨id, n, ed, e, h1, h2, h3⟩
  · obtain ⟨P, _, _, hi⟩ := exec_inv hw h
    have hph := hi.phase
    unfold PhaseOk at hph
    rw [h1] at hph
    obtain ⟨p, rest, h2, h3, _⟩ := hph
    exact absurd h3 (exec_missing hw h hm ha id p (mem_live.mp (by rw [h2]; simp)))

/-- **C184, disagreement.** There is no config file. The user selects an API, and meanwhile a config file appears, for
example because another branch is checked out. It is replaced when the user presses enter; its line is lost. -/
theorem C184_overwritten : ∃ s tr, Exec demo demoSetup s tr ∧ MissingIfNone tr ∧ s.file = some [str! "mine"] ∧
    (step demo demoSetup true s (.line [])).file = some [str! "new", str! "fs"] ∧
    ¬ Fixed demo s true (.line []) [str! "mine"] (step demo demoSetup true s (.line [])).file := by
  let s0 := demo0 none
  have e0 : Exec demo demoSetup s0 [] := .init none false
  have e1 := Exec.step (.report [.missingConfiguration (str! "cackle.toml")]) e0 (by simp [Act.Possible]) rfl
  have e2 := Exec.step (.input true .added) e1 (by decide) rfl
  have e3 := Exec.step (type (str! "fs")) e2 trivial rfl
  have e4 := Exec.step (.touch (some [str! "mine"])) e3 trivial rfl
  refine ⟨_, _, e4, ?_, rfl, by decide, ?_⟩
  · intro x ps p hx _ _
    simp only [List.mem_cons, Prod.mk.injEq, reduceCtorEq, and_false, false_or, List.not_mem_nil, or_false, type] at hx
    rw [hx.1]; rfl
  · rintro ⟨id, n, ed, e, ⟨fixes, l, h1, _⟩, _⟩
    have h2 : Phase.confirming 0 [str! "new", str! "fs"] = Phase.asking id fixes := h1
    cases h2

/-- **C184, disagreement.** -/
theorem C184_refuted : ¬ C184_Claim := by
  intro hc
  obtain ⟨s, tr, h1, h2, h3, h4, h5⟩ := C184_overwritten
  exact h5 (hc _ _ _ demo demoSetup demoSetup_works s tr h1 h2 true (.line []) _ h3 (by rw [h3, h4]; decide))

/-! ## Non-vacuity -/

/-- With a config file from the start, which somebody changes before a problem is reported, the chosen fix is added. -/
example : ∃ s tr, Exec demo demoSetup s tr ∧ MissingIfNone tr ∧ (∀ x a, (x, a) ∈ tr → x.file ≠ none) ∧
    s.file = some [str! "mine"] ∧ (step demo demoSetup true s (.line (str! "1"))).file = some [str! "mine", str! "a"] ∧
    Fixed demo s true (.line (str! "1")) [str! "mine"] (step demo demoSetup true s (.line (str! "1"))).file := by
  let s0 := demo0 (some [])
  have e0 : Exec demo demoSetup s0 [] := .init (some []) false
  have e1 := Exec.step (.touch (some [str! "mine"])) e0 trivial rfl
  have e2 := Exec.step (.report [macroA]) e1 (by simp [Act.Possible]) rfl
  have e3 := Exec.step (.input true .added) e2 (by decide) rfl
  refine ⟨_, _, e3, ?hm, ?ha, rfl, by decide,
    C184_partial demo demoSetup demoSetup_works _ _ e3 ?hm ?ha true (.line (str! "1")) _ rfl (by decide)⟩
  · intro x ps p hx hp hn
    simp only [List.mem_cons, Prod.mk.injEq, reduceCtorEq, and_false, false_or, List.not_mem_nil, or_false,
      Act.report.injEq] at hx
    rw [hx.2, List.mem_singleton] at hp
    obtain ⟨path, rfl⟩ := hn
    cases hp
  · intro x a hx
    simp only [List.mem_cons, Prod.mk.injEq, List.not_mem_nil, or_false] at hx
    rcases hx with ⟨rfl, _⟩ | ⟨rfl, _⟩ | ⟨rfl, _⟩ <;> exact fun h => nomatch h

end Cackle.Basic
