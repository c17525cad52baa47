import Verif.Model.Main
import Verif.Props.NullUi
import Verif.Props.Handlers
import Verif.Model.BuildScript

/-!
# C14 (requests finish), C15 (meaning of a successful exit status), C51 (cargo clean)
-/

namespace Cackle.Main
open Cackle Config Checker NullUi

/-! ## C15 -/

/-- The results of the steps fit the history of the problem store up to the end of the build: whoever
got `GiveUp` as an answer to reported problems got it from the store, and `aborted` is read from it. -/
structure Fits (p : Phases) (s : Store.State) (tr : List Store.Ev) : Prop where
  run : Store.Run s tr
  aborted : p.aborted = s.aborted
  newVersion : p.newVersion = .giveUp → ∃ w, (w, .giveUp) ∈ s.sent
  initial : p.initial = some .giveUp → ∃ w, (w, .giveUp) ∈ s.sent
  unusedImports : p.unusedImports = .giveUp → ∃ w, (w, .giveUp) ∈ s.sent

theorem run_true {full : Bool} {p : Phases} (h : run full p = some true) :
    p.createConfig = .continue_ ∧ p.load1 = true ∧ p.load2 = true ∧ p.aborted = false ∧
    (∃ o, p.initial = some o ∧ (o.and p.unusedImports = .continue_ → p.build = true)) ∧
    (full = true → (∃ us, p.unused = some us) ∧ p.unusedAnswer = .continue_) := by
  unfold run at h
  split at h
  · cases h
  rename_i h1
  split at h
  · cases h
  rename_i h2
  split at h
  · cases h
  rename_i h3
  split at h
  · cases h
  rename_i o h4
  simp only at h
  split at h
  · cases h
  rename_i h5
  generalize hb : (if o.and p.unusedImports = .continue_ then p.build else true) = b at h
  split at h
  · cases h
  rename_i h6
  split at h
  · cases h
  rename_i h7
  refine ⟨?_, by simpa using h2, by simpa using h5, by simpa using h6, ⟨o, h4, ?_⟩, ?_⟩
  · cases hc : p.createConfig with
    | continue_ => rfl
    | giveUp => exact absurd hc h1
  · intro ho
    rw [if_pos ho] at hb
    rw [hb]
    simpa using h7
  · intro hf
    rw [if_pos hf] at h
    split at h
    · cases h
    · rename_i us hu
      refine ⟨⟨us, hu⟩, ?_⟩
      cases ha : p.unusedAnswer with
      | continue_ => rfl
      | giveUp => simp [ha] at h

/-- **C15.** If the exit status is success then up to the end of the build the store was never aborted
and nobody, neither a step of the main thread nor any handler of a request, was told to give up; the
checks before the build passed and cargo (or the replay) succeeded; the UI did not fail; and after a
full run no linker invocation is left unchecked and the problems about unused configuration were
resolved. -/
theorem C15_success (full : Bool) (p : Phases) (s : Store.State) (tr : List Store.Ev) (hf : Fits p s tr)
    (c : Checker.State) (hc : p.unused = checkUnused c) (h : success full p = true) :
    Store.Ev.aborted ∉ tr ∧ (∀ w, (w, Outcome.giveUp) ∉ s.sent) ∧
    p.createConfig = .continue_ ∧ p.newVersion = .continue_ ∧ p.initial = some .continue_ ∧
    p.unusedImports = .continue_ ∧ p.load1 = true ∧ p.load2 = true ∧ p.build = true ∧
    p.uiError = false ∧
    (full = true → c.outstanding = [] ∧ p.unusedAnswer = .continue_) := by
  unfold success at h
  split at h
  · cases h
  rename_i hui
  have hr : run full p = some true := by
    cases hr : run full p with
    | none => rw [hr] at h; cases h
    | some b => rw [hr] at h; simpa using h
  obtain ⟨g1, g2, g3, hab, ⟨o, g4, g5⟩, g6⟩ := run_true hr
  have hna : Store.Ev.aborted ∉ tr := by
    intro hm
    have := (Store.inv_run hf.run).abortedEv.mpr hm
    rw [← hf.aborted, hab] at this
    cases this
  have hng : ∀ w, (w, Outcome.giveUp) ∉ s.sent := by
    intro w hw
    exact hna ((Store.inv_run hf.run).gaveUp w hw)
  have cont : ∀ o : Outcome, (o = .giveUp → ∃ w, (w, Outcome.giveUp) ∈ s.sent) → o = .continue_ := by
    intro o ho
    cases o with
    | continue_ => rfl
    | giveUp =>
      obtain ⟨w, hw⟩ := ho rfl
      exact absurd hw (hng w)
  have hnv := cont _ hf.newVersion
  have hui' := cont _ hf.unusedImports
  have hin : o = .continue_ := cont o (fun e => hf.initial (by rw [g4, e]))
  subst hin
  refine ⟨hna, hng, g1, hnv, g4, hui', g2, g3, g5 (by rw [hui']; rfl), by simpa using hui, ?_⟩
  intro hfull
  obtain ⟨⟨us, hu⟩, g7⟩ := g6 hfull
  refine ⟨?_, g7⟩
  rw [hu] at hc
  unfold checkUnused at hc
  split at hc
  · cases hc
  · rename_i hne
    simpa using hne

/-- **C15 (nothing is built after giving up).** If the user gives up before the build, then cargo is not run: the result does not
depend on what it would have done. -/
theorem C15_not_built (full : Bool) (p : Phases) (h : p.initial = some .giveUp ∨ p.unusedImports = .giveUp) (b : Bool) :
    run full { p with build := b } = run full p := by
  unfold run
  simp only []
  cases hi : p.initial with
  | none => rfl
  | some o =>
    have : o.and p.unusedImports = .giveUp := by
      rcases h with h | h
      · rw [hi] at h
        cases h
        cases p.unusedImports <;> rfl
      · rw [h]
        cases o <;> rfl
    simp only [this, reduceCtorEq, if_false]

/-- **C15 (success).** Conversely, if every step went well then the exit status is success. -/
theorem C15_succeeds (full : Bool) (p : Phases) (h1 : p.createConfig = .continue_) (h2 : p.load1 = true)
    (h3 : ∃ code, p.cleanStatus = some code) (h4 : p.initial = some .continue_) (h5 : p.unusedImports = .continue_)
    (h6 : p.load2 = true) (h7 : p.build = true) (h8 : p.aborted = false)
    (h9 : full = true → (∃ ps, p.unused = some ps) ∧ p.unusedAnswer = .continue_) (h10 : p.uiError = false) :
    success full p = true := by
  obtain ⟨code, h3⟩ := h3
  unfold success run
  cases full with
  | false => simp [h1, h2, h3, h4, h5, h6, h7, h8, h10, Outcome.and]
  | true =>
    obtain ⟨⟨ps, h9⟩, h11⟩ := h9 rfl
    simp [h1, h2, h3, h4, h5, h6, h7, h8, h9, h10, h11, Outcome.and, cleanOk]

/-! Non-vacuity: the phases of a normal full run, and one with a problem that made the UI give up before
the build: the build step is skipped with an `Ok` result, the exit status is still a failure. -/
private def normal : Phases :=
  { createConfig := .continue_, load1 := true, cleanStatus := some 0, newVersion := .continue_,
    initial := some .continue_, unusedImports := .continue_, load2 := true, build := true,
    aborted := false, unused := some [], unusedAnswer := .continue_, uiError := false }
example : Fits normal {} [] :=
  ⟨.init, rfl, by simp [normal], by simp [normal], by simp [normal]⟩
example : success true normal = true := by decide
example : run true { normal with initial := some .giveUp, aborted := true } = some false := by decide

/-! ## C51 -/

/-- The English claim C51: a full run that succeeds started from a clean build directory. -/
def C51_Claim : Prop :=
  ∀ p : Phases, success true p = true → p.cleanStatus = some 0

/-- **C51, disagreement.** The exit status of `cargo clean` is ignored. -/
theorem C51_failed_clean_ignored : ¬ C51_Claim := by
  intro h
  have := h { normal with cleanStatus := some 101 } (by decide)
  revert this
  decide

/-- **C51 (partial).** A full run that succeeds has at least started `cargo clean`. Missing: that it
succeeded. -/
theorem C51_clean_started_partial (p : Phases) (h : success true p = true) :
    p.cleanStatus.isSome = true := by
  unfold success at h
  split at h
  · cases h
  cases hr : run true p with
  | none => rw [hr] at h; cases h
  | some b =>
    cases hb : b with
    | false => rw [hr, hb] at h; cases h
    | true =>
      subst hb
      have := run_true hr
      cases hc : p.cleanStatus with
      | some _ => rfl
      | none =>
        simp [run, hc, cleanOk, this.1, this.2.1] at hr

/-! ## C14 -/

/-- `fix_problems` in non-interactive mode: the answer is `GiveUp` if a live or new problem is fatal;
otherwise it is `Continue`. -/
theorem fixProblems_spec (a : NullUi.Args) {s : Store.State} {tr : List Store.Ev} (h : Store.Run s tr)
    {ps : List Problem} (hne : ps ≠ []) :
    ∃ s' tr', Store.Run s' tr' ∧
      ((∃ id p, (id, p) ∈ Store.live s ∧ Fatal a p) ∨ (∃ p ∈ ps, Fatal a p) →
        fixProblems a s ps = some (s', .giveUp)) ∧
      (s.aborted = false → (∀ id p, (id, p) ∈ Store.live s → ¬ Fatal a p) → (∀ p ∈ ps, ¬ Fatal a p) →
        fixProblems a s ps = some (s', .continue_) ∧ Store.live s' = [] ∧ s'.aborted = false) := by
  have fatal_same : ∀ p q : Problem, p.Same q → (Fatal a p ↔ Fatal a q) := by
    intro p q hpq
    have : IsWarning p ↔ IsWarning q := by
      cases p <;> cases q <;> simp_all [Problem.Same, IsWarning]
    simp [Fatal, this]
  obtain ⟨r, hr⟩ := Option.isSome_iff_exists.mp ((Store.C12_no_panic_partial s tr h).1 ps hne)
  obtain ⟨⟨s1, ids⟩, hadd, hr'⟩ := Option.map_eq_some_iff.mp hr
  subst hr'
  have h1 := Store.Run.step _ h hr
  simp only at h1
  have hvis := Store.C11_add_visible s s1 tr h ps ids hr
  obtain ⟨s2, tr2, g1, g2, g3, g4, g5⟩ :=
    C13_decision Unit Unit ⟨fun _ => none, some, fun _ _ => some ()⟩ { a with autoAccept := false } rfl ()
      s1 _ h1
  have hrep : NullUi.report a s1 = some s2 := by
    simp only [onProblemsAdded, Bool.false_eq_true, if_false, Option.map_eq_some_iff,
      Prod.mk.injEq] at g1
    obtain ⟨x, hx, rfl, _⟩ := g1
    exact hx
  have hfa : ∀ p, Fatal { a with autoAccept := false } p ↔ Fatal a p := fun p => Iff.rfl
  have hmem2 : Store.Ev.added s.nextChan ids ∈ tr2 := by
    by_cases hf : ∃ id p, (id, p) ∈ Store.live s1 ∧ Fatal { a with autoAccept := false } p
    · rw [(g3 hf).2]; simp
    · obtain ⟨new, rfl, _⟩ := (g4 (fun id p hm hx => hf ⟨id, p, hm, hx⟩)).2.2
      simp
  obtain ⟨o, ho⟩ := g5 _ _ hmem2
  have hfind : ∃ m, s2.sent.find? (fun m => m.1 = s.nextChan) = some m ∧ m ∈ s2.sent ∧
      m.1 = s.nextChan := by
    cases hx : s2.sent.find? (fun m => m.1 = s.nextChan) with
    | none =>
      have := List.find?_eq_none.mp hx _ ho
      simp at this
    | some m =>
      exact ⟨m, rfl, List.mem_of_find?_eq_some hx, by simpa using List.find?_some hx⟩
  obtain ⟨⟨w, o'⟩, hm1, hm2, hm3⟩ := hfind
  simp only at hm3
  subst hm3
  have hfix : fixProblems a s ps = some (s2, o') := by
    unfold fixProblems
    simp [hne, hadd, hrep, hm1]
  have hab1 : s1.aborted = s.aborted := by
    have e1 := (Store.inv_run h1).abortedEv
    have e2 := (Store.inv_run h).abortedEv
    simp only [List.mem_cons, reduceCtorEq, false_or] at e1
    exact Bool.eq_iff_iff.mpr (e1.trans e2.symm)
  refine ⟨s2, tr2, g2, ?_, ?_⟩
  · intro hex
    have hf : ∃ id p, (id, p) ∈ Store.live s1 ∧ Fatal { a with autoAccept := false } p := by
      rcases hex with ⟨id, p, hl, hf⟩ | ⟨p, hp, hf⟩
      · obtain ⟨q, hq1, hq2⟩ := (Store.C11_ids_stable s s1 tr h _ _ hr).1 id p hl (by simp)
        exact ⟨id, q, hq1, (hfa q).mpr ((fatal_same p q hq2.1).mp hf)⟩
      · obtain ⟨id, _, q, hq1, hq2⟩ := hvis.1 p hp
        exact ⟨id, q, hq1, (hfa q).mpr ((fatal_same p q hq2.1).mp hf)⟩
    cases o' with
    | giveUp => exact hfix
    | continue_ =>
      exfalso
      have hdead := (Store.C10_waiters s2 tr2 g2 _ ids hmem2).2.1 hm2
      obtain ⟨p, hp⟩ := List.exists_mem_of_ne_nil ps hne
      obtain ⟨id, hid, q, hq1, _⟩ := hvis.1 p hp
      have hd : Store.Dead s2 id := hdead id (.reported hmem2 hid)
      have hs2 : s2 = Store.abort s1 := by
        have hany : (Store.live s1).any (fun e => countsAsError a e.2) = true := by
          obtain ⟨id, p, h1, h2⟩ := hf
          exact List.any_eq_true.mpr ⟨(id, p), h1, (countsAsError_iff a p).mpr ((hfa p).mp h2)⟩
        unfold NullUi.report at hrep
        rw [if_pos hany] at hrep
        exact (Option.some.inj hrep).symm
      subst hs2
      have : (Store.abort s1).problems = s1.problems := rfl
      rw [Store.Dead, this, Store.mem_live.mp hq1] at hd
      cases hd
  · intro hab hno1 hno2
    have hno : ∀ id p, (id, p) ∈ Store.live s1 → ¬ Fatal { a with autoAccept := false } p := by
      intro id q hq hf
      rcases hvis.2 id q hq with ⟨p, hp, hg⟩ | ⟨p, hp, hsame⟩
      · exact hno1 id p hp ((fatal_same p q hg.1).mpr ((hfa q).mp hf))
      · exact hno2 p hp ((fatal_same p q hsame).mpr ((hfa q).mp hf))
    obtain ⟨k1, k2, k3⟩ := g4 hno
    have hab2 : s2.aborted = false := by rw [k1, hab1, hab]
    refine ⟨?_, k2, hab2⟩
    cases o' with
    | continue_ => exact hfix
    | giveUp =>
      exfalso
      have := (Store.inv_run g2).abortedEv.mpr ((Store.inv_run g2).gaveUp _ hm2)
      rw [hab2] at this
      cases this

/-- The English claim C14: in non-interactive mode, handling any request finishes: with an answer or an
error, after some number of rounds. `s` is any state the problem store can be in, `sys.checker` any state
the checker can be in, with the current contents of the config file loaded. -/
def C14_Claim : Prop :=
  ∀ (P : Parts) (a : NullUi.Args) (idx : Index) (sys : Sys) (links : List LinkInfo)
    (log : List Analysis) (ctr : List CEv) (req : Request) (s : Store.State) (tr : List Store.Ev),
    SysRun P idx sys links log ctr → Store.Run s tr →
    ∃ n e, handleLoop P a sys.checker.cfg req n sys.checker s none = some e

theorem apiUsed_errors {c c' : State} {au : ApiUsages} {ps : List Problem}
    (h : apiUsed c au = some (c', ps)) : ∀ p ∈ ps, ¬ IsWarning p := by
  unfold apiUsed at h
  simp only at h
  split at h
  · simp only [Option.some.injEq, Prod.mk.injEq] at h
    obtain ⟨_, rfl⟩ := h
    simp
  · split at h
    · cases h
    · simp only [Option.some.injEq, Prod.mk.injEq] at h
      obtain ⟨_, rfl⟩ := h
      intro p hp
      rcases List.mem_append.mp hp with hp | hp
      · obtain ⟨e, _, rfl⟩ := List.mem_map.mp hp
        simp [IsWarning]
      · split at hp
        · simp at hp
        · simp only [List.mem_singleton] at hp
          subst hp
          simp [IsWarning]

theorem apisUsed_errors {us : List ApiUsages} {c c' : State} {ps : List Problem}
    (h : apisUsed c us = some (c', ps)) : ∀ p ∈ ps, ¬ IsWarning p := by
  induction us generalizing c ps with
  | nil =>
    simp only [apisUsed, Option.some.injEq, Prod.mk.injEq] at h
    obtain ⟨_, rfl⟩ := h
    simp
  | cons au rest ih =>
    unfold apisUsed at h
    split at h
    · cases h
    · rename_i c1 ps1 h1
      split at h
      · cases h
      · rename_i c2 qs h2
        simp only [Option.some.injEq, Prod.mk.injEq] at h
        obtain ⟨rfl, rfl⟩ := h
        intro p hp
        rcases List.mem_append.mp hp with hp | hp
        · exact apiUsed_errors h1 p hp
        · exact ih h2 p hp

/-- Only possible exported APIs are warnings. -/
theorem no_warning {P : Parts} {c c' : State} {req : Request} {cache' : Option ScanOut}
    {ps : List Problem}
    (hrep : ∀ cfg crate out ps, P.report cfg crate out = some ps → ∀ p ∈ ps, ¬ IsWarning p)
    (hscan : ∀ c li o, P.scan c li = some o → o.exports = [])
    (h : handleRequest P c req none = (c', some (cache', ps))) : ∀ p ∈ ps, ¬ IsWarning p := by
  cases req with
  | initial =>
    simp only [handleRequest, Prod.mk.injEq, Option.some.injEq] at h
    obtain ⟨_, _, rfl⟩ := h
    intro p hp
    obtain ⟨x, _, rfl⟩ := List.mem_map.mp hp
    simp [IsWarning]
  | crateUsesUnsafe crate locs =>
    simp only [handleRequest, Prod.mk.injEq, Option.some.injEq] at h
    obtain ⟨_, _, rfl⟩ := h
    simp [IsWarning]
  | crateUsesExtern crate locs =>
    simp only [handleRequest, Prod.mk.injEq, Option.some.injEq] at h
    obtain ⟨_, _, rfl⟩ := h
    simp [IsWarning]
  | linkerInvoked li =>
    simp only [handleRequest, Prod.mk.injEq, Option.some.injEq] at h
    obtain ⟨_, _, rfl⟩ := h
    simp
  | rustcStarted crate =>
    simp only [handleRequest, Prod.mk.injEq, Option.some.injEq] at h
    obtain ⟨_, _, rfl⟩ := h
    simp
  | binExecutionComplete crate code out =>
    unfold handleRequest at h
    simp only at h
    split at h
    · simp only [Prod.mk.injEq, Option.some.injEq] at h
      obtain ⟨_, _, rfl⟩ := h
      simp [IsWarning]
    · split at h
      · simp only [Prod.mk.injEq, Option.map_eq_some_iff] at h
        obtain ⟨_, ps', h1, _, rfl⟩ := h
        exact hrep _ _ _ _ h1
      · simp only [Prod.mk.injEq, Option.some.injEq] at h
        obtain ⟨_, _, rfl⟩ := h
        simp
  | rustcComplete crate paths =>
    simp only [handleRequest] at h
    rcases rustcComplete_cases P.scan c crate paths none with ⟨_, g⟩ | ⟨_, _, _, g⟩ |
      ⟨li, rest, c1, out, qs, _, g1, g2⟩
    · rw [g] at h
      simp only [Prod.mk.injEq, Option.some.injEq] at h
      obtain ⟨_, _, rfl⟩ := h
      simp
    · rw [g] at h
      simp at h
    · rw [g2] at h
      simp only [Prod.mk.injEq, Option.some.injEq] at h
      obtain ⟨_, _, rfl⟩ := h
      simp only [checkLink, Option.map_eq_some_iff] at g1
      obtain ⟨⟨c2, out2, ps2⟩, g1, g3⟩ := g1
      simp only [Prod.mk.injEq] at g3
      obtain ⟨rfl, rfl, rfl⟩ := g3
      intro p hp
      rcases List.mem_append.mp hp with hp | hp
      · split at hp
        · unfold verifyBuildScript at hp
          split at hp
          · simp at hp
          · split at hp
            · simp at hp
            · simp only [List.mem_singleton] at hp
              subst hp
              simp [IsWarning]
        · simp at hp
      · simp only [checkObjects, graphOutputs, Option.filter_none] at g1
        cases hsc : P.scan { c with paths := recordPaths c.paths crate.pkgId paths, outstanding := rest } li with
        | none => simp [hsc] at g1
        | some o =>
          simp only [hsc, Option.map_some, scanProblems, Option.map_eq_some_iff] at g1
          obtain ⟨⟨c3, ps3⟩, g4, g5⟩ := g1
          split at g4
          · cases g4
          · rename_i c4 ps4 h4
            simp only [Option.some.injEq, Prod.mk.injEq, hscan _ _ _ hsc, List.flatMap_nil,
              List.append_nil] at g4 g5
            obtain ⟨_, rfl⟩ := g4
            obtain ⟨_, _, rfl⟩ := g5
            exact apisUsed_errors h4 p hp

/-- **C14 (partial).** Handling a request finishes after one round if warnings are treated as failures,
or if the scan of the linked objects finds no possible exported APIs; the answer is `Continue` exactly if
the check found nothing, and `GiveUp` exactly if it found something. Hypothesis about the build script
report: it only contains errors (discharged in `C14_finishes_real_report_partial`). Missing: scans with
possible exported APIs, see `C14_warning_livelock`. -/
theorem C14_finishes_partial (P : Parts) (a : NullUi.Args) (cfg : Raw) (req : Request) (c : State)
    (s : Store.State) (tr : List Store.Ev) (hs : Store.Run s tr)
    (hrep : ∀ cfg crate out ps, P.report cfg crate out = some ps → ∀ p ∈ ps, ¬ IsWarning p)
    (h : (a.failOnWarnings = true ∧ a.hasCommand = false) ∨
      ∀ c li o, P.scan c li = some o → o.exports = []) :
    ∃ e, handleLoop P a cfg req 1 c s none = some e ∧
      (e = .outcome .continue_ ↔ ∃ cache, (handleRequest P c req none).2 = some (cache, [])) ∧
      (e = .outcome .giveUp ↔ ∃ cache ps, (handleRequest P c req none).2 = some (cache, ps) ∧ ps ≠ []) := by
  unfold handleLoop
  cases hr : handleRequest P c req none with
  | mk c' res =>
    cases res with
    | none => exact ⟨_, rfl, by simp, by simp⟩
    | some r =>
      obtain ⟨cache', ps⟩ := r
      by_cases hps : ps = []
      · exact ⟨_, by simp only [hps, if_true]; rfl, by simp [hps], by simp [hps]⟩
      · have hfatal : ∃ p ∈ ps, Fatal a p := by
          obtain ⟨p, hp⟩ := List.exists_mem_of_ne_nil ps hps
          refine ⟨p, hp, ?_⟩
          rcases h with ⟨h1, h2⟩ | h
          · by_cases hw : IsWarning p
            · exact .inr ⟨hw, h1, h2⟩
            · exact .inl hw
          · left
            exact no_warning hrep h hr p hp
        obtain ⟨s', tr', _, g, _⟩ := fixProblems_spec a hs hps
        refine ⟨.outcome .giveUp, by simp [hps, g (.inr hfatal)], by simp [hps], ?_⟩
        exact ⟨fun _ => ⟨cache', ps, rfl, hps⟩, fun _ => rfl⟩

/-- **C14 (partial), with the modelled build script report.** As `C14_finishes_partial`, without the
hypothesis about the report. `decode` says which captured outputs are UTF-8. -/
theorem C14_finishes_real_report_partial (scan : State → LinkInfo → Option ScanOut)
    (decode : Str → Option Str) (idx : Index) (a : NullUi.Args) (cfg : Raw) (req : Request) (c : State)
    (s : Store.State) (tr : List Store.Ev) (hs : Store.Run s tr)
    (h : (a.failOnWarnings = true ∧ a.hasCommand = false) ∨ ∀ c li o, scan c li = some o → o.exports = []) :
    let P : Parts := ⟨scan, fun cfg crate out =>
      some (BuildScript.build (Perm.withInheritance cfg idx.pkgs) crate (decode out)).problems⟩
    ∃ e, handleLoop P a cfg req 1 c s none = some e ∧
      (e = .outcome .continue_ ↔ ∃ cache, (handleRequest P c req none).2 = some (cache, [])) ∧
      (e = .outcome .giveUp ↔ ∃ cache ps, (handleRequest P c req none).2 = some (cache, ps) ∧ ps ≠ []) := by
  intro P
  refine C14_finishes_partial P a cfg req c s tr hs ?_ h
  intro cfg crate out ps hps p hp
  simp only [P, Option.some.injEq] at hps
  subst hps
  unfold BuildScript.build at hp
  cases hd : decode out with
  | none =>
    simp only [hd, List.mem_singleton] at hp
    subst hp
    simp [IsWarning]
  | some t =>
    simp only [hd, List.mem_flatMap] at hp
    obtain ⟨line, _, hp⟩ := hp
    split at hp
    · unfold BuildScript.checkDirective at hp
      split at hp
      · simp at hp
      · split at hp
        · simp at hp
        · simp only [List.mem_singleton] at hp
          subst hp
          simp [IsWarning]
    · simp at hp

namespace C14Ex
open Cackle.Checker.C08Ex

def P : Parts :=
  { scan := fun _ _ => some { exports := [(pa, str! "fs", str! "a::fs")] }
    report := fun _ _ _ => some [] }
def a : NullUi.Args := { failOnWarnings := false, hasCommand := false, autoAccept := false }
def req : Request := .rustcComplete crate []

theorem round {c : State} {cache : Option ScanOut} (h1 : c.cfg = {}) (h0 : c.idx = idx)
    (h2 : c.outstanding = [x])
    (hc : cache = none ∨ cache = some { exports := [(pa, str! "fs", str! "a::fs")] }) :
    ∃ c', handleRequest P c req cache =
      (c', some (some { exports := [(pa, str! "fs", str! "a::fs")] },
        [.possibleExportedApi pa (str! "fs") (str! "a::fs")])) ∧ c'.cfg = {} ∧ c'.idx = idx ∧ c'.outstanding = [x] := by
  have ht : takeLink crate c.outstanding = some (x, []) := by rw [h2]; decide
  have he : ∀ c1 : State, c1.cfg = {} → c1.idx = idx → exportProblem c1 (pa, str! "fs", str! "a::fs") =
      [.possibleExportedApi pa (str! "fs") (str! "a::fs")] := by
    intro c1 hc1 hc2
    have : ((Perm.withInheritance {} idx.pkgs).get? ⟨pa.name, .all⟩).any
        (fun p => p.perms.imports.isSome) = false := by decide +kernel
    simp only [exportProblem, State.permissions, hc1, hc2, this]
    simp [AMap.get?]
  have hg : graphOutputs P.scan
      { c with paths := recordPaths c.paths crate.pkgId [], outstanding := [] } x cache =
      some { exports := [(pa, str! "fs", str! "a::fs")] } := by
    rcases hc with rfl | rfl
    · simp [graphOutputs, P, h1]
    · simp [graphOutputs, h1, Option.filter]
  refine ⟨{ c with paths := recordPaths c.paths crate.pkgId [], outstanding := [x] }, ?_, ?_, ?_, ?_⟩
  · simp only [handleRequest, req, rustcComplete, ht, checkLink, checkObjects, hg, scanProblems,
      apisUsed, Option.map_some, List.flatMap_cons, List.flatMap_nil, List.append_nil, List.nil_append]
    rw [he { c with paths := recordPaths c.paths crate.pkgId [], outstanding := [] } h1 h0]
    rfl
  · exact h1
  · exact h0
  · rfl

theorem forever (n : Nat) {c : State} {s : Store.State} {tr : List Store.Ev} {cache : Option ScanOut}
    (h1 : c.cfg = {}) (h0 : c.idx = idx) (h2 : c.outstanding = [x])
    (hc : cache = none ∨ cache = some { exports := [(pa, str! "fs", str! "a::fs")] })
    (hs : Store.Run s tr) (hl : Store.live s = []) (hab : s.aborted = false) :
    handleLoop P a {} req n c s cache = none := by
  induction n generalizing c s tr cache with
  | zero => rfl
  | succ n ih =>
    obtain ⟨c', g1, g2, g3, g3'⟩ := round h1 h0 h2 hc
    obtain ⟨s', tr', g4, _, g5⟩ := fixProblems_spec a hs
      (ps := [.possibleExportedApi pa (str! "fs") (str! "a::fs")]) (by simp)
    obtain ⟨g5, g6, g7⟩ := g5 hab (by simp [hl]) (by simp [Fatal, IsWarning, a])
    unfold handleLoop
    rw [g1]
    simp only [List.cons_ne_nil, if_false, g5]
    rw [if_neg (by decide)]
    exact ih rfl g3 g3' (.inr rfl) g4 g6 g7

end C14Ex

/-- **C14, disagreement.** A possible exported API is a warning; the non-interactive UI answers `Continue`
without any change to the configuration, so the same check is repeated, and finds the same warning,
forever. -/
theorem C14_warning_livelock : ¬ C14_Claim := by
  intro h
  have r : SysRun C14Ex.P Checker.C08Ex.idx _ _ _ _ := .load {} (by simp [AMap.keys]) .init
  have r := SysRun.start (.linkerInvoked Checker.C08Ex.x) r
  have r := SysRun.check 0 _ rfl rfl r
  obtain ⟨n, e, he⟩ := h C14Ex.P C14Ex.a _ _ _ _ _ C14Ex.req {} [] r .init
  change handleLoop C14Ex.P C14Ex.a {} C14Ex.req n
    { updateConfig { idx := Checker.C08Ex.idx } {} with outstanding := [Checker.C08Ex.x] } {} none
    = some e at he
  rw [C14Ex.forever n rfl rfl rfl (.inl rfl) .init rfl rfl] at he
  cases he

example : ∃ e, handleLoop C14Ex.P { C14Ex.a with failOnWarnings := true } {} C14Ex.req 1
    { idx := Checker.C08Ex.idx, outstanding := [Checker.C08Ex.x] } {} none = some e :=
  (C14_finishes_partial _ _ _ _ _ _ [] .init (by simp [C14Ex.P]) (.inl ⟨rfl, rfl⟩)).imp fun _ h => h.1

end Cackle.Main
