import Verif.Model.NullUi
import Verif.Props.Store

/-!
# C13 (decision of the non-interactive UI), C52 (nobody waits forever)
-/

namespace Cackle.NullUi
open Cackle Store

/-- Problems that are only warnings. -/
def IsWarning : Problem → Prop
  | .unusedAllowApi .. | .unusedPackageConfig .. | .possibleExportedApi ..
  | .newConfigVersionAvailable .. | .availableApi .. => True
  | _ => False

/-- When a problem makes the non-interactive UI fail. -/
def Fatal (a : Args) (p : Problem) : Prop :=
  ¬ IsWarning p ∨ (IsWarning p ∧ a.failOnWarnings = true ∧ a.hasCommand = false)

theorem countsAsError_iff (a : Args) (p : Problem) : countsAsError a p = true ↔ Fatal a p := by
  have : p.severity = .warning ↔ IsWarning p := by cases p <;> simp [Problem.severity, IsWarning]
  have h2 : p.severity = .error ↔ ¬ IsWarning p := by cases p <;> simp [Problem.severity, IsWarning]
  unfold countsAsError Fatal
  cases hs : p.severity with
  | warning =>
    have hw := this.mp hs
    cases hc : a.hasCommand <;> cases hf : a.failOnWarnings <;> simp [hw]
  | error =>
    have hw := h2.mp hs
    simp [hw]

/-- Number of unresolved problems. -/
theorem live_length_le (s : State) : (live s).length ≤ s.problems.length := by
  unfold live
  refine Nat.le_trans (List.length_filterMap_le _ _) ?_
  simp

theorem live_set_none (ps : List (Option Problem)) (id n : Nat) (p : Problem)
    (h : ps[id]? = some (some p)) :
    ((((ps.set id none).zipIdx n).filterMap (fun (p, i) => p.map (fun p => (i, p)))).length + 1 : Nat) =
      ((ps.zipIdx n).filterMap (fun (p, i) => p.map (fun p => (i, p)))).length := by
  induction ps generalizing id n with
  | nil => simp at h
  | cons x xs ih =>
    cases id with
    | zero =>
      simp only [List.getElem?_cons_zero, Option.some.injEq] at h
      subst h
      simp
    | succ id =>
      simp only [List.getElem?_cons_succ] at h
      simp only [List.set_cons_succ, List.zipIdx_cons, List.filterMap_cons]
      have := ih id (n + 1) h
      cases x <;> simp <;> omega

theorem resolve_live {s : State} {id : Nat} {p : Problem} (h : (id, p) ∈ live s) :
    ∃ s' ids, step s (.replace id []) = some (s', .replaced id ids) ∧
      resolve s id = some (s', ids) ∧ (live s').length + 1 = (live s).length ∧
      s'.aborted = s.aborted ∧ s'.problems = s.problems.set id none := by
  have hp := mem_live.mp h
  have hr : replace s id [] = some ({ s with
      problems := s.problems.set id none
      entries := (notifyAll id [] s.entries).1
      sent := s.sent ++ (notifyAll id [] s.entries).2
      idByKey := s.idByKey.erase p.dedupKey }, []) := by
    simp [replace, hp, addProblems]
  refine ⟨_, [], by simp only [step, hr, Option.map_some], hr, ?_, rfl, rfl⟩
  exact live_set_none s.problems id 0 p hp

/-- The trace only gained resolutions. -/
def OnlyResolved (tr tr' : List Ev) : Prop :=
  ∃ new, tr' = new ++ tr ∧ ∀ e ∈ new, ∃ id ids, e = .replaced id ids

theorem OnlyResolved.refl (tr : List Ev) : OnlyResolved tr tr := ⟨[], rfl, by simp⟩
theorem OnlyResolved.cons {tr tr' : List Ev} {id : Nat} {ids : List Nat}
    (h : OnlyResolved (.replaced id ids :: tr) tr') : OnlyResolved tr tr' := by
  obtain ⟨new, rfl, h⟩ := h
  refine ⟨new ++ [.replaced id ids], by simp, ?_⟩
  intro e he
  rcases List.mem_append.mp he with he | he
  · exact h e he
  · simp only [List.mem_singleton] at he
    exact ⟨id, ids, he⟩

theorem resolveAll_spec {n : Nat} {s : State} {tr : List Ev} (h : Run s tr)
    (hn : (live s).length < n) :
    ∃ s' tr', resolveAll n s = some s' ∧ Run s' tr' ∧ OnlyResolved tr tr' ∧ live s' = [] ∧
      s'.aborted = s.aborted := by
  induction n generalizing s tr with
  | zero => omega
  | succ n ih =>
    unfold resolveAll
    cases hl : live s with
    | nil => exact ⟨s, tr, rfl, h, .refl tr, hl, rfl⟩
    | cons e rest =>
      obtain ⟨id, p⟩ := e
      obtain ⟨s', ids, h1, h2, h3, h4, _⟩ := resolve_live (s := s) (id := id) (p := p) (by simp [hl])
      simp only [h2]
      obtain ⟨s2, tr2, g1, g2, g3, g4, g5⟩ := ih (Run.step _ h h1) (by omega)
      exact ⟨s2, tr2, g1, g2, g3.cons, g4, g5.trans h4⟩

/-- Everybody who reported problems has an answer. -/
def AllAnswered (s : State) (tr : List Ev) : Prop :=
  ∀ w ids, Ev.added w ids ∈ tr → ∃ o, (w, o) ∈ s.sent

theorem answered_of_no_live {s : State} {tr : List Ev} (h : Run s tr) (hl : live s = []) :
    AllAnswered s tr := by
  intro w ids hw
  apply (C10_waiters s tr h w ids hw).2.2.2.1
  intro id ho
  rcases (inv_run h).issued w id ho with ⟨p, hp⟩ | hd
  · have : (id, p) ∈ live s := mem_live.mpr hp
    rw [hl] at this
    simp at this
  · exact hd

/-- **C13.** Whatever the history of the store, handling a batch of problems without auto-accept:
* if some live problem is fatal, the store is aborted (and, see C15, the exit status is a failure);
* otherwise nothing is aborted and no live problem remains;
* either way everybody waiting has an answer, which is `GiveUp` only if the store was aborted. -/
theorem C13_decision (F E : Type) (ed : Edits F E) (a : Args) (ha : a.autoAccept = false) (f : F)
    (s : State) (tr : List Ev) (h : Run s tr) :
    ∃ s' tr', onProblemsAdded ed a s f = some (s', some f) ∧ Run s' tr' ∧
      ((∃ id p, (id, p) ∈ live s ∧ Fatal a p) → s'.aborted = true ∧ tr' = .aborted :: tr) ∧
      ((∀ id p, (id, p) ∈ live s → ¬ Fatal a p) →
        s'.aborted = s.aborted ∧ live s' = [] ∧ OnlyResolved tr tr') ∧
      AllAnswered s' tr' := by
  unfold onProblemsAdded report
  simp only [ha, Bool.false_eq_true, if_false]
  by_cases hf : ∃ id p, (id, p) ∈ live s ∧ Fatal a p
  · have hany : (live s).any (fun e => countsAsError a e.2) = true := by
      obtain ⟨id, p, h1, h2⟩ := hf
      exact List.any_eq_true.mpr ⟨(id, p), h1, (countsAsError_iff a p).mpr h2⟩
    have hr : Run (abort s) (.aborted :: tr) := Run.step .abort h rfl
    refine ⟨abort s, .aborted :: tr, by simp [hany], hr, fun _ => ⟨rfl, rfl⟩, ?_, ?_⟩
    · intro hno
      obtain ⟨id, p, h1, h2⟩ := hf
      exact absurd h2 (hno id p h1)
    · intro w ids hw
      refine answered_after_abort hr [] tr rfl w ids ?_
      simpa using hw
  · have hany : (live s).any (fun e => countsAsError a e.2) = false := by
      rw [List.any_eq_false]
      intro e he hc
      exact hf ⟨e.1, e.2, he, (countsAsError_iff a e.2).mp hc⟩
    obtain ⟨s', tr', g1, g2, g3, g4, g5⟩ :=
      resolveAll_spec h (n := s.problems.length + 1) (by have := live_length_le s; omega)
    refine ⟨s', tr', by simp [hany, g1], g2, fun h => absurd h hf, fun _ => ⟨g5, g4, g3⟩,
      answered_of_no_live g2 g4⟩

/-! Non-vacuity for C13: an unused-permission warning alone, and together with an error. -/
private def warn : Problem := .unusedPackageConfig ⟨str! "a", .all⟩
private def noEdits : Edits Unit Unit := ⟨fun _ => none, some, fun _ _ => some ()⟩
example : ¬ Fatal {} warn ∧ Fatal { failOnWarnings := true } warn ∧ Fatal {} .selectSandbox ∧
    ¬ Fatal { failOnWarnings := true, hasCommand := true } warn := by simp [Fatal, IsWarning, warn]
example : ((step {} (.add [warn])).bind (fun r => onProblemsAdded noEdits {} r.1 ())).map
    (fun r => (r.1.aborted, r.1.sent)) = some (false, [(0, .continue_)]) := by decide
example : ((step {} (.add [warn, .selectSandbox])).bind (fun r => onProblemsAdded noEdits {} r.1 ())).map
    (fun r => (r.1.aborted, r.1.sent)) = some (true, [(0, .giveUp)]) := by decide

/-! ## Auto-accept -/

theorem firstEdit_some {F E : Type} {ed : Edits F E} {s : State} {id : Nat} {ap : E → Option E}
    (h : firstEdit ed s = some (id, ap)) : ∃ p, (id, p) ∈ live s ∧ ed.first p = some ap := by
  obtain ⟨e, he, h⟩ := List.exists_of_findSome?_eq_some h
  obtain ⟨a, h1, h2⟩ := Option.map_eq_some_iff.mp h
  simp only [Prod.mk.injEq] at h2
  obtain ⟨rfl, rfl⟩ := h2
  exact ⟨e.2, he, h1⟩

theorem firstEdit_none {F E : Type} {ed : Edits F E} {s : State} (h : firstEdit ed s = none) :
    ∀ id p, (id, p) ∈ live s → ed.first p = none := by
  intro id p hm
  have := List.findSome?_eq_none_iff.mp h (id, p) hm
  simpa using this

theorem acceptLoop_spec {F E : Type} (ed : Edits F E) {n : Nat} {s : State} {tr : List Ev} (h : Run s tr)
    (hn : (live s).length < n) (e : E) (k : Nat) :
    ∃ s' tr' r, acceptLoop ed n s e k = some (s', r) ∧ Run s' tr' ∧ OnlyResolved tr tr' ∧
      s'.aborted = s.aborted ∧
      (r.isSome → ∀ id p, (id, p) ∈ live s' → ed.first p = none) := by
  induction n generalizing s tr e k with
  | zero => omega
  | succ n ih =>
    unfold acceptLoop
    cases hf : firstEdit ed s with
    | none => exact ⟨s, tr, _, rfl, h, .refl tr, rfl, fun _ => firstEdit_none hf⟩
    | some r =>
      obtain ⟨id, ap⟩ := r
      obtain ⟨p, hp, _⟩ := firstEdit_some hf
      cases ha : ap e with
      | none => exact ⟨s, tr, none, by simp [ha], h, .refl tr, rfl, by simp⟩
      | some e' =>
        obtain ⟨s', ids, h1, h2, h3, h4, _⟩ := resolve_live hp
        obtain ⟨s2, tr2, r, g1, g2, g3, g4, g5⟩ := ih (Run.step _ h h1) (by omega) e' (k + 1)
        exact ⟨s2, tr2, r, by simp [ha, h2, g1], g2, g3.cons, g4.trans h4, g5⟩

/-- With or without auto-accept, handling an event never panics and never loops; if the UI thread
survives it, everybody waiting has an answer. -/
theorem onProblemsAdded_spec {F E : Type} (ed : Edits F E) (a : Args) (f : F) {s : State}
    {tr : List Ev} (h : Run s tr) :
    ∃ s' tr' r, onProblemsAdded ed a s f = some (s', r) ∧ Run s' tr' ∧
      (∀ e ∈ tr, e ∈ tr') ∧ (∀ w ids, Ev.added w ids ∈ tr' → Ev.added w ids ∈ tr) ∧
      (r.isSome → AllAnswered s' tr') ∧ (a.autoAccept = false → r = some f) := by
  have mono : ∀ {t t' : List Ev}, OnlyResolved t t' →
      (∀ e ∈ t, e ∈ t') ∧ (∀ w ids, Ev.added w ids ∈ t' → Ev.added w ids ∈ t) := by
    rintro t t' ⟨new, rfl, hnew⟩
    refine ⟨fun e he => List.mem_append_right _ he, ?_⟩
    intro w ids hm
    rcases List.mem_append.mp hm with hm | hm
    · obtain ⟨_, _, hx⟩ := hnew _ hm; cases hx
    · exact hm
  have rep : ∀ {s1 : State} {t : List Ev}, Run s1 t → ∃ s' tr', report a s1 = some s' ∧ Run s' tr' ∧
      (∀ e ∈ t, e ∈ tr') ∧ (∀ w ids, Ev.added w ids ∈ tr' → Ev.added w ids ∈ t) ∧
      AllAnswered s' tr' := by
    intro s1 t h1
    obtain ⟨s', tr', g1, g2, g3, g4, g5⟩ := C13_decision F E ed { a with autoAccept := false } rfl f s1 t h1
    have hrep : report a s1 = some s' := by
      simp only [onProblemsAdded, Bool.false_eq_true, if_false, Option.map_eq_some_iff,
        Prod.mk.injEq] at g1
      obtain ⟨x, hx, rfl, _⟩ := g1
      exact hx
    refine ⟨s', tr', hrep, g2, ?_, ?_, g5⟩
    · by_cases hf : ∃ id p, (id, p) ∈ live s1 ∧ Fatal { a with autoAccept := false } p
      · rw [(g3 hf).2]; exact fun e he => List.mem_cons_of_mem _ he
      · exact (mono (g4 (fun id p hm hx => hf ⟨id, p, hm, hx⟩)).2.2).1
    · by_cases hf : ∃ id p, (id, p) ∈ live s1 ∧ Fatal { a with autoAccept := false } p
      · rw [(g3 hf).2]; intro w ids hm; simpa using hm
      · exact (mono (g4 (fun id p hm hx => hf ⟨id, p, hm, hx⟩)).2.2).2
  unfold onProblemsAdded
  cases ha : a.autoAccept with
  | false =>
    obtain ⟨s', tr', g1, g2, g3, g4, g5⟩ := rep h
    exact ⟨s', tr', some f, by simp [g1], g2, g3, g4, fun _ => g5, fun _ => rfl⟩
  | true =>
    simp only [if_true]
    unfold acceptAll
    cases ho : ed.open_ f with
    | none => exact ⟨s, tr, none, rfl, h, fun _ h => h, fun _ _ h => h, by simp, by simp⟩
    | some e =>
      obtain ⟨s1, tr1, r, g1, g2, g3, g4, g5⟩ :=
        acceptLoop_spec ed h (n := s.problems.length + 1) (by have := live_length_le s; omega) e 0
      simp only [g1, Option.map_some]
      obtain ⟨m1, m2⟩ := mono g3
      cases hfa : finishAccept ed f (s1, r) with
      | mk s2 r2 =>
        have hs2 : s2 = s1 := by
          cases r with
          | none => simp [finishAccept] at hfa; exact hfa.1.symm
          | some x => obtain ⟨x, y⟩ := x; simp [finishAccept] at hfa; exact hfa.1.symm
        subst hs2
        cases r2 with
        | none => exact ⟨s2, tr1, none, rfl, g2, m1, m2, by simp, by simp⟩
        | some f' =>
          obtain ⟨s3, tr3, k1, k2, k3, k4, k5⟩ := rep g2
          exact ⟨s3, tr3, some f', by simp [k1], k2, fun e he => k3 e (m1 e he),
            fun w ids hm => m2 w ids (k4 w ids hm), fun _ => k5, by simp⟩

/-! ## C52: nobody waits forever -/

/-- All executions of the store, any number of reporting threads and the non-interactive UI thread. -/
inductive URun {F E : Type} (ed : Edits F E) (a : Args) (f0 : F) : Sys F → List Ev → Prop where
  | init : URun ed a f0 { file := f0 } []
  /-- Some thread reports problems; an event is sent (problem_store.rs:70-86). -/
  | report {x : Sys F} {tr : List Ev} (ps : List Problem) (s' : State) (ev : Ev) :
      URun ed a f0 x tr → step x.store (.add ps) = some (s', ev) →
      URun ed a f0 { x with store := s', pending := x.pending + 1 } (ev :: tr)
  /-- The UI thread handles an event. -/
  | event {x : Sys F} {tr tr' : List Ev} (s' : State) (r : Option F) :
      URun ed a f0 x tr → x.alive = true → x.pending > 0 →
      onProblemsAdded ed a x.store x.file = some (s', r) → Run s' tr' →
      (∀ w ids, Ev.added w ids ∈ tr' ↔ Ev.added w ids ∈ tr) →
      URun ed a f0 { store := s', file := r.getD x.file, alive := r.isSome, pending := x.pending - 1 } tr'

/-- The UI thread has nothing more to do: it waits for an event and there is none, or it has ended. -/
def Quiet {F : Type} (x : Sys F) : Prop := x.alive = false ∨ x.pending = 0

/-- The English claim C52: when the UI thread has nothing more to do, nobody is waiting for an answer. -/
def C52_Claim : Prop :=
  ∀ (F E : Type) (ed : Edits F E) (a : Args) (f0 : F) (x : Sys F) (tr : List Ev),
    URun ed a f0 x tr → Quiet x → AllAnswered x.store tr

theorem urun_inv {F E : Type} {ed : Edits F E} {a : Args} {f0 : F} {x : Sys F} {tr : List Ev}
    (h : URun ed a f0 x tr) : Run x.store tr ∧
      (x.alive = true → x.pending = 0 → AllAnswered x.store tr) ∧
      (a.autoAccept = false → x.alive = true) := by
  induction h with
  | init => exact ⟨.init, by simp [AllAnswered], fun _ => rfl⟩
  | report ps s' ev h hs ih =>
    exact ⟨.step _ ih.1 hs, by simp, ih.2.2⟩
  | @event x tr tr' s' r h ha hp ho hr hm ih =>
    obtain ⟨s2, tr2, r2, g1, g2, g3, g4, g5, g6⟩ := onProblemsAdded_spec ed a x.file ih.1
    rw [g1] at ho
    simp only [Option.some.injEq, Prod.mk.injEq] at ho
    obtain ⟨rfl, rfl⟩ := ho
    refine ⟨hr, ?_, ?_⟩
    · intro hal _ w ids hw
      exact g5 hal w ids (g3 _ ((hm w ids).mp hw))
    · intro hauto
      rw [g6 hauto]
      rfl

/-- **C52 (partial).** As long as the UI thread has not ended with an error, everybody has an answer
once all events are handled; without auto-accept the thread never ends with an error. -/
theorem C52_answered_partial (F E : Type) (ed : Edits F E) (a : Args) (f0 : F) (x : Sys F) (tr : List Ev)
    (h : URun ed a f0 x tr) (hq : x.pending = 0) (ha : x.alive = true ∨ a.autoAccept = false) :
    AllAnswered x.store tr := by
  have := urun_inv h
  rcases ha with ha | ha
  · exact this.2.1 ha hq
  · exact this.2.1 (this.2.2 ha) hq

/-- The UI can always handle a pending event while it is alive (so the previous theorem is not vacuous). -/
theorem C52_progress (F E : Type) (ed : Edits F E) (a : Args) (f0 : F) (x : Sys F) (tr : List Ev)
    (h : URun ed a f0 x tr) (ha : x.alive = true) (hp : x.pending > 0) :
    ∃ x' tr', URun ed a f0 x' tr' ∧ x'.pending + 1 = x.pending := by
  obtain ⟨s2, tr2, r2, g1, g2, g3, g4, g5, g6⟩ := onProblemsAdded_spec ed a x.file (urun_inv h).1
  exact ⟨_, tr2, .event s2 r2 h ha hp g1 g2 (fun w ids => ⟨g4 w ids, g3 _⟩), by simp; omega⟩

/-- **C52, disagreement.** With auto-accept and a config file that cannot be written the UI thread ends
while threads are still waiting: the first batch of problems is answered, the second never is. -/
theorem C52_waits_forever : ¬ C52_Claim := by
  intro hc
  let ed : Edits Unit Unit := ⟨fun _ => some some, some, fun _ _ => none⟩
  have r0 : URun ed { autoAccept := true } () _ _ := .init
  have r1 := URun.report [.selectSandbox] _ _ r0 rfl
  have r2 := URun.event (tr' := [.replaced 0 [], .added 0 [0]]) _ _ r1 rfl (by decide) rfl
    (Run.step (.replace 0 []) (Run.step (.add [.selectSandbox]) .init rfl) rfl) (by simp)
  have r3 := URun.report [.selectSandbox] _ _ r2 rfl
  obtain ⟨o, ho⟩ := hc _ _ ed _ () _ _ r3 (.inl rfl) 1 [1] (List.mem_cons_self ..)
  revert ho
  cases o <;> decide

end Cackle.NullUi
