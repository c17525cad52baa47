import Verif.Props.ProblemsUi

/-!
# C163: when the full-screen user interface takes over the terminal and when it gives it back

Until the first problem is reported, the terminal belongs to cargo. From then on the user interface draws on it, until it is
told that the run is over (full_term.rs:98-147).
-/

namespace Cackle.Ui
open Cackle Store

variable {F E C : Type} [DecidableEq F]

/-- The thread was told that the run is over. -/
def ToldToEnd (tr : List (Sys F C × Act F C)) : Prop := ∃ y w, (y, Act.iter w .shutdown) ∈ tr

/-- The thread was told about problems, and not after it was told that the run is over. -/
def ToldProblems (tr : List (Sys F C × Act F C)) : Prop :=
  ∃ pre post y w, tr = post ++ (y, Act.iter w .added) :: pre ∧ ¬ ToldToEnd pre

theorem ToldToEnd.cons {tr : List (Sys F C × Act F C)} {y : Sys F C} {a : Act F C} :
    ToldToEnd ((y, a) :: tr) ↔ (∃ w, a = .iter w .shutdown) ∨ ToldToEnd tr := by
  unfold ToldToEnd
  constructor
  · rintro ⟨z, w, h⟩
    rcases List.mem_cons.mp h with h | h
    · exact Or.inl ⟨w, (Prod.mk.inj h).2.symm⟩
    · exact Or.inr ⟨z, w, h⟩
  · rintro (⟨w, rfl⟩ | ⟨z, w, h⟩)
    · exact ⟨y, w, List.mem_cons_self ..⟩
    · exact ⟨z, w, List.mem_cons_of_mem _ h⟩

theorem ToldProblems.cons {tr : List (Sys F C × Act F C)} {y : Sys F C} {a : Act F C} :
    ToldProblems ((y, a) :: tr) ↔ ((∃ w, a = .iter w .added) ∧ ¬ ToldToEnd tr) ∨ ToldProblems tr := by
  unfold ToldProblems
  constructor
  · rintro ⟨pre, post, z, w, h, hn⟩
    cases post with
    | nil =>
      simp only [List.nil_append, List.cons.injEq, Prod.mk.injEq] at h
      obtain ⟨⟨_, h1⟩, rfl⟩ := h
      exact Or.inl ⟨⟨w, h1⟩, hn⟩
    | cons b post =>
      simp only [List.cons_append, List.cons.injEq] at h
      exact Or.inr ⟨pre, post, z, w, h.2, hn⟩
  · rintro (⟨⟨w, rfl⟩, hn⟩ | ⟨pre, post, z, w, rfl, hn⟩)
    · exact ⟨tr, [], y, w, rfl, hn⟩
    · exact ⟨pre, (y, a) :: post, z, w, rfl, hn⟩

/-- What an iteration does to the life of the thread. -/
theorem iterate_life {env : Env F E C} {w : Bool} {x x' : Sys F C} {i : Input} (h : iterate env w x i = some x') :
    (x'.ended = true ↔ x.ended = true ∨ i = .shutdown) ∧
    (x'.started = true ↔ x.started = true ∨ (i = .added ∧ x.ended = false)) ∧
    (x'.shown = none ∨ x.started = true ∨ x'.shown = x.shown) ∧
    (x.ended = true ∨ x.started = false → x'.ui = x.ui ∧ x'.error = x.error ∧ x'.killed = x.killed ∧ x'.shown = x.shown) := by
  unfold iterate at h
  split at h
  · next he => cases h; simp [he]
  · next he =>
    have he : x.ended = false := by simpa using he
    split at h
    · next hst =>
      have hs : (draw (checkQuit x)).started = true := by
        rw [draw_started]; unfold checkQuit; split <;> exact hst
      have hn : (draw (checkQuit x)).ended = false := by
        rw [draw_ended]; unfold checkQuit; split <;> exact he
      cases i with
      | nothing => cases h; simp [hs, hn, he, hst]
      | shutdown => cases h; simp [hs, he, hst]
      | added =>
        obtain ⟨r, _, rfl⟩ := Option.map_eq_some_iff.mp h
        simp [hs, hn, he, hst]
      | key k =>
        simp only [receive] at h
        split at h
        · cases h
          simp [dismiss, hs, hn, he, hst]
        · obtain ⟨r, _, rfl⟩ := Option.map_eq_some_iff.mp h
          simp [hs, hn, he, hst]
    · next hst =>
      have hst : x.started = false := by simpa using hst
      cases h
      cases i <;> simp [start, he, hst]

/-- **C163.** Whatever has happened: the thread has ended if and only if it was told that the run is over; it has taken over
the terminal if and only if it was told about problems before that; nothing is drawn before; and as long as it has not taken
over the terminal, and after it has ended, keys and events have no effect on the problems, the config file and the build. -/
theorem C163_life (env : Env F E C) (x : Sys F C) (tr : List (Sys F C × Act F C)) (h : Exec env x tr) :
    (x.ended = true ↔ ToldToEnd tr) ∧ (x.started = true ↔ ToldProblems tr) ∧ (¬ ToldProblems tr → x.shown = none) ∧
    ∀ (w : Bool) (i : Input) (x' : Sys F C), act env x (.iter w i) = some x' → ToldToEnd tr ∨ ¬ ToldProblems tr →
      x'.ui = x.ui ∧ x'.error = x.error ∧ x'.killed = x.killed ∧ x'.shown = x.shown := by
  have key : (x.ended = true ↔ ToldToEnd tr) ∧ (x.started = true ↔ ToldProblems tr) ∧ (¬ ToldProblems tr → x.shown = none) := by
    induction h with
    | init file c =>
      refine ⟨?_, ?_, fun _ => rfl⟩
      · simp [ToldToEnd]
      · simp [ToldProblems]
    | @step x x' tr a hx hp ha ih =>
      obtain ⟨h1, h2, h3⟩ := ih
      have same : (∀ w i, a ≠ .iter w i) → x'.ended = x.ended → x'.started = x.started → x'.shown = x.shown →
          (x'.ended = true ↔ ToldToEnd ((x, a) :: tr)) ∧ (x'.started = true ↔ ToldProblems ((x, a) :: tr)) ∧
            (¬ ToldProblems ((x, a) :: tr) → x'.shown = none) := by
        intro hne e1 e2 e3
        rw [ToldToEnd.cons, ToldProblems.cons, e1, e2, e3, h1, h2]
        have n1 : ¬ ∃ w, a = .iter w .shutdown := fun ⟨w, h⟩ => hne _ _ h
        have n2 : ¬ ∃ w, a = .iter w .added := fun ⟨w, h⟩ => hne _ _ h
        simp only [n1, n2, false_and, false_or, true_and]
        exact h3
      cases a with
      | report ps =>
        obtain ⟨r, _, rfl⟩ := Option.map_eq_some_iff.mp ha
        exact same (by simp) rfl rfl rfl
      | reload c => cases ha; exact same (by simp) rfl rfl rfl
      | touch f => cases ha; exact same (by simp) rfl rfl rfl
      | iter w i =>
        obtain ⟨g1, g2, g3, _⟩ := iterate_life (show iterate env w x i = some x' from ha)
        rw [ToldToEnd.cons, ToldProblems.cons]
        refine ⟨?_, ?_, ?_⟩
        · rw [g1, h1]
          simp only [Act.iter.injEq, exists_and_right, exists_eq', true_and]
          exact Or.comm
        · rw [g2, h2, ← Bool.not_eq_true, h1]
          simp only [Act.iter.injEq, exists_and_right, exists_eq', true_and]
          exact Or.comm
        · intro hn
          have hn2 : ¬ ToldProblems tr := fun h => hn (Or.inr h)
          rcases g3 with g3 | g3 | g3
          · exact g3
          · exact absurd (h2.mp g3) hn2
          · rw [g3]; exact h3 hn2
  refine ⟨key.1, key.2.1, key.2.2, ?_⟩
  intro w i x' ha hc
  refine (iterate_life (show iterate env w x i = some x' from ha)).2.2.2 ?_
  rcases hc with hc | hc
  · exact Or.inl (key.1.mpr hc)
  · right
    rw [← key.2.1] at hc
    simpa using hc

/-- Non-vacuity: keys before the first problem, the first problem, a key, the end of the run, and keys after it. -/
example : ([[press (.char 'q'), .iter true .nothing], reported [macroA], reported [macroA] ++ [press (.char 'f')],
    reported [macroA] ++ [press (.char 'f'), .iter true .shutdown],
    reported [macroA] ++ [press (.char 'f'), .iter true .shutdown, press (.char 'q'), press .enter],
    [.iter true .shutdown] ++ reported [macroA]].map
      (fun as => (demoRun as).map (fun x => (x.started, x.ended, x.shown.isSome, x.ui.modes.length)))) =
    [some (false, false, false, 1), some (true, false, false, 1), some (true, false, true, 2), some (true, true, true, 2),
      some (true, true, true, 2), some (false, true, false, 1)] := by decide

end Cackle.Ui
