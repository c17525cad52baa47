import Verif.Props.Help

/-!
# C162: what an error on the screen means

The full-screen user interface shows an error in a popup (full_term.rs:118-121). C162 says that the error has a reason that
can be named, and that nothing was accepted by the key or event that led to it.
-/

namespace Cackle.Ui
open Cackle Store

variable {F E C : Type} [DecidableEq F]

/-! ## Specification -/

/-- Why there is an error after `i` on the screen `s`; `w` is whether the config file can be written. -/
inductive Reason (env : Env F E C) (w : Bool) (s : State F C) : Input → Prop where
  /-- There are no edits for the highlighted problem. -/
  | noFixes : s.modes.head? = some .selectProblem → offered env s = [] → Reason env w s (.key (.char 'f'))
  /-- The highlighted problem has no usages. -/
  | noUsages : s.modes.head? = some .selectProblem ∨ s.modes.head? = some .selectEdit → s.usages = 0 →
      Reason env w s (.key (.char 'd'))
  /-- There is no backtrace for the highlighted usage. -/
  | noBacktrace : s.modes.head? = some .selectUsage →
      (∀ id p n, (live s.store)[s.problemIndex]? = some (id, p) → s.usageIndex < s.usages →
        env.frames p s.usageIndex ≠ some n) → Reason env w s (.key (.char 'b'))
  /-- The comment would not get into the config file. -/
  | noComment : s.modes.head? = some .selectEdit → ¬ Supported env s → Reason env w s (.key (.char 'c'))
  /-- The highlighted edit cannot be applied, or its result cannot be saved. -/
  | cannotAccept {k : Key} {ed : EditM E} : s.modes.head? = some .selectEdit → Accepts k →
      (offered env s)[s.editIndex]? = some ed →
      (w = false ∨ ∀ e, env.parse (s.file.getD env.blank) = some e → (ed.apply s.comment e).2 = false) →
      Reason env w s (.key k)
  /-- One of the only edits cannot be applied, or the result of them all cannot be saved, when auto-accept is confirmed. -/
  | cannotConfirm : s.modes.head? = some .promptAutoAccept →
      (w = false ∨ ∀ e, env.parse (s.file.getD env.blank) = some e → runAll (singles env s.config s.store) e = none) →
      Reason env w s (.key .enter)
  /-- The same when problems are reported after auto-accept was confirmed. -/
  | cannotAutoAccept : s.acceptSingle = true →
      (w = false ∨ ∀ e, env.parse (s.file.getD env.blank) = some e → runAll (singles env s.config s.store) e = none) →
      Reason env w s .added

/-- Several edits are accepted at once. -/
def AutoAccepts (s : State F C) (i : Input) : Prop :=
  (i = .added ∧ s.acceptSingle = true) ∨ (i = .key .enter ∧ s.modes.head? = some .promptAutoAccept)

/-- **C162 (the claim).** Whatever has happened: when an error appears, the key or event that led to it has neither changed the
config file nor settled a problem. -/
def C162_Claim : Prop :=
  ∀ (F E C : Type) [DecidableEq F] (env : Env F E C), env.Sane → ∀ x tr, Exec env x tr → x.error = false →
    ∀ (w : Bool) (i : Input) (x' : Sys F C), (Act.iter w i : Act F C).Possible x → act env x (.iter w i) = some x' →
      x'.error = true → x'.ui.file = x.ui.file ∧ live x'.ui.store = live x.ui.store

/-! ## Lemmas -/

/-- An error from a key that does not write the config file. -/
theorem handleKey_error (env : Env F E C) (w : Bool) {s s' : State F C} {k : Key} (hw : ¬ Writes s k)
    (h : handleKey env w s k = some (s', true)) :
    Reason env w s (.key k) ∧ s'.store = s.store ∧ s'.file = s.file := by
  have hdet : ∀ r, s.modes.head? = some .selectProblem ∨ s.modes.head? = some .selectEdit →
      detailsKey s = some (r, true) → Reason env w s (.key (.char 'd')) ∧ r.store = s.store ∧ r.file = s.file := by
    intro r hm hr
    unfold detailsKey at hr
    split at hr
    · next h0 => cases hr; exact ⟨.noUsages hm h0, rfl, rfl⟩
    · obtain ⟨l, _, h2⟩ := Option.map_eq_some_iff.mp hr
      simp only [Prod.mk.injEq, Bool.false_eq_true, and_false] at h2
  have hcnt : ∀ (o : Option Nat) (f : Nat → State F C), (o.map (fun i => (f i, false))) = some (s', true) → False := by
    intro o f h1
    obtain ⟨l, _, h2⟩ := Option.map_eq_some_iff.mp h1
    simp only [Prod.mk.injEq, Bool.false_eq_true, and_false] at h2
  unfold handleKey at h
  split at h
  · simp [ok] at h
  · rename_i m ms hm
    have hhead : s.modes.head? = some m := by rw [hm]; rfl
    split at h
    · simp [ok] at h
    · split at h
      · simp [ok] at h
      · split at h
        all_goals first
          | exact (hcnt _ _ h).elim
          | (simp [ok] at h; done)
          | exact hdet _ (Or.inl hhead) h
          | exact hdet _ (Or.inr hhead) h
          | (refine (hw (Or.inl (And.intro (a := s.modes.head? = _) ?_ ?_))).elim; exact hhead; exact Or.inl rfl)
          | (refine (hw (Or.inl (And.intro (a := s.modes.head? = _) ?_ ?_))).elim; exact hhead; exact Or.inr (Or.inl rfl))
          | (refine (hw (Or.inl (And.intro (a := s.modes.head? = _) ?_ ?_))).elim; exact hhead; exact Or.inr (Or.inr rfl))
          | (refine (hw (Or.inr (And.intro (a := s.modes.head? = _) ?_ ?_))).elim; exact hhead; exact rfl)
          | skip
        · split at h
          · next h0 =>
            cases h
            exact ⟨.noFixes hhead (by rw [offered_eq]; exact List.length_eq_zero_iff.mp h0), rfl, rfl⟩
          · simp [ok] at h
        · have hb := backtrace_holds h
          rcases hb with ⟨_, h2, h3⟩ | ⟨h2, _⟩
          · exact ⟨.noBacktrace hhead h3, by rw [h2], by rw [h2]⟩
          · cases h2
        · split at h
          · simp [ok] at h
          · next h0 =>
            cases h
            exact ⟨.noComment hhead (fun hs => h0 (supports_iff.mpr hs)), rfl, rfl⟩
        · split at h <;> simp [ok] at h

/-- An error from accepting all only edits. -/
theorem acceptAll_error (env : Env F E C) (w : Bool) {s s' : State F C} {t : List Ev} (hr : Run s.store t)
    (h : acceptAll env w s = some (s', true)) :
    (w = false ∨ ∀ e, env.parse (s.file.getD env.blank) = some e → runAll (singles env s.config s.store) e = none) ∧
      s'.file = s.file := by
  rcases acceptAll_cases env w s hr with ⟨h0, h1⟩ | ⟨e, st, tr', h0, _, _, _, ⟨e', _, _, _, h1⟩ | ⟨h2, h1⟩⟩
  · rw [h1] at h
    cases h
    exact ⟨Or.inr (fun e he => by rw [show openFile env s.file = env.parse (s.file.getD env.blank) from rfl, he] at h0; cases h0),
      rfl⟩
  · rw [h1] at h
    simp at h
  · rw [h1] at h
    cases h
    refine ⟨?_, rfl⟩
    rcases h2 with h2 | h2
    · exact Or.inr (fun e'' he => by
        rw [show openFile env s.file = env.parse (s.file.getD env.blank) from rfl, he] at h0; cases h0; exact h2)
    · exact Or.inl h2

/-! ## Theorems -/

/-- **C162, what holds.** Whatever has happened: when an error appears, there is a reason for it and the config file has not
been changed. Unless edits were being accepted automatically, no problem has been settled either. -/
theorem C162_reason_partial (env : Env F E C) (hs : env.Sane) (x : Sys F C) (tr : List (Sys F C × Act F C))
    (h : Exec env x tr) (herr : x.error = false) (w : Bool) (i : Input) (x' : Sys F C)
    (ha : act env x (.iter w i) = some x') (herr' : x'.error = true) :
    Reason env w x.ui i ∧ x'.ui.file = x.ui.file ∧ (¬ AutoAccepts x.ui i → live x'.ui.store = live x.ui.store) := by
  have hi := exec_inv hs h
  obtain ⟨t, ht⟩ := hi.store
  simp only [act, iterate] at ha
  split at ha
  · cases ha; rw [herr] at herr'; cases herr'
  · split at ha
    · cases i with
      | nothing =>
        cases ha
        rw [draw_error, checkQuit_error, herr] at herr'; cases herr'
      | shutdown =>
        cases ha
        change (draw (checkQuit x)).error = true at herr'
        rw [draw_error, checkQuit_error, herr] at herr'; cases herr'
      | added =>
        obtain ⟨r, h1, rfl⟩ := Option.map_eq_some_iff.mp ha
        change ((draw (checkQuit x)).error || r.2) = true at herr'
        rw [draw_error, checkQuit_error, herr, Bool.false_or] at herr'
        obtain ⟨s', b⟩ := r
        change b = true at herr'
        subst herr'
        rw [draw_ui] at h1
        unfold problemsAdded at h1
        split at h1
        · next hacc =>
          rw [checkQuit_accept] at hacc
          have hrun : ∃ t', Run (checkQuit x).ui.store t' := by
            rcases checkQuit_ui_or x with h2 | h2 <;> rw [h2]
            · exact ⟨t, ht⟩
            · exact ⟨_, run_abort ht⟩
          obtain ⟨t', ht'⟩ := hrun
          obtain ⟨h2, h3⟩ := acceptAll_error env w ht' h1
          rw [checkQuit_file, checkQuit_singles] at h2
          rw [checkQuit_file] at h3
          exact ⟨.cannotAutoAccept hacc h2, h3, fun hn => absurd (Or.inl ⟨rfl, hacc⟩) hn⟩
        · cases h1
      | key k =>
        simp only [receive, draw_error, checkQuit_error, herr, Bool.false_eq_true, if_false, draw_ui] at ha
        obtain ⟨⟨s', b⟩, h1, rfl⟩ := Option.map_eq_some_iff.mp ha
        change b = true at herr'
        subst herr'
        by_cases hwr : Writes x.ui k
        · rcases hwr with ⟨hm, hk⟩ | ⟨hm, rfl⟩
          · rw [checkQuit_of_head hm, handleKey_accept env w hm hk] at h1
            rcases acceptKey_cases env hs w x.ui ht with ⟨h2, _⟩ | ⟨ed, h2, h3, h4⟩ | ⟨_, _, _, _, _, _, _, _, _, _, _, h2, _⟩
            · rw [h2] at h1; simp at h1
            · rw [h3] at h1
              cases h1
              rw [← offered_eq] at h2
              exact ⟨.cannotAccept hm hk h2 h4, rfl, fun _ => rfl⟩
            · rw [h2] at h1; simp at h1
          · rw [checkQuit_of_head hm, handleKey_confirm env w hm] at h1
            unfold confirmKey at h1
            split at h1
            · cases h1
            · next h2 =>
              cases h1
              obtain ⟨h3, h4⟩ := acceptAll_error env w (s := { x.ui with acceptSingle := true }) ht h2
              exact ⟨.cannotConfirm hm h3, h4, fun hn => absurd (Or.inr ⟨rfl, hm⟩) hn⟩
            · simp [ok] at h1
        · rcases checkQuit_ui x with ⟨_, h2⟩ | ⟨h2, h3⟩
          · rw [h2] at h1
            obtain ⟨h3, h4, h5⟩ := handleKey_error env w hwr h1
            exact ⟨h3, h5, fun _ => by show live s'.store = _; rw [h4]⟩
          · have hm : (checkQuit x).ui.modes = [] := by rw [checkQuit_modes, h2]
            unfold handleKey at h1
            rw [hm] at h1
            simp [ok] at h1
    · cases ha
      have : (start x i).error = x.error := by cases i <;> rfl
      rw [this, herr] at herr'; cases herr'

/-- The proc macro `a` is reported, and the user asks for the only edits to be accepted. -/
def autoPrompt : List (Act (List Str) Bool) := reported [macroA] ++ [press (.char 'a')]

/-- **C162 is false.** The config file cannot be written when auto-accept is confirmed: an error is shown, but the problem is
settled, so the compilation that waits for it goes on although the config file does not allow the proc macro. -/
theorem C162_settled_unsaved : ¬ C162_Claim := by
  intro h
  have h1 : (demoRun autoPrompt).isSome = true := by decide
  obtain ⟨x, hx⟩ := some_of_isSome h1
  obtain ⟨tr, he⟩ := demo_exec hx
  have h2 : ((demoRun autoPrompt).bind (fun x => act demo x (.iter false (.key .enter)))).map
      (fun x => (x.error, (live x.ui.store).length, x.ui.file)) = some (true, 0, none) := by decide
  have h4 : (demoRun autoPrompt).map (fun x => (x.error, (live x.ui.store).length)) = some (false, 1) := by decide
  rw [hx] at h2 h4
  simp only [Option.bind_some, Option.map_some, Option.some.injEq, Prod.mk.injEq] at h2 h4
  obtain ⟨x', hx', h3⟩ := Option.map_eq_some_iff.mp h2
  simp only [Prod.mk.injEq] at h3
  have := (h _ _ _ demo demo_sane x tr he h4.1 false (.key .enter) x' trivial hx' h3.1).2
  have h5 := h3.2.1
  rw [this, h4.2] at h5
  cases h5

/-- Non-vacuity: errors in four situations, after which the file and the problem are as before. -/
example : ([reported [macroA] ++ [press (.char 'd')], reported [macroA] ++ [press (.char 'f'), .iter false (.key .enter)],
    reported [macroA] ++ [press (.char 'f'), press (.char 'd')], autoPrompt ++ [press .esc, press (.char 'd')]].map
    (fun as => (demoRun as).map (fun x => (x.error, (live x.ui.store).length, x.ui.file.isNone)))) =
    [some (true, 1, true), some (true, 1, true), some (true, 1, true), some (true, 1, true)] := by decide

end Cackle.Ui
