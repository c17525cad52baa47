import Verif.Lemmas.ProblemsUi

/-!
# C85 to C93: the full-screen user interface

An execution (`Exec`) interleaves iterations of the loop of the user interface with reports of problems, reloads of the
config and changes of the config file by others.
-/

namespace Cackle.Ui
open Cackle Store

variable {F E C : Type} [DecidableEq F]

/-! ## An example

The config file is a list of lines, edits append a line and their comment unless the line is there. -/

/-- An edit that adds a line. -/
def line (s : Str) : EditM (List Str) :=
  { apply := fun c e => if s ∈ e then (e, true) else (e ++ [s] ++ c.toList, true), repl := [], resolveIfEmpty := true }

/-- The number of edits depends on the kind of problem and, for API usages, on the loaded config. -/
def demo : Env (List Str) (List Str) Bool :=
  { fixes := fun c p => match p with
      | .isProcMacro pkg => [line pkg.name]
      | .missingConfiguration _ => [{ line (str! "recommended") with repl := [.selectSandbox] }, line (str! "custom")]
      | .selectSandbox => [line (str! "bubblewrap"), line (str! "disabled")]
      | .importStdApi a => [line a, line (str! "inline"), line (str! "ignore")]
      | .disallowedApiUsage u => if c then [line u.api] else [line u.api, line (str! "exclude")]
      | .offTreeApiUsage u _ => if c then [line (str! "include"), line u.api] else [line u.api]
      | _ => []
    parse := some
    blank := []
    print := fun e => e
    mentions := fun f s => f.contains s
    typed := fun k s => match k with
      | .char c => s ++ [c]
      | _ => s
    frames := fun _ _ => some 2 }

theorem demo_sane : demo.Sane := by
  intro c p ed hed r hr
  cases p <;> simp only [demo, List.mem_cons, List.not_mem_nil, or_false] at hed
  all_goals first
    | exact hed.elim
    | (subst hed; exact absurd hr (by simp [line]))
    | skip
  · rcases hed with rfl | rfl
    · simp only [List.mem_singleton] at hr
      subst hr
      simp [Problem.Same]
    · exact absurd hr (by simp [line])
  all_goals first
    | (split at hed <;> simp only [List.mem_cons, List.not_mem_nil, or_false] at hed)
    | skip
  all_goals first
    | (subst hed; exact absurd hr (by simp [line]))
    | (rcases hed with rfl | rfl <;> exact absurd hr (by simp [line]))
    | (rcases hed with rfl | rfl | rfl <;> exact absurd hr (by simp [line]))

/-- The program starts without a config file. -/
def demo0 : Sys (List Str) Bool := { ui := { file := none, config := false } }

def demoRun (as : List (Act (List Str) Bool)) : Option (Sys (List Str) Bool) := runActs demo demo0 as

theorem demo_exec {as : List (Act (List Str) Bool)} {x : Sys (List Str) Bool} (h : demoRun as = some x) :
    ∃ tr, Exec demo x tr := exec_runActs (.init none false) h

/-- Pressing a key. -/
def press (k : Key) : Act (List Str) Bool := .iter true (.key k)

/-- Problems are reported, and the user interface gets the event. -/
def reported (ps : List Problem) : List (Act (List Str) Bool) := [.report ps, .iter true .added]

def macroA : Problem := .isProcMacro ⟨str! "a", str! "1.0.0", true⟩
def macroB : Problem := .isProcMacro ⟨str! "b", str! "1.0.0", true⟩
def usesFs : Problem := .disallowedApiUsage ⟨⟨str! "a", str! "1.0.0", true⟩, .all, str! "fs", []⟩
def offTree : Problem := .offTreeApiUsage ⟨⟨str! "a", str! "1.0.0", true⟩, .all, str! "fs", []⟩ ⟨str! "b", str! "1.0.0", true⟩

theorem some_of_isSome {α : Type} {o : Option α} (h : o.isSome = true) : ∃ a, o = some a :=
  Option.isSome_iff_exists.mp h

/-! ## C85: no key crashes the user interface -/

/-- **C85 (the claim).** Whatever has happened before, nothing that can happen makes the user interface panic. -/
def C85_Claim : Prop :=
  ∀ (F E C : Type) [DecidableEq F] (env : Env F E C), env.Sane → ∀ x tr, Exec env x tr →
    ∀ a : Act F C, a.Possible x → act env x a ≠ none

/-- The only problem is solved; while the build goes on, an arrow key is pressed. -/
def arrowCrash : List (Act (List Str) Bool) :=
  reported [macroA] ++ [press (.char 'f'), press .enter]

/-- **C85 is false.** -/
theorem C85_arrow_key_panics : ¬ C85_Claim := by
  intro h
  have h1 : (demoRun arrowCrash).isSome = true := by decide
  obtain ⟨x, hx⟩ := some_of_isSome h1
  obtain ⟨tr, he⟩ := demo_exec hx
  refine h _ _ _ demo demo_sane x tr he (press .down) trivial ?_
  have h2 : ((demoRun arrowCrash).bind (fun x => act demo x (press .down))).isNone = true := by decide
  rw [hx] at h2
  exact Option.isNone_iff_eq_none.mp h2

/-- **C85 (partial).** The user interface panics exactly when an arrow key is pressed while the list in which it would move
is empty. -/
theorem C85_panics_partial (env : Env F E C) (hs : env.Sane) (x : Sys F C) (tr : List (Sys F C × Act F C))
    (h : Exec env x tr) (a : Act F C) (hp : a.Possible x) :
    act env x a = none ↔
      ∃ w k, a = .iter w (.key k) ∧ Listening x ∧ (k = .up ∨ k = .down) ∧ listLength env x.ui = some 0 := by
  have hi := exec_inv hs h
  obtain ⟨t, ht⟩ := hi.store
  have hq := draw_inv (checkQuit_inv hi)
  obtain ⟨t', ht'⟩ := hq.store
  cases a with
  | report ps =>
    have := (C12_no_panic_partial _ _ ht).1 ps hp
    obtain ⟨⟨s1, ev⟩, h1⟩ := some_of_isSome this
    obtain ⟨r, h2, _⟩ := Option.map_eq_some_iff.mp h1
    simp [act, h2]
  | reload c => simp [act]
  | touch f => simp [act]
  | iter w i =>
    simp only [act, iterate]
    cases hend : x.ended with
    | true => simp [Listening, hend]
    | false =>
      cases hst : x.started with
      | false => simp [Listening, hst]
      | true =>
        simp only [Bool.false_eq_true, if_false, if_true]
        cases i with
        | nothing => simp [receive]
        | shutdown => simp [receive]
        | added =>
          simp only [receive, Option.map_eq_none_iff, Act.iter.injEq, reduceCtorEq, and_false, false_and, exists_false,
            iff_false]
          unfold problemsAdded
          split
          · rcases acceptAll_cases env w _ ht' with ⟨_, h1⟩ | ⟨e, st, tr', _, _, _, _, h3⟩
            · rw [h1]; simp
            · rcases h3 with ⟨e', _, _, _, h4⟩ | ⟨_, h4⟩ <;> (rw [h4]; simp)
          · simp
        | key k =>
          simp only [receive, draw_error, checkQuit_error]
          cases herr : x.error with
          | true => simp [Listening, herr]
          | false =>
            simp only [Bool.false_eq_true, if_false, Option.map_eq_none_iff]
            rw [handleKey_none env hs w ht' hq.bottom]
            have hl : listLength env (draw (checkQuit x)).ui = listLength env x.ui := by
              rw [draw_ui]
              unfold listLength
              rw [checkQuit_modes, checkQuit_live, checkQuit_config, checkQuit_index]
            rw [hl]
            constructor
            · rintro ⟨h1, h2⟩; exact ⟨w, k, rfl, ⟨hst, hend, herr⟩, h1, h2⟩
            · rintro ⟨w', k', h1, _, h2, h3⟩
              cases h1
              exact ⟨h2, h3⟩

/-- Non-vacuity: with problems in the list, arrow keys work and wrap around. -/
example : (demoRun (reported [macroA, macroB] ++ [press .up])).map (fun x => x.ui.problemIndex) = some 1 := by decide

/-! ## C86: what changes the config file -/

/-- **C86 (the claim).** The user interface changes the config file only to apply an edit: the one that the user accepts,
or the only edit of a problem after the user has confirmed auto-accept. -/
def C86_Claim : Prop :=
  ∀ (F E C : Type) [DecidableEq F] (env : Env F E C), env.Sane → ∀ x tr, Exec env x tr →
    ∀ (w : Bool) (i : Input) (x' : Sys F C), (Act.iter w i : Act F C).Possible x →
      act env x (.iter w i) = some x' → x'.ui.file ≠ x.ui.file →
      (x.ui.modes.head? = some .selectEdit ∧ ∃ k, i = .key k ∧ Accepts k) ∨ singles env x.ui.config x.ui.store ≠ []

/-- There is no config file yet. The user tries auto-accept on the question how to create one. -/
def emptyFile : List (Act (List Str) Bool) :=
  reported [.missingConfiguration (str! "cackle.toml")] ++ [press (.char 'a')]

/-- **C86 is false.** Auto-accept with nothing to accept creates an empty config file. -/
theorem C86_auto_accept_creates_file : ¬ C86_Claim := by
  intro h
  have h1 : (demoRun emptyFile).isSome = true := by decide
  obtain ⟨x, hx⟩ := some_of_isSome h1
  obtain ⟨tr, he⟩ := demo_exec hx
  have h2 : ((demoRun emptyFile).bind (fun x => act demo x (press .enter))).isSome = true := by decide
  have h3 : ((demoRun emptyFile).bind (fun x => act demo x (press .enter))).map (fun x => x.ui.file) = some (some []) := by
    decide
  have h4 : (demoRun emptyFile).map (fun x => (x.ui.file, x.ui.modes.head?, (singles demo x.ui.config x.ui.store).length)) =
      some (none, some .promptAutoAccept, 0) := by decide
  rw [hx] at h2 h3 h4
  obtain ⟨x', hx'⟩ := some_of_isSome h2
  have hx' : act demo x (press .enter) = some x' := hx'
  simp only [Option.bind_some, hx', Option.map_some, Option.some.injEq, Prod.mk.injEq] at h3 h4
  rcases h _ _ _ demo demo_sane x tr he true (.key .enter) x' trivial hx' (by rw [h3, h4.1]; simp) with ⟨h5, _⟩ | h5
  · rw [h4.2.1] at h5; simp at h5
  · exact h5 (List.length_eq_zero_iff.mp h4.2.2)

/-- **C86 (partial).** When the config file changes, then somebody else has changed it; or the user has accepted the
highlighted edit, and the new text is the old one with this edit and the comment entered for it; or the user has
confirmed auto-accept, now or before, and the new text is the old one with the only edits of all problems that have only
one. -/
theorem C86_file_changes_partial (env : Env F E C) (hs : env.Sane) (x x' : Sys F C) (tr : List (Sys F C × Act F C))
    (h : Exec env x tr) (a : Act F C) (ha : act env x a = some x') (hf : x'.ui.file ≠ x.ui.file) :
    (∃ f, a = .touch f) ∨
    (∃ k ed e, a = .iter true (.key k) ∧ Listening x ∧ x.ui.modes.head? = some .selectEdit ∧ Accepts k ∧
      (offered env x.ui)[x.ui.editIndex]? = some ed ∧ env.parse (x.ui.file.getD env.blank) = some e ∧
      (ed.apply x.ui.comment e).2 = true ∧ x'.ui.file = some (env.print (ed.apply x.ui.comment e).1)) ∨
    ∃ e e', ((a = .iter true (.key .enter) ∧ Listening x ∧ x.ui.modes.head? = some .promptAutoAccept) ∨
        (a = .iter true .added ∧ Confirmed tr)) ∧
      env.parse (x.ui.file.getD env.blank) = some e ∧
      runAll (singles env x.ui.config x.ui.store) e = some e' ∧ x'.ui.file = some (env.print e') := by
  have hi := exec_inv hs h
  obtain ⟨t, ht⟩ := hi.store
  cases did ha with
  | idle h => rcases h with h | h <;> exact absurd (by rw [h]) hf
  | report => exact absurd rfl hf
  | reload => exact absurd rfl hf
  | touch => exact Or.inl ⟨_, rfl⟩
  | quiet _ _ _ hw hk =>
    have hb : Bottom (checkQuit x).ui.modes := by rw [checkQuit_modes]; exact hi.bottom
    have hq := handleKey_quiet env _ hb (by rw [checkQuit_writes]; exact hw) hk
    exact absurd (by rw [hq.file, checkQuit_file]) hf
  | @accept w k x' h1 h2 h3 hm hk hacc =>
    rcases acceptKey_cases env hs w x.ui ht with ⟨h1, _⟩ | ⟨_, _, h1, _⟩ | ⟨id, p, ed, e, st, tr', _, hed, hop, hok, rfl, h6, _⟩
    · rw [h1] at hacc
      simp only [Option.some.injEq, Prod.mk.injEq] at hacc
      exact absurd (by rw [← hacc.1]; rfl) hf
    · rw [h1] at hacc
      simp only [Option.some.injEq, Prod.mk.injEq] at hacc
      exact absurd (by rw [← hacc.1]) hf
    · rw [h6] at hacc
      simp only [Option.some.injEq, Prod.mk.injEq] at hacc
      refine Or.inr (Or.inl ⟨k, ed, e, rfl, ⟨h1, h2, h3⟩, hm, hk, by rw [offered_eq]; exact hed, hop, hok, ?_⟩)
      rw [← hacc.1]; rfl
  | @confirm w x' h1 h2 h3 hm hcf =>
    unfold confirmKey at hcf
    have ht' : Run ({ x.ui with acceptSingle := true } : State F C).store t := ht
    rcases acceptAll_cases env w _ ht' with ⟨_, h4⟩ | ⟨e, st, tr', hop, _, _, _, h5⟩
    · rw [h4] at hcf
      simp only [Option.some.injEq, Prod.mk.injEq] at hcf
      exact absurd (by rw [← hcf.1]) hf
    · rcases h5 with ⟨e', hr, rfl, _, h6⟩ | ⟨_, h6⟩
      · rw [h6] at hcf
        simp only [ok, Option.some.injEq, Prod.mk.injEq] at hcf
        exact Or.inr (Or.inr ⟨e, e', Or.inl ⟨rfl, ⟨h1, h2, h3⟩, hm⟩, hop, hr, by rw [← hcf.1]⟩)
      · rw [h6] at hcf
        simp only [Option.some.injEq, Prod.mk.injEq] at hcf
        exact absurd (by rw [← hcf.1]) hf
  | @added w x' b h1 h2 hacc hall =>
    obtain ⟨t', ht'⟩ := (checkQuit_inv hi).store
    rcases acceptAll_cases env w _ ht' with ⟨_, h4⟩ | ⟨e, st, tr', hop, _, _, _, h5⟩
    · rw [h4] at hall
      simp only [Option.some.injEq, Prod.mk.injEq] at hall
      exact absurd (by rw [← hall.1, checkQuit_file]) hf
    · rw [checkQuit_file] at hop
      rw [checkQuit_singles] at h5
      rcases h5 with ⟨e', hr, rfl, _, h6⟩ | ⟨_, h6⟩
      · rw [h6] at hall
        simp only [Option.some.injEq, Prod.mk.injEq] at hall
        exact Or.inr (Or.inr ⟨e, e', Or.inr ⟨rfl, hi.confirmed hacc⟩, hop, hr, by rw [← hall.1]⟩)
      · rw [h6] at hall
        simp only [Option.some.injEq, Prod.mk.injEq] at hall
        exact absurd (by rw [← hall.1]; exact checkQuit_file x) hf

/-- Non-vacuity: accepting one edit, then auto-accept for two more problems. -/
example : (demoRun (reported [macroA, .selectSandbox] ++ [press .down, press (.char 'f'), press (.char ' ')])).map
    (fun x => x.ui.file) = some (some [str! "bubblewrap"]) := by decide
example : (demoRun (reported [macroA, .selectSandbox, macroB] ++ [press (.char 'a'), press .enter])).map
    (fun x => (x.ui.file, (live x.ui.store).map Prod.fst)) =
    some (some [str! "a", str! "b"], [1]) := by decide

/-! ## C87: nothing is approved after quitting -/

/-- **C87 (the claim).** After the user has quit, the user interface neither changes the config file nor resolves problems. -/
def C87_Claim : Prop :=
  ∀ (F E C : Type) [DecidableEq F] (env : Env F E C), env.Sane → ∀ x tr, Exec env x tr → x.ui.modes = [] →
    ∀ (w : Bool) (i : Input) (x' : Sys F C), (Act.iter w i : Act F C).Possible x →
      act env x (.iter w i) = some x' → x'.ui.file = x.ui.file ∧ live x'.ui.store = live x.ui.store

/-- Auto-accept is on, the user quits, and a crate that was being compiled turns out to be a proc macro. -/
def quitAuto : List (Act (List Str) Bool) :=
  reported [.selectSandbox] ++ [press (.char 'a'), press .enter, press (.char 'q'), .iter true .nothing, .report [macroA]]

/-- **C87 is false.** -/
theorem C87_accepts_after_quit : ¬ C87_Claim := by
  intro h
  have h1 : (demoRun quitAuto).isSome = true := by decide
  obtain ⟨x, hx⟩ := some_of_isSome h1
  obtain ⟨tr, he⟩ := demo_exec hx
  have h2 : ((demoRun quitAuto).bind (fun x => act demo x (.iter true .added))).map (fun x => x.ui.file) =
      some (some [str! "a"]) := by decide
  have h4 : (demoRun quitAuto).map (fun x => (x.ui.file, x.ui.modes, decide (x.received < x.ui.store.events))) =
      some (some [], [], true) := by decide
  rw [hx] at h2 h4
  simp only [Option.bind_some, Option.map_some, Option.some.injEq, Prod.mk.injEq] at h2 h4
  obtain ⟨x', hx', h3⟩ := Option.map_eq_some_iff.mp h2
  have := (h _ _ _ demo demo_sane x tr he h4.2.1 true .added x'
    (of_decide_eq_true (p := x.received < x.ui.store.events) h4.2.2) hx').1
  rw [h3, h4.1] at this
  simp at this

/-- **C87 (partial).** Once the user has quit, this cannot be undone by a key. If auto-accept was never confirmed, then the user
interface leaves the config file and the problems alone from then on. -/
theorem C87_after_quit_partial (env : Env F E C) (hs : env.Sane) (x x' : Sys F C) (tr : List (Sys F C × Act F C))
    (h : Exec env x tr) (hq : x.ui.modes = []) (w : Bool) (i : Input) (ha : act env x (.iter w i) = some x') :
    x'.ui.modes = [] ∧
    (¬ Confirmed tr → x'.ui.file = x.ui.file ∧ live x'.ui.store = live x.ui.store) := by
  have hi := exec_inv hs h
  cases did ha with
  | idle h1 => rcases h1 with h1 | h1 <;> (rw [h1]; exact ⟨hq, fun _ => ⟨rfl, rfl⟩⟩)
  | quiet _ _ _ hw hk =>
    have hm : (checkQuit x).ui.modes = [] := by rw [checkQuit_modes]; exact hq
    have hq' := handleKey_quiet env _ (Or.inl hm) (by rw [checkQuit_writes]; exact hw) hk
    refine ⟨?_, fun _ => ⟨by rw [hq'.file, checkQuit_file], by rw [hq'.store, checkQuit_live]⟩⟩
    unfold handleKey at hk
    split at hk
    · simp only [ok, Option.some.injEq, Prod.mk.injEq] at hk
      rw [← hk.1]; exact hm
    · rename_i m ms h2
      rw [hm] at h2; cases h2
  | accept _ _ _ hm => rw [hq] at hm; cases hm
  | confirm _ _ _ hm => rw [hq] at hm; cases hm
  | added _ _ hacc hall =>
    obtain ⟨t', ht'⟩ := (checkQuit_inv hi).store
    have := acceptAll_inv env w ht' hall
    refine ⟨by rw [this.2.1, checkQuit_modes]; exact hq, fun hc => absurd (hi.confirmed hacc) hc⟩

/-- Non-vacuity: a state after quitting, with a problem that was reported later. -/
example : (demoRun (reported [.selectSandbox] ++ [press (.char 'q'), .report [macroA], .iter true .added])).map
    (fun x => (x.ui.modes, x.ui.file, (live x.ui.store).length)) = some ([], none, 2) := by decide

/-! ## C88: comments -/

/-- **C88 (the claim).** When the list of edits of a problem is opened, no comment is set: comments are for the edit for
which they were entered. -/
def C88_Claim : Prop :=
  ∀ (F E C : Type) [DecidableEq F] (env : Env F E C), env.Sane → ∀ x tr, Exec env x tr →
    ∀ (w : Bool) (x' : Sys F C), x.ui.modes = [.selectProblem] → act env x (.iter w (.key (.char 'f'))) = some x' →
      x'.ui.modes.head? = some .selectEdit → x'.ui.comment = none

/-- A comment is entered for the edit of one problem, the user goes back and selects the other problem. -/
def staleComment : List (Act (List Str) Bool) :=
  reported [macroA, macroB] ++
    [press (.char 'f'), press (.char 'c'), press (.char 'x'), press .enter, press .esc, press .down]

/-- **C88 is false.** -/
theorem C88_comment_is_kept : ¬ C88_Claim := by
  intro h
  have h1 : (demoRun staleComment).isSome = true := by decide
  obtain ⟨x, hx⟩ := some_of_isSome h1
  obtain ⟨tr, he⟩ := demo_exec hx
  have h2 : ((demoRun staleComment).bind (fun x => act demo x (press (.char 'f')))).map
      (fun x => (x.ui.modes.head?, x.ui.comment)) = some (some .selectEdit, some (str! "x")) := by decide
  have h4 : (demoRun staleComment).map (fun x => x.ui.modes) = some [.selectProblem] := by decide
  rw [hx] at h2 h4
  simp only [Option.bind_some, Option.map_some, Option.some.injEq] at h2 h4
  obtain ⟨x', hx', h3⟩ := Option.map_eq_some_iff.mp h2
  simp only [Prod.mk.injEq] at h3
  have := h _ _ _ demo demo_sane x tr he true x' h4 hx' h3.1
  rw [h3.2] at this
  simp at this

/-- … and it is then written with the edit of the other problem. -/
theorem C88_comment_on_wrong_edit :
    (demoRun (staleComment ++ [press (.char 'f'), press .enter])).map (fun x => x.ui.file) =
      some (some [str! "b", str! "x"]) := by decide

theorem commentKey_comment (env : Env F E C) (s : State F C) (input : Str) (k : Key)
    (h : (commentKey env s input k).comment ≠ s.comment) :
    k = .enter ∧ (commentKey env s input k).comment = if input = [] then none else some input := by
  cases k with
  | enter =>
    refine ⟨rfl, ?_⟩
    simp only [commentKey, setComment]
    split
    · rfl
    · split <;> rfl
  | _ => exact absurd rfl h

/-- **C88 (partial).** The comment changes only when the user leaves the comment input with Enter, then it is the text of the
input, or when an edit is accepted, then there is none afterwards. (Edits accepted automatically never get one, see
`C86_file_changes_partial`.) -/
theorem C88_comment_partial (env : Env F E C) (hs : env.Sane) (x x' : Sys F C) (tr : List (Sys F C × Act F C))
    (h : Exec env x tr) (a : Act F C) (ha : act env x a = some x') (hc : x'.ui.comment ≠ x.ui.comment) :
    ∃ w k, a = .iter w (.key k) ∧ Listening x ∧
      ((k = .enter ∧ ∃ input, x.ui.modes.head? = some (.setComment input) ∧
        x'.ui.comment = if input = [] then none else some input) ∨
       (x.ui.modes.head? = some .selectEdit ∧ Accepts k ∧ x'.ui.comment = none)) := by
  have hi := exec_inv hs h
  obtain ⟨t, ht⟩ := hi.store
  cases did ha with
  | idle h1 => rcases h1 with h1 | h1 <;> exact absurd (by rw [h1]) hc
  | report => exact absurd rfl hc
  | reload => exact absurd rfl hc
  | touch => exact absurd rfl hc
  | @quiet w k x' h1 h2 h3 hw hk =>
    have hb : Bottom (checkQuit x).ui.modes := by rw [checkQuit_modes]; exact hi.bottom
    have hq := handleKey_quiet env _ hb (by rw [checkQuit_writes]; exact hw) hk
    rcases hq.comment with h4 | ⟨input, h4⟩
    · exact absurd (by rw [h4, checkQuit_comment]) hc
    · rw [checkQuit_modes] at h4
      rw [checkQuit_of_head h4] at hk
      obtain ⟨ms, hms⟩ := head_cons h4
      have hk' : handleKey env w x.ui k = some (commentKey env x.ui input k, false) := by
        unfold handleKey
        split
        · rename_i h5; rw [hms] at h5; cases h5
        · rename_i m l h5
          rw [hms] at h5
          cases h5
          rfl
      rw [hk'] at hk
      simp only [Option.some.injEq, Prod.mk.injEq] at hk
      rw [← hk.1] at hc ⊢
      obtain ⟨h6, h7⟩ := commentKey_comment env x.ui input k hc
      exact ⟨w, k, rfl, ⟨h1, h2, h3⟩, Or.inl ⟨h6, input, h4, h7⟩⟩
  | @accept w k x' h1 h2 h3 hm hk hacc =>
    refine ⟨w, k, rfl, ⟨h1, h2, h3⟩, Or.inr ⟨hm, hk, ?_⟩⟩
    rcases acceptKey_cases env hs w x.ui ht with ⟨h1, _⟩ | ⟨_, _, h1, _⟩ | ⟨id, p, ed, e, st, tr', _, hed, hop, hok, rfl, h6, _⟩
    · rw [h1] at hacc
      simp only [Option.some.injEq, Prod.mk.injEq] at hacc
      rw [← hacc.1]; rfl
    · rw [h1] at hacc
      simp only [Option.some.injEq, Prod.mk.injEq] at hacc
      exact absurd (by rw [hacc.1]) hc
    · rw [h6] at hacc
      simp only [Option.some.injEq, Prod.mk.injEq] at hacc
      rw [← hacc.1]; rfl
  | @confirm w x' h1 h2 h3 hm hcf =>
    unfold confirmKey at hcf
    cases h4 : acceptAll env w { x.ui with acceptSingle := true } with
    | none => rw [h4] at hcf; cases hcf
    | some r =>
      have h5 := acceptAll_inv env w (s := { x.ui with acceptSingle := true }) ht h4
      obtain ⟨s', b⟩ := r
      rw [h4] at hcf
      cases b <;> simp only [ok, Option.some.injEq, Prod.mk.injEq] at hcf <;>
        exact absurd (by rw [← hcf.1]; exact h5.2.2.2.2.2) hc
  | @added w x' b h1 h2 hacc hall =>
    obtain ⟨t', ht'⟩ := (checkQuit_inv hi).store
    have h5 := acceptAll_inv env w ht' hall
    exact absurd (by rw [h5.2.2.2.2.2, checkQuit_comment]) hc

/-- Non-vacuity: a comment that is entered and used. -/
example : (demoRun (reported [macroA] ++
    [press (.char 'f'), press (.char 'c'), press (.char 'x'), press .enter, press .enter])).map
    (fun x => (x.ui.file, x.ui.comment)) = some (some [str! "a", str! "x"], none) := by decide

/-! ## C89: accepting an edit -/

/-- **C89.** Accepting the highlighted edit writes the config file with this edit and the comment, replaces the highlighted
problem by the problems that follow from the edit, and goes back to the list of problems; other problems stay unless they
are settled by the new config file. If the edit cannot be applied or the file cannot be written, then an error is shown,
nothing changes and the edits stay on the screen. -/
theorem C89_accept (env : Env F E C) (hs : env.Sane) (x : Sys F C) (tr : List (Sys F C × Act F C))
    (h : Exec env x tr) (hl : Listening x) (ms : List Mode) (hm : x.ui.modes = .selectEdit :: ms) (k : Key)
    (hk : Accepts k) (id : Nat) (p : Problem) (hp : (live x.ui.store)[x.ui.problemIndex]? = some (id, p))
    (ed : EditM E) (hed : (env.fixes x.ui.config p)[x.ui.editIndex]? = some ed) (w : Bool) :
    (∀ e, env.parse (x.ui.file.getD env.blank) = some e → (ed.apply x.ui.comment e).2 = true → w = true →
      ∃ x', act env x (.iter w (.key k)) = some x' ∧ x'.error = false ∧
        x'.ui.file = some (env.print (ed.apply x.ui.comment e).1) ∧ x'.ui.modes = ms ∧ x'.ui.comment = none ∧
        Accepted env x.ui.config (ed.apply x.ui.comment e).1 id ed.repl x.ui.store x'.ui.store) ∧
    ((w = false ∨ env.parse (x.ui.file.getD env.blank) = none ∨
        ∃ e, env.parse (x.ui.file.getD env.blank) = some e ∧ (ed.apply x.ui.comment e).2 = false) →
      ∃ x', act env x (.iter w (.key k)) = some x' ∧ x'.error = true ∧ x'.ui = x.ui) := by
  have hi := exec_inv hs h
  obtain ⟨t, ht⟩ := hi.store
  have hhead : x.ui.modes.head? = some .selectEdit := by rw [hm]; rfl
  have hed' : (x.ui.edits env)[x.ui.editIndex]? = some ed := by
    unfold State.edits State.selected
    rw [hp]; exact hed
  have hact : act env x (.iter w (.key k)) =
      (acceptKey env w x.ui).map (fun r => { draw x with ui := r.1, error := r.2, redraw := true }) := by
    simp only [act, iterate, hl.1, hl.2.1, Bool.false_eq_true, if_false, if_true, checkQuit_of_head hhead, receive,
      draw_error, hl.2.2, draw_ui, handleKey_accept env w hhead hk]
  rw [hact]
  rcases acceptKey_cases env hs w x.ui ht with ⟨_, h1⟩ | ⟨ed', h0, h1, h2⟩ |
    ⟨id', p', ed', e', st, tr', hsel, h0, hop, hok, hw, h1, _, hacc⟩
  · rw [hed'] at h1; cases h1
  · rw [hed'] at h0
    cases h0
    rw [h1]
    refine ⟨?_, fun _ => ⟨_, rfl, rfl, rfl⟩⟩
    intro e he hok hw
    rcases h2 with h2 | h2
    · rw [h2] at hw; cases hw
    · have := h2 e he
      rw [hok] at this; cases this
  · rw [hed'] at h0
    cases h0
    have hsel : (live x.ui.store)[x.ui.problemIndex]? = some (id', p') := hsel
    rw [hp] at hsel
    cases hsel
    rw [h1]
    refine ⟨?_, ?_⟩
    · intro e he _ _
      have hop : env.parse (x.ui.file.getD env.blank) = some e' := hop
      rw [he] at hop
      cases hop
      exact ⟨_, rfl, rfl, rfl, by show x.ui.modes.tail = ms; rw [hm]; rfl, rfl, hacc⟩
    · have hop : env.parse (x.ui.file.getD env.blank) = some e' := hop
      rintro (h2 | h2 | ⟨e, h2, h3⟩)
      · rw [hw] at h2; cases h2
      · rw [hop] at h2; cases h2
      · rw [hop] at h2
        cases h2
        rw [hok] at h3; cases h3

/-- Non-vacuity: accepting the recommended config leads to the question about the sandbox; it fails when the file cannot
be written. -/
example : (demoRun (reported [.missingConfiguration []] ++ [press (.char 'f'), press .enter])).map
    (fun x => (x.ui.file, (live x.ui.store).map (fun y => decide (y.2 = .selectSandbox)), x.ui.modes)) =
    some (some [str! "recommended"], [true], [.selectProblem]) := by decide
example : (demoRun (reported [.missingConfiguration []] ++ [press (.char 'f'), .iter false (.key .enter)])).map
    (fun x => (x.ui.file, x.error, (live x.ui.store).length, x.ui.modes)) =
    some (none, true, 1, [.selectEdit, .selectProblem]) := by decide

/-! ## C90: a problem is selected -/

/-- **C90 (the claim).** As long as there are problems, one of them is selected. -/
def C90_Claim : Prop :=
  ∀ (F E C : Type) [DecidableEq F] (env : Env F E C), env.Sane → ∀ x tr, Exec env x tr →
    live x.ui.store ≠ [] → (live x.ui.store)[x.ui.problemIndex]? ≠ none

/-- The last of three problems is selected when auto-accept solves the other two. -/
def lost : List (Act (List Str) Bool) :=
  reported [macroA, macroB, .selectSandbox] ++ [press .down, press .down, press (.char 'a'), press .enter]

/-- **C90 is false.** -/
theorem C90_selection_lost : ¬ C90_Claim := by
  intro h
  have h1 : (demoRun lost).isSome = true := by decide
  obtain ⟨x, hx⟩ := some_of_isSome h1
  obtain ⟨tr, he⟩ := demo_exec hx
  have h2 : (demoRun lost).map (fun x => ((live x.ui.store).length, x.ui.problemIndex)) = some (1, 2) := by decide
  rw [hx] at h2
  simp only [Option.map_some, Option.some.injEq, Prod.mk.injEq] at h2
  refine h _ _ _ demo demo_sane x tr he ?_ ?_
  · intro h3; rw [h3] at h2; cases h2.1
  · rw [List.getElem?_eq_none_iff]; omega

/-- **C90 (partial).** It holds as long as the user has not confirmed auto-accept. -/
theorem C90_selected_partial (env : Env F E C) (hs : env.Sane) (x : Sys F C) (tr : List (Sys F C × Act F C))
    (h : Exec env x tr) (hc : ¬ Confirmed tr) (hne : live x.ui.store ≠ []) :
    ∃ id p, (live x.ui.store)[x.ui.problemIndex]? = some (id, p) := by
  have hlen : 0 < (live x.ui.store).length := List.length_pos_iff.mpr hne
  have hlt : x.ui.problemIndex < (live x.ui.store).length := by
    rcases index_ok hs h hc with h1 | h1
    · omega
    · exact h1
  exact ⟨_, _, List.getElem?_eq_getElem hlt⟩

/-- Non-vacuity: the last of three problems is solved by hand; the first one is selected then. -/
example : (demoRun (reported [macroA, macroB, .selectSandbox] ++
    [press .down, press .down, press (.char 'f'), press .enter])).map
    (fun x => ((live x.ui.store).length, x.ui.problemIndex)) = some (2, 0) := by decide

/-! ## C91: the selection moves only by keys -/

/-- **C91 (the claim).** Unless a key is pressed, the selected problem stays selected while it is unsolved. -/
def C91_Claim : Prop :=
  ∀ (F E C : Type) [DecidableEq F] (env : Env F E C), env.Sane → ∀ x tr, Exec env x tr →
    ∀ (a : Act F C) (x' : Sys F C), a.Possible x → act env x a = some x' → (∀ w k, a ≠ .iter w (.key k)) →
      ∀ id p, (live x.ui.store)[x.ui.problemIndex]? = some (id, p) → ¬ Dead x'.ui.store id →
        ∃ q, (live x'.ui.store)[x'.ui.problemIndex]? = some (id, q)

/-- With auto-accept on, the second of three problems is selected. The config is changed so that only one edit for the
first one remains, and another problem is reported. -/
def jump : List (Act (List Str) Bool) :=
  reported [usesFs, .importStdApi (str! "fs"), .importStdApi (str! "net")] ++
    [press (.char 'a'), press .enter, press .down, .reload true, .report [macroA]]

/-- **C91 is false.** -/
theorem C91_selection_jumps : ¬ C91_Claim := by
  intro h
  have h1 : (demoRun jump).isSome = true := by decide
  obtain ⟨x, hx⟩ := some_of_isSome h1
  obtain ⟨tr, he⟩ := demo_exec hx
  have h2 : ((demoRun jump).bind (fun x => act demo x (.iter true .added))).map
      (fun x => ((live x.ui.store)[x.ui.problemIndex]?.map Prod.fst, decide (x.ui.store.problems[1]? = some none))) =
      some (some 2, false) := by decide
  have h4 : (demoRun jump).map (fun x => ((live x.ui.store)[x.ui.problemIndex]?, decide (x.received < x.ui.store.events))) =
      some (some (1, .importStdApi (str! "fs")), true) := by decide
  rw [hx] at h2 h4
  simp only [Option.bind_some, Option.map_some, Option.some.injEq, Prod.mk.injEq] at h2 h4
  obtain ⟨x', hx', h3⟩ := Option.map_eq_some_iff.mp h2
  simp only [Prod.mk.injEq] at h3
  obtain ⟨q, hq⟩ := h _ _ _ demo demo_sane x tr he (.iter true .added) x'
    (of_decide_eq_true (p := x.received < x.ui.store.events) h4.2) hx'
    (by intro w k hk; cases hk) 1 _ h4.1
    (of_decide_eq_false (p := x'.ui.store.problems[1]? = some none) h3.2)
  rw [hq] at h3
  simp at h3

/-- **C91 (partial).** It holds as long as the user has not confirmed auto-accept; the problem may only gain usages. -/
theorem C91_selection_partial (env : Env F E C) (hs : env.Sane) (x x' : Sys F C) (tr : List (Sys F C × Act F C))
    (h : Exec env x tr) (hc : ¬ Confirmed tr) (a : Act F C) (ha : act env x a = some x')
    (hnk : ∀ w k, a ≠ .iter w (.key k)) (id : Nat) (p : Problem)
    (hp : (live x.ui.store)[x.ui.problemIndex]? = some (id, p)) :
    ∃ q, (live x'.ui.store)[x'.ui.problemIndex]? = some (id, q) ∧ Grown p q := by
  have hi := exec_inv hs h
  obtain ⟨t, ht⟩ := hi.store
  cases did ha with
  | idle h1 => rcases h1 with h1 | h1 <;> (rw [h1]; exact ⟨p, hp, Grown.refl p⟩)
  | report h1 => exact add_live ht h1 _ id p hp
  | reload => exact ⟨p, hp, Grown.refl p⟩
  | touch => exact ⟨p, hp, Grown.refl p⟩
  | quiet => exact absurd rfl (hnk _ _)
  | accept => exact absurd rfl (hnk _ _)
  | confirm => exact absurd rfl (hnk _ _)
  | added _ _ hacc => exact absurd (hi.confirmed hacc) hc

/-- Non-vacuity: another usage of the selected API and a new problem are reported. -/
example : (demoRun (reported [macroA, usesFs] ++ [press .down] ++ reported [usesFs, macroB])).map
    (fun x => ((live x.ui.store)[x.ui.problemIndex]?.map Prod.fst, (live x.ui.store).length)) = some (some 1, 3) := by
  decide

/-! ## C92: quitting -/

/-- **C92 (the claim).** Unless a comment is being entered, `q` stops the build: cargo is told to stop and everything that
waits for an answer is told to give up. -/
def C92_Claim : Prop :=
  ∀ (F E C : Type) [DecidableEq F] (env : Env F E C), env.Sane → ∀ x tr, Exec env x tr →
    x.started = true → x.ended = false → (∀ input, x.ui.modes.head? ≠ some (.setComment input)) →
    ∀ (w w' : Bool) (i : Input) (x1 x2 : Sys F C), act env x (.iter w (.key (.char 'q'))) = some x1 →
      act env x1 (.iter w' i) = some x2 → x2.killed = true ∧ x2.ui.store.aborted = true

/-- An error is shown because the config file cannot be written. -/
def errorShown : List (Act (List Str) Bool) :=
  reported [macroA] ++ [press (.char 'f'), .iter false (.key .enter)]

/-- **C92 is false.** While an error is shown, `q` does not stop cargo, and the user interface stays. -/
theorem C92_quit_on_error : ¬ C92_Claim := by
  intro h
  have h1 : (demoRun errorShown).isSome = true := by decide
  obtain ⟨x, hx⟩ := some_of_isSome h1
  obtain ⟨tr, he⟩ := demo_exec hx
  have h2 : (((demoRun errorShown).bind (fun x => act demo x (press (.char 'q')))).bind
      (fun x => act demo x (.iter true .nothing))).map (fun x => x.killed) = some false := by decide
  have h4 : (demoRun errorShown).map (fun x => (x.started, x.ended, x.ui.modes.head?)) =
      some (true, false, some .selectEdit) := by decide
  rw [hx] at h2 h4
  simp only [Option.bind_some, Option.map_some, Option.some.injEq, Prod.mk.injEq] at h2 h4
  obtain ⟨x2, h5, h6⟩ := Option.map_eq_some_iff.mp h2
  obtain ⟨x1, h7, h8⟩ := Option.bind_eq_some_iff.mp h5
  have := (h _ _ _ demo demo_sane x tr he h4.1 h4.2.1 (by intro input h9; rw [h4.2.2] at h9; simp at h9)
    true true .nothing x1 x2 h7 h8).1
  rw [h6] at this
  simp at this

theorem handleKey_quit (env : Env F E C) (w : Bool) (s : State F C)
    (hm : ∀ input, s.modes.head? ≠ some (.setComment input)) :
    ∃ s', handleKey env w s (.char 'q') = some (s', false) ∧ s'.modes = [] ∧ s'.store = s.store ∧ s'.file = s.file := by
  unfold handleKey
  split
  · rename_i h; exact ⟨s, rfl, h, rfl, rfl⟩
  · rename_i m ms h
    cases m with
    | setComment input => exact absurd (by rw [h]; rfl) (hm input)
    | _ => exact ⟨_, rfl, rfl, rfl, rfl⟩

/-- Quitting is final. -/
theorem quit_forever {env : Env F E C} (hs : env.Sane) {x : Sys F C} {a : Act F C} {tr : List (Sys F C × Act F C)}
    (hq : ∀ x1, act env x a = some x1 → x1.ui.modes = []) (later : List (Sys F C × Act F C)) (y : Sys F C)
    (h : Exec env y (later ++ (x, a) :: tr)) : y.ui.modes = [] := by
  induction later generalizing y with
  | nil => cases h with | step _ _ _ ha => exact hq y ha
  | cons z later ih =>
    cases h with
    | @step x0 _ _ b h0 _ ha =>
      have h1 := ih x0 h0
      cases b with
      | iter w i => exact (C87_after_quit_partial env hs x0 y _ h0 h1 w i ha).1
      | report ps => obtain ⟨r, _, rfl⟩ := Option.map_eq_some_iff.mp ha; exact h1
      | reload c => cases ha; exact h1
      | touch f => cases ha; exact h1

/-- **C92 (partial).** If no error is shown, `q` does that: the next iteration of the loop tells cargo to stop, aborts, and
everybody who is waiting is told to give up, including those who have reported problems in between. -/
theorem C92_quit_partial (env : Env F E C) (hs : env.Sane) (x : Sys F C) (tr : List (Sys F C × Act F C))
    (h : Exec env x tr) (hl : Listening x) (hm : ∀ input, x.ui.modes.head? ≠ some (.setComment input)) (w : Bool) :
    ∃ x1, act env x (.iter w (.key (.char 'q'))) = some x1 ∧ x1.ui.modes = [] ∧ x1.ui.file = x.ui.file ∧
      ∀ later y, Exec env y (later ++ (x, .iter w (.key (.char 'q'))) :: tr) → y.started = true → y.ended = false →
        ∀ w' i, ∃ x2, act env y (.iter w' i) = some x2 ∧ x2.killed = true ∧ x2.ui.store.aborted = true ∧
          ∀ t n ids, Run y.ui.store t → Ev.added n ids ∈ t → (∀ o, (n, o) ∉ y.ui.store.sent) →
            (n, .giveUp) ∈ x2.ui.store.sent := by
  have hi := exec_inv hs h
  have hm' : ∀ input, (checkQuit x).ui.modes.head? ≠ some (.setComment input) := by rw [checkQuit_modes]; exact hm
  obtain ⟨s', h1, h2, h3, h4⟩ := handleKey_quit env w (checkQuit x).ui hm'
  have hact : act env x (.iter w (.key (.char 'q'))) =
      some { draw (checkQuit x) with ui := s', error := false, redraw := true } := by
    simp only [act, iterate, hl.1, hl.2.1, Bool.false_eq_true, if_false, if_true, receive, draw_error,
      checkQuit_error, hl.2.2, draw_ui, h1, Option.map_some]
  refine ⟨{ draw (checkQuit x) with ui := s', error := false, redraw := true }, ?_, h2, by
    show s'.file = _; rw [h4, checkQuit_file], ?_⟩
  · exact hact
  · intro later y hy hst hend w' i
    have hq : y.ui.modes = [] := quit_forever hs (by
      intro x1 hx1
      rw [hact] at hx1
      cases hx1
      exact h2) later y hy
    have hiy := exec_inv hs hy
    have hqy : (checkQuit y).ui = { y.ui with store := abort y.ui.store } := by
      rcases checkQuit_ui y with ⟨h5, _⟩ | ⟨_, h5⟩
      · exact absurd hq h5
      · exact h5
    have hky : (checkQuit y).killed = true := by
      unfold checkQuit
      rw [hq]; rfl
    have hans : ∀ t n ids, Run y.ui.store t → Ev.added n ids ∈ t → (∀ o, (n, o) ∉ y.ui.store.sent) →
        (n, .giveUp) ∈ (abort y.ui.store).sent := by
      intro t n ids hrun had hno
      have hrun' := run_abort hrun
      obtain ⟨o, ho⟩ := (C10_waiters _ _ hrun' n ids (List.mem_cons_of_mem _ had)).2.2.2.2 [] t rfl had
      simp only [abort, List.mem_append, List.mem_map] at ho ⊢
      rcases ho with ho | ⟨e, he, heq⟩
      · exact absurd ho (hno o)
      · right
        refine ⟨e, he, ?_⟩
        simp only [Prod.mk.injEq] at heq ⊢
        exact ⟨heq.1, trivial⟩
    simp only [act, iterate, hst, hend, Bool.false_eq_true, if_false, if_true]
    cases i with
    | nothing =>
      exact ⟨_, rfl, by rw [draw_killed]; exact hky, by rw [draw_ui, hqy]; rfl, by rw [draw_ui, hqy]; exact hans⟩
    | shutdown =>
      refine ⟨_, rfl, ?_, ?_, ?_⟩
      · show (draw (checkQuit y)).killed = true
        rw [draw_killed]; exact hky
      · show (draw (checkQuit y)).ui.store.aborted = true
        rw [draw_ui, hqy]; rfl
      · show ∀ t n ids, _ → _ → _ → _ ∈ (draw (checkQuit y)).ui.store.sent
        rw [draw_ui, hqy]; exact hans
    | added =>
      obtain ⟨t, ht⟩ := hiy.store
      have hrun' : Run (checkQuit y).ui.store (.aborted :: t) := by rw [hqy]; exact run_abort ht
      simp only [receive, draw_ui]
      unfold problemsAdded
      split
      · have h5 : ∃ r, acceptAll env w' (checkQuit y).ui = some r ∧ r.1.store.aborted = true := by
          rcases acceptAll_cases env w' _ hrun' with ⟨_, h6⟩ | ⟨e, st, tr', _, _, _, hab, h6⟩
          · exact ⟨_, h6, by rw [hqy]; rfl⟩
          · have hab : st.aborted = true := by rw [hab, hqy]; rfl
            rcases h6 with ⟨e', _, _, _, h6⟩ | ⟨_, h6⟩
            · exact ⟨_, h6, hab⟩
            · exact ⟨_, h6, hab⟩
        obtain ⟨r, h5, h6⟩ := h5
        have hsent := acceptAll_sent env w' hrun' h5
        rw [h5]
        refine ⟨_, rfl, ?_, h6, ?_⟩
        · show (draw (checkQuit y)).killed = true
          rw [draw_killed]; exact hky
        · intro t n ids a1 a2 a3
          refine hsent _ ?_
          rw [hqy]; exact hans t n ids a1 a2 a3
      · refine ⟨_, rfl, ?_, ?_, ?_⟩
        · show (draw (checkQuit y)).killed = true
          rw [draw_killed]; exact hky
        · show (checkQuit y).ui.store.aborted = true
          rw [hqy]; rfl
        · show ∀ t n ids, _ → _ → _ → _ ∈ (checkQuit y).ui.store.sent
          rw [hqy]; exact hans
    | key k =>
      simp only [receive]
      split
      · refine ⟨_, rfl, ?_, ?_, ?_⟩
        · show (draw (checkQuit y)).killed = true
          rw [draw_killed]; exact hky
        · unfold dismiss
          dsimp only
          rw [draw_ui, hqy]
          split <;> rfl
        · unfold dismiss
          dsimp only
          rw [draw_ui, hqy]
          split
          · intro t n ids a1 a2 a3
            have := hans t n ids a1 a2 a3
            show _ ∈ (abort (abort y.ui.store)).sent
            unfold abort at this ⊢
            simp only [List.mem_append] at this ⊢
            exact Or.inl this
          · exact hans
      · have hk : handleKey env w' (checkQuit y).ui k = some ((checkQuit y).ui, false) := by
          unfold handleKey
          split
          · rfl
          · rename_i m ms h5
            rw [checkQuit_modes, hq] at h5; cases h5
        rw [draw_ui, hk]
        refine ⟨_, rfl, ?_, ?_, ?_⟩
        · show (draw (checkQuit y)).killed = true
          rw [draw_killed]; exact hky
        · show (checkQuit y).ui.store.aborted = true
          rw [hqy]; rfl
        · show ∀ t n ids, _ → _ → _ → _ ∈ (checkQuit y).ui.store.sent
          rw [hqy]; exact hans

/-- Non-vacuity: two waiters are told to give up after `q`. -/
example : (demoRun (reported [macroA] ++ reported [.selectSandbox] ++ [press (.char 'q'), .iter true .nothing])).map
    (fun x => (x.killed, x.ui.store.sent)) = some (true, [(0, .giveUp), (1, .giveUp)]) := by decide

/-! ## C93: the edit that is applied is the one on the screen -/

/-- **C93 (the claim).** When the user accepts an edit, then the edit that was highlighted on the screen is applied. -/
def C93_Claim : Prop :=
  ∀ (F E C : Type) [DecidableEq F] (env : Env F E C), env.Sane → ∀ x tr, Exec env x tr → Listening x →
    x.ui.modes.head? = some .selectEdit → ∀ k, Accepts k → ∀ x', act env x (.iter true (.key k)) = some x' →
    ∀ s ed e, x'.shown = some s → (offered env s)[s.editIndex]? = some ed →
      env.parse (x.ui.file.getD env.blank) = some e → (ed.apply s.comment e).2 = true →
      x'.ui.file = some (env.print (ed.apply s.comment e).1)

/-- The edits are on the screen when another thread reloads the config. -/
def stale : List (Act (List Str) Bool) :=
  reported [offTree] ++ [press (.char 'f'), .iter true .nothing, .reload true]

/-- **C93 is false.** The screen says that the package may use the API, but the API is extended. -/
theorem C93_stale_screen : ¬ C93_Claim := by
  intro h
  have h1 : (demoRun stale).isSome = true := by decide
  obtain ⟨x, hx⟩ := some_of_isSome h1
  obtain ⟨tr, he⟩ := demo_exec hx
  have h2 : ((demoRun stale).bind (fun x => act demo x (press .enter))).map
      (fun x => (x.ui.file, x.shown.map (fun s => (s.editIndex, s.comment, (live s.store)[s.problemIndex]?, s.config)))) =
      some (some [str! "include"], some (0, none, some (0, offTree), false)) := rfl
  have h4 : (demoRun stale).map (fun x => (x.started, x.ended, x.error, x.ui.modes.head?, x.ui.file)) =
      some (true, false, false, some .selectEdit, none) := rfl
  rw [hx] at h2 h4
  simp only [Option.bind_some, Option.map_some, Option.some.injEq, Prod.mk.injEq] at h2 h4
  obtain ⟨x', hx', h3⟩ := Option.map_eq_some_iff.mp h2
  simp only [Prod.mk.injEq] at h3
  obtain ⟨s, hs, h5⟩ := Option.map_eq_some_iff.mp h3.2
  simp only [Prod.mk.injEq] at h5
  have := h _ _ _ demo demo_sane x tr he ⟨h4.1, h4.2.1, h4.2.2.1⟩ h4.2.2.2.1 .enter (Or.inr (Or.inr rfl)) x' hx' s
    (line (str! "fs")) [] hs (by
      unfold offered
      rw [h5.2.2.1, h5.2.2.2, h5.1]
      rfl) (by rw [h4.2.2.2.2]; rfl) rfl
  rw [h3.1, h5.2.1] at this
  revert this
  decide

/-- The screen shows the current state unless somebody else has done something since it was drawn. -/
theorem shown_current {env : Env F E C} (hs : env.Sane) {x : Sys F C} {tr : List (Sys F C × Act F C)}
    (h : Exec env x tr) (hr : x.redraw = false) (hm : x.ui.modes ≠ [])
    (hal : ∀ z ∈ tr.takeWhile (fun z => !z.1.redraw), Alone z.2) : x.shown = some x.ui := by
  induction h with
  | init file c => cases hr
  | @step y x tr a hy _ ha ih =>
    cases a with
    | report ps =>
      obtain ⟨r, _, rfl⟩ := Option.map_eq_some_iff.mp ha
      have := hal (y, .report ps) (by rw [List.takeWhile_cons]; simp [show y.redraw = false from hr])
      exact this.elim
    | reload c =>
      cases ha
      have := hal (y, .reload c) (by rw [List.takeWhile_cons]; simp [show y.redraw = false from hr])
      exact this.elim
    | touch f =>
      cases ha
      have := hal (y, .touch f) (by rw [List.takeWhile_cons]; simp [show y.redraw = false from hr])
      exact this.elim
    | iter w i =>
      have hold : ∀ (_ : y.redraw = false), y.ui.modes ≠ [] → y.shown = some y.ui := by
        intro h1 h2
        refine ih h1 h2 ?_
        intro z hz
        exact hal z (by rw [List.takeWhile_cons]; simp [h1]; exact Or.inr (by simpa using hz))
      have hdrawn : y.ui.modes ≠ [] → (draw (checkQuit y)).shown = some y.ui := by
        intro h2
        rcases checkQuit_ui y with ⟨_, h3⟩ | ⟨h3, _⟩
        · rw [h3]
          unfold draw
          split
          · rfl
          · rename_i h4; exact hold (by simpa using h4) h2
        · exact absurd h3 h2
      have hsame : y.ui.modes ≠ [] → (draw (checkQuit y)).ui = y.ui := by
        intro h2
        rcases checkQuit_ui y with ⟨_, h3⟩ | ⟨h3, _⟩
        · rw [draw_ui, h3]
        · exact absurd h3 h2
      simp only [act, iterate] at ha
      split at ha
      · cases ha; exact hold hr hm
      · split at ha
        · cases i with
          | nothing =>
            cases ha
            have hm' : y.ui.modes ≠ [] := by rw [draw_ui, checkQuit_modes] at hm; exact hm
            rw [hdrawn hm', hsame hm']
          | shutdown =>
            cases ha
            have hm' : y.ui.modes ≠ [] := by
              have hm : (draw (checkQuit y)).ui.modes ≠ [] := hm
              rw [draw_ui, checkQuit_modes] at hm; exact hm
            show (draw (checkQuit y)).shown = some (draw (checkQuit y)).ui
            rw [hdrawn hm', hsame hm']
          | added =>
            obtain ⟨r, _, rfl⟩ := Option.map_eq_some_iff.mp ha
            cases hr
          | key k =>
            simp only [receive] at ha
            split at ha
            · cases ha; cases hr
            · obtain ⟨r, _, rfl⟩ := Option.map_eq_some_iff.mp ha
              cases hr
        · cases ha
          cases i <;> exact hold hr hm

/-- **C93 (partial).** It holds if no other thread or program has done anything since the screen was drawn. -/
theorem C93_screen_partial (env : Env F E C) (hs : env.Sane) (x : Sys F C) (tr : List (Sys F C × Act F C))
    (h : Exec env x tr) (hl : Listening x) (hm : x.ui.modes.head? = some .selectEdit)
    (hal : x.redraw = true ∨ ∀ z ∈ tr.takeWhile (fun z => !z.1.redraw), Alone z.2) (k : Key) (hk : Accepts k)
    (x' : Sys F C) (ha : act env x (.iter true (.key k)) = some x') :
    ∃ s, x'.shown = some s ∧ ∀ ed e, (offered env s)[s.editIndex]? = some ed →
      env.parse (x.ui.file.getD env.blank) = some e → (ed.apply s.comment e).2 = true →
      x'.ui.file = some (env.print (ed.apply s.comment e).1) := by
  refine ⟨x.ui, ?_, ?_⟩
  · have hne : x.ui.modes ≠ [] := by intro h1; rw [h1] at hm; cases hm
    have hshown : (draw x).shown = some x.ui := by
      unfold draw
      split
      · rfl
      · rename_i h1
        rcases hal with h2 | h2
        · exact absurd h2 h1
        · exact shown_current hs h (by simpa using h1) hne h2
    simp only [act, iterate, hl.1, hl.2.1, Bool.false_eq_true, if_false, if_true, checkQuit_of_head hm, receive,
      draw_error, hl.2.2] at ha
    obtain ⟨r, _, rfl⟩ := Option.map_eq_some_iff.mp ha
    exact hshown
  · intro ed e h1 h2 h3
    obtain ⟨ms, hms⟩ := head_cons hm
    unfold offered at h1
    cases hp : (live x.ui.store)[x.ui.problemIndex]? with
    | none => rw [hp] at h1; simp at h1
    | some y =>
      obtain ⟨id, p⟩ := y
      rw [hp] at h1
      obtain ⟨x'', h4, _, h5, _⟩ := (C89_accept env hs x tr h hl ms hms k hk id p hp ed h1 true).1 e h2 h3 rfl
      rw [ha] at h4
      cases h4
      exact h5

/-- Non-vacuity: nobody else interferes; the second edit is on the screen, and it is applied. -/
example : (demoRun (reported [.selectSandbox] ++ [press (.char 'f'), press .down, .iter true .nothing, press .enter])).map
    (fun x => (x.ui.file, x.shown.map (fun s => s.editIndex))) = some (some [str! "disabled"], some 1) := by decide

/-! ## C94: only `q` quits -/

/-- **C94.** The user interface is left only by `q`, pressed when no error is shown and no comment is being entered; until
then the list of problems is at the bottom of the stack of screens, so Esc leads back to it. -/
theorem C94_only_q_quits (env : Env F E C) (hs : env.Sane) (x x' : Sys F C) (tr : List (Sys F C × Act F C))
    (h : Exec env x tr) (a : Act F C) (ha : act env x a = some x') (hne : x.ui.modes ≠ []) :
    x.ui.modes.getLast? = some .selectProblem ∧
    (x'.ui.modes = [] → ∃ w, a = .iter w (.key (.char 'q')) ∧ Listening x ∧
      ∀ input, x.ui.modes.head? ≠ some (.setComment input)) := by
  have hi := exec_inv hs h
  obtain ⟨t, ht⟩ := hi.store
  have hbot : x.ui.modes.getLast? = some .selectProblem := by
    rcases hi.bottom with h1 | h1
    · exact absurd h1 hne
    · exact h1
  refine ⟨hbot, fun hq => ?_⟩
  have htail : ∀ m, m ≠ Mode.selectProblem → x.ui.modes.head? = some m → x.ui.modes.tail ≠ [] := by
    intro m hm hhead
    obtain ⟨l, hl⟩ := head_cons hhead
    have hb := hi.bottom
    rw [hl] at hb ⊢
    exact (Bottom.pop hb (Or.inl hm)).2
  cases did ha with
  | idle h1 => rcases h1 with h1 | h1 <;> (rw [h1] at hq; exact absurd hq hne)
  | report => exact absurd hq hne
  | reload => exact absurd hq hne
  | touch => exact absurd hq hne
  | @quiet w k x' h1 h2 h3 hw hk =>
    have hcq : checkQuit x = x := by
      rcases checkQuit_ui x with ⟨_, h4⟩ | ⟨h4, _⟩
      · exact h4
      · exact absurd h4 hne
    rw [hcq] at hk
    by_cases hkq : k = .char 'q'
    · subst hkq
      refine ⟨w, rfl, ⟨h1, h2, h3⟩, ?_⟩
      intro input hin
      exact handleKey_stays env w hi.bottom hne hw (Or.inr ⟨input, hin⟩) hk hq
    · exact absurd hq (handleKey_stays env w hi.bottom hne hw (Or.inl hkq) hk)
  | @accept w k x' h1 h2 h3 hm hk hacc =>
    have htl := htail _ (by simp) hm
    rcases acceptKey_cases env hs w x.ui ht with ⟨h1, _⟩ | ⟨_, _, h1, _⟩ | ⟨id, p, ed, e, st, tr', _, hed, hop, hok, rfl, h6, _⟩
    · rw [h1] at hacc
      simp only [Option.some.injEq, Prod.mk.injEq] at hacc
      rw [← hacc.1] at hq; exact absurd hq htl
    · rw [h1] at hacc
      simp only [Option.some.injEq, Prod.mk.injEq] at hacc
      rw [← hacc.1] at hq; exact absurd hq hne
    · rw [h6] at hacc
      simp only [Option.some.injEq, Prod.mk.injEq] at hacc
      rw [← hacc.1] at hq; exact absurd hq htl
  | @confirm w x' h1 h2 h3 hm hcf =>
    have htl := htail _ (by simp) hm
    unfold confirmKey at hcf
    cases h4 : acceptAll env w { x.ui with acceptSingle := true } with
    | none => rw [h4] at hcf; cases hcf
    | some r =>
      have h5 := acceptAll_inv env w (s := { x.ui with acceptSingle := true }) ht h4
      obtain ⟨s', b⟩ := r
      rw [h4] at hcf
      have hms : s'.modes = x.ui.modes := h5.2.1
      cases b <;> simp only [ok, Option.some.injEq, Prod.mk.injEq] at hcf
      · rw [← hcf.1] at hq
        have hq : s'.modes.tail = [] := hq
        rw [hms] at hq; exact absurd hq htl
      · rw [← hcf.1, hms] at hq; exact absurd hq hne
  | @added w x' b h1 h2 hacc hall =>
    obtain ⟨t', ht'⟩ := (checkQuit_inv hi).store
    have h5 := acceptAll_inv env w ht' hall
    rw [h5.2.1, checkQuit_modes] at hq
    exact absurd hq hne

/-- Non-vacuity: Esc leads back to the problems and stops there; `q` in the comment input is a letter. -/
example : (demoRun (reported [macroA] ++ [press (.char 'f'), press (.char 'h'), press .esc, press .esc, press .esc])).map
    (fun x => x.ui.modes) = some [.selectProblem] := by decide
example : (demoRun (reported [macroA] ++ [press (.char 'f'), press (.char 'c'), press (.char 'q')])).map
    (fun x => x.ui.modes.head?) = some (some (.setComment (str! "q"))) := by decide

end Cackle.Ui
