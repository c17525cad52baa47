import Verif.Lemmas.BasicTerm
import Verif.Props.ProblemsUi

/-!
# C95 to C100: the line-based user interface

An execution (`Exec`) interleaves what the thread receives with reports of problems, reloads of the config and changes of
the config file by others.
-/

namespace Cackle.Basic
open Cackle Store
open Cackle.Ui (EditM Env openFile macroA macroB usesFs)
open Cackle.Toml (Entries readDoc)

variable {F E C : Type}

/-! ## An example -/

/-- The config file and the editor of the example in `Props/ProblemsUi.lean`; a file with the line `broken` cannot be
parsed. -/
def demo : Env (List Str) (List Str) Bool :=
  { Ui.demo with parse := fun f => if str! "broken" ∈ f then none else some f }

/-- The first config file of the example. -/
def demoSetup : Setup (List Str) :=
  { start := some [str! "new"], builtIn := fun a => a == str! "fs" || a == str! "net", toggle := fun a e => some (e ++ [a]) }

theorem demoSetup_works : demoSetup.Works :=
  ⟨fun _ => True, ⟨_, rfl, trivial⟩, fun e a _ _ => ⟨e ++ [a], rfl, trivial⟩⟩

instance : Decidable (Act.Possible (F := F) (E := E) (C := C) s a) := by
  unfold Act.Possible
  split <;> infer_instance

/-- Several things happen, if they are possible. -/
def runActs (env : Env F E C) (su : Setup E) (s : State F E C) : List (Act F C) → Option (State F E C)
  | [] => some s
  | a :: as => if a.Possible s then (act env su s a).bind (fun s => runActs env su s as) else none

theorem exec_runActs {env : Env F E C} {su : Setup E} {as : List (Act F C)} {s s' : State F E C}
    {tr : List (State F E C × Act F C)} (h : Exec env su s tr) (hr : runActs env su s as = some s') :
    ∃ tr', Exec env su s' tr' := by
  induction as generalizing s tr with
  | nil => cases hr; exact ⟨tr, h⟩
  | cons a as ih =>
    simp only [runActs] at hr
    split at hr
    · rename_i hp
      obtain ⟨s1, h1, h2⟩ := Option.bind_eq_some_iff.mp hr
      exact ih (.step a h hp h1) h2
    · cases hr

def demo0 (file : Option (List Str)) : State (List Str) (List Str) Bool := State.new file false

def demoRun (file : Option (List Str)) (as : List (Act (List Str) Bool)) : Option (State (List Str) (List Str) Bool) :=
  runActs demo demoSetup (demo0 file) as

theorem demo_exec {file : Option (List Str)} {as : List (Act (List Str) Bool)} {s : State (List Str) (List Str) Bool}
    (h : demoRun file as = some s) : ∃ tr, Exec demo demoSetup s tr := exec_runActs (.init file false) h

/-- Problems are reported, and the thread gets the event. -/
def reported (ps : List Problem) : List (Act (List Str) Bool) := [.report ps, .input true .added]

/-- A line is typed. -/
def type (l : Str) : Act (List Str) Bool := .input true (.line l)

def isAsking (s : State F E C) : Option (Nat × Nat) :=
  match s.phase with
  | .asking id fixes => some (id, fixes.length)
  | _ => none

def isIdle (s : State F E C) : Bool :=
  match s.phase with
  | .idle => true
  | _ => false

theorem isAsking_iff {s : State F E C} {id n : Nat} (h : isAsking s = some (id, n)) :
    ∃ fixes, s.phase = .asking id fixes ∧ fixes.length = n := by
  unfold isAsking at h
  split at h
  · rename_i i fixes hp
    simp only [Option.some.injEq, Prod.mk.injEq] at h
    obtain ⟨rfl, rfl⟩ := h
    exact ⟨fixes, hp, rfl⟩
  · cases h

/-! ## C95: the end of the input -/

/-- The end of the input is seen `n` times. -/
def ends (env : Env F E C) (su : Setup E) : Nat → State F E C → State F E C
  | 0, s => s
  | n + 1, s => ends env su n (step env su true s .eof)

/-- **C95 (the claim).** When standard input has ended while a problem is being asked about, those who wait get an
answer. -/
def C95_Claim : Prop :=
  ∀ (F E C : Type) (env : Env F E C) (su : Setup E), su.Works → ∀ s tr, Exec env su s tr →
    ∀ id fixes, s.phase = .asking id fixes → ∀ w < s.store.nextChan, ∃ n, Answered (ends env su n s) w

/-- **C95 (partial).** After the end of the input the thread asks about the same problem forever, whatever else happens:
nobody gets an answer, no problem is approved, the config file is left alone, and the thread does not even stop when it is
told to. Missing: that those who wait are told to give up, see `C95_end_of_input_hangs`. -/
theorem C95_end_of_input_partial (env : Env F E C) (su : Setup E) (hw : su.Works) (s s' : State F E C)
    (tr : List (State F E C × Act F C)) (h : Exec env su s tr) (id : Nat) (fixes : List (EditM E))
    (hp : s.phase = .asking id fixes) (as : List (Act F C)) (has : ∀ a ∈ as, AfterEnd a) (hr : Acts env su s as s') :
    (∃ fixes', s'.phase = .asking id fixes') ∧ s'.store.sent = s.store.sent ∧
    (∀ j, Live s.store j → Live s'.store j) ∧ ((∀ f, Act.touch f ∉ as) → s'.file = s.file) := by
  induction hr generalizing tr fixes with
  | nil => exact ⟨⟨fixes, hp⟩, rfl, fun _ h => h, fun _ => rfl⟩
  | @cons s s1 s2 a as hpos ha _ ih =>
    obtain ⟨P, hsu, hP, hi⟩ := exec_inv hw h
    obtain ⟨t, ht⟩ := hi.store
    have key : (∃ fixes', s1.phase = .asking id fixes') ∧ s1.store.sent = s.store.sent ∧
        (∀ j, Live s.store j → Live s1.store j) ∧ ((∀ f, a ≠ Act.touch f) → s1.file = s.file) := by
      cases a with
      | report ps =>
        obtain ⟨r, h1, rfl⟩ := Option.map_eq_some_iff.mp ha
        refine ⟨⟨fixes, hp⟩, (add_sent ht h1).1, ?_, fun _ => rfl⟩
        intro j hj
        have hstep : Store.step s.store (.add ps) = some (r.1, .added s.store.nextChan r.2) := by
          simp only [Store.step, h1, Option.map_some]
        obtain ⟨p, hpj⟩ := hj
        obtain ⟨q, hq, _⟩ := (C11_ids_stable _ _ _ ht _ _ hstep).1 j p (mem_live.mpr hpj) (by simp)
        exact ⟨q, mem_live.mp hq⟩
      | reload c => cases ha; exact ⟨⟨fixes, hp⟩, rfl, fun _ h => h, fun _ => rfl⟩
      | touch f => cases ha; exact ⟨⟨fixes, hp⟩, rfl, fun _ h => h, fun hne => absurd rfl (hne f)⟩
      | input w i =>
        cases ha
        cases i with
        | line l => exact False.elim (has (.input w (.line l)) (by simp))
        | tick => exact False.elim (has (.input w .tick) (by simp))
        | added =>
          have : step env su w s .added = s := by simp only [step, hp]
          rw [this]
          exact ⟨⟨fixes, hp⟩, rfl, fun _ h => h, fun _ => rfl⟩
        | shutdown =>
          have : step env su w s .shutdown = s := by simp only [step, hp]
          rw [this]
          exact ⟨⟨fixes, hp⟩, rfl, fun _ h => h, fun _ => rfl⟩
        | eof =>
          have : step env su w s .eof = look env su s := by simp only [step, hp]
          rw [this]
          have hph := hi.phase
          unfold PhaseOk at hph
          rw [hp] at hph
          obtain ⟨p, rest, _, _, h1, h2, _⟩ := hph
          refine ⟨⟨_, look_other env su h1 h2⟩, by rw [look_store], ?_, fun _ => by rw [look_file]⟩
          rw [look_store]; exact fun _ h => h
    obtain ⟨⟨fixes1, k1⟩, k2, k3, k4⟩ := key
    obtain ⟨i1, i2, i3, i4⟩ := ih _ (.step a h hpos ha) fixes1 k1 (fun a ha => has a (by simp [ha]))
    refine ⟨i1, i2.trans k2, fun j hj => i3 j (k3 j hj), ?_⟩
    intro hf
    rw [i4 (fun f hm => hf f (by simp [hm])), k4 (fun f he => hf f (by simp [he]))]

theorem acts_ends (env : Env F E C) (su : Setup E) (n : Nat) (s : State F E C) :
    Acts env su s (List.replicate n (.input true .eof)) (ends env su n s) := by
  induction n generalizing s with
  | zero => exact .nil
  | succ n ih => exact .cons trivial rfl (ih _)

/-- **C95 is false.** -/
theorem C95_end_of_input_hangs : ¬ C95_Claim := by
  intro h
  have h1 : (demoRun (some []) (reported [macroA])).isSome = true := by decide
  obtain ⟨s, hs⟩ := Option.isSome_iff_exists.mp h1
  obtain ⟨tr, he⟩ := demo_exec hs
  have h2 : (demoRun (some []) (reported [macroA])).bind isAsking = some (0, 1) := by decide
  have h3 : (demoRun (some []) (reported [macroA])).map (fun s => (s.store.nextChan, s.store.sent)) = some (1, []) := by decide
  rw [hs, Option.bind_some] at h2
  rw [hs] at h3
  simp only [Option.map_some, Option.some.injEq, Prod.mk.injEq] at h3
  obtain ⟨fixes, hp, _⟩ := isAsking_iff h2
  obtain ⟨n, o, ho⟩ := h _ _ _ demo demoSetup demoSetup_works s tr he 0 fixes hp 0 (by rw [h3.1]; decide)
  have := (C95_end_of_input_partial demo demoSetup demoSetup_works s _ tr he 0 fixes hp _ (by
    intro a ha
    rw [List.mem_replicate] at ha
    rw [ha.2]
    trivial) (acts_ends demo demoSetup n s)).2.1
  rw [this, h3.2] at ho
  cases ho

/-- A run as in C95, in which the config file is even repaired by hand. -/
example : ((demoRun (some []) (reported [macroA] ++ [.input true .eof, .touch (some [str! "a"]), .input true .eof,
    .input true .shutdown])).bind isAsking) = some (0, 1) := by decide

/-! ## C96: failures -/

/-- **C96 (the claim).** The thread does not stop while there are problems: what goes wrong is shown, and the user is asked
again. -/
def C96_Claim : Prop :=
  ∀ (F E C : Type) (env : Env F E C) (su : Setup E), su.Works → ∀ s tr, Exec env su s tr → ¬ Gone s →
    ∀ w i, Gone (step env su w s i) → live s.store = []

/-- **C96 is false**: the chosen fix cannot be written. -/
theorem C96_write_error_ends_thread : ¬ C96_Claim := by
  intro h
  have h1 : (demoRun (some []) (reported [macroA])).isSome = true := by decide
  obtain ⟨s, hs⟩ := Option.isSome_iff_exists.mp h1
  obtain ⟨tr, he⟩ := demo_exec hs
  have h2 : (demoRun (some []) (reported [macroA])).bind isAsking = some (0, 1) := by decide
  rw [hs, Option.bind_some] at h2
  obtain ⟨fixes, hp, _⟩ := isAsking_iff h2
  have h3 : (demoRun (some []) (reported [macroA])).map
      (fun s => match (step demo demoSetup false s (.line (str! "1"))).phase with | .failed => true | _ => false) = some true := by
    decide
  have h4 : (demoRun (some []) (reported [macroA])).map (fun s => (live s.store).length) = some 1 := by decide
  rw [hs] at h3 h4
  simp only [Option.map_some, Option.some.injEq] at h3 h4
  have := h _ _ _ demo demoSetup demoSetup_works s tr he (by simp [Gone, hp]) false (.line (str! "1")) (by
    right; left
    split at h3
    · assumption
    · cases h3)
  rw [this] at h4
  cases h4

/-- **C96 (partial).** The thread stops exactly when it is told to while there is no problem, when a chosen fix cannot be
applied or written, when a diff cannot be computed, when the first config file cannot be written, and when the input
ends while the first config file is being made. Missing: that it goes on in the other cases but the first. -/
theorem C96_stops_partial (env : Env F E C) (su : Setup E) (hw : su.Works) (s : State F E C)
    (tr : List (State F E C × Act F C)) (h : Exec env su s tr) (hg : ¬ Gone s) (w : Bool) (i : Input) :
    Gone (step env su w s i) ↔
      (s.phase = .idle ∧ i = .shutdown) ∨
      (∃ id fixes l n ed, s.phase = .asking id fixes ∧ i = .line l ∧ fixes[n]? = some ed ∧
        (action l fixes.length = some (.applyFix n) ∧ (w = false ∨ ¬ Applies env s.file ed) ∨
         action l fixes.length = some (.showDiff n) ∧ (s.file = none ∨ ¬ Applies env s.file ed))) ∨
      (∃ id e, s.phase = .confirming id e ∧ (i = .eof ∨ w = false ∧ ∃ l, i = .line l)) ∨
      (∃ id e, s.phase = .choosing id e ∧ i = .eof) := by
  obtain ⟨P, hsu, hP, hi⟩ := exec_inv hw h
  obtain ⟨t, ht⟩ := hi.store
  have hph := hi.phase
  have hfin : ∀ s0 : State F E C, ∀ id, s0.store = s.store → (∃ p, (id, p) ∈ live s.store) → ¬ Gone (finish env su s0 id) := by
    intro s0 id h0 ⟨p, hp⟩
    rw [← h0] at ht hp
    obtain ⟨st, h1, _⟩ := finish_spec env su s0 ht hp
    rw [h1]
    exact (look_ok env su hsu _).2
  constructor
  · have hst := stepped env su w s i
    generalize step env su w s i = s' at hst
    intro hgone
    cases hst with
    | same => exact absurd hgone hg
    | look _ => exact absurd hgone (look_ok env su hsu _).2
    | shutdown h1 => exact Or.inl ⟨h1, rfl⟩
    | failed h1 h2 h3 => exact Or.inr (Or.inl ⟨_, _, _, _, _, h1, rfl, h3, h2⟩)
    | apply h1 h2 h3 h4 h5 h6 => exact absurd hgone (hfin (written s _) _ rfl ((asked_live hph).1 _ _ h1))
    | chosen h1 h2 =>
      exfalso
      rename_i b
      cases b <;> simp [Gone] at hgone
    | toggleFailed h1 h2 =>
      exfalso
      rename_i id e l
      unfold PhaseOk at hph
      rw [h1] at hph
      obtain ⟨p, rest, h3, h4, h5⟩ := hph
      obtain ⟨e2, b2, h6, h7⟩ := toggleAll_ok hP (splitChar ',' (trim l)) h5
      have h2' : toggleAll su (splitChar ',' (trim l)) e = none := h2
      rw [h6] at h2'
      cases h2'
    | confirmed h1 h2 => exact absurd hgone (hfin (written s _) _ rfl ((asked_live hph).2.2 _ _ h1))
    | writeFailed h1 h2 => exact Or.inr (Or.inr (Or.inl ⟨_, _, h1, Or.inr ⟨h2, _, rfl⟩⟩))
    | retry h1 h2 => exact absurd hgone (hfin { s with last := s.mtime } _ rfl ((asked_live hph).1 _ _ h1))
    | eofCrash h1 =>
      obtain ⟨id, e, h1 | h1⟩ := h1
      · exact Or.inr (Or.inr (Or.inr ⟨_, _, h1, rfl⟩))
      · exact Or.inr (Or.inr (Or.inl ⟨_, _, h1, Or.inl rfl⟩))
  · rintro (⟨h1, rfl⟩ | ⟨id, fixes, l, n, ed, h1, rfl, h3, h4⟩ | ⟨id, e, h1, rfl | ⟨h2, l, rfl⟩⟩ | ⟨id, e, h1, rfl⟩)
    · left
      simp only [step, h1]
    · right; left
      rcases h4 with ⟨ha, h5⟩ | ⟨ha, h5⟩
      · simp only [step, h1, ha, applyFix, h3]
        cases ho : openFile env s.file with
        | none => rfl
        | some e =>
          have : ¬ ((ed.apply none e).2 && w) = true := by
            rw [Bool.and_eq_true]
            rintro ⟨h6, h7⟩
            rcases h5 with h5 | h5
            · rw [h5] at h7; cases h7
            · exact h5 ⟨e, ho, h6⟩
          simp only [if_neg this]
          rfl
      · simp only [step, h1, ha, showDiff, h3]
        cases ho : openFile env s.file with
        | none => rfl
        | some e =>
          have : ¬ ((ed.apply none e).2 && s.file.isSome) = true := by
            rw [Bool.and_eq_true]
            rintro ⟨h6, h7⟩
            rcases h5 with h5 | h5
            · rw [h5] at h7; cases h7
            · exact h5 ⟨e, ho, h6⟩
          simp only [if_neg this]
          rfl
    · right; right
      simp only [step, h1, crash]
    · right; right
      simp only [step, h1, h2, crash]
      rfl
    · right; right
      simp only [step, h1, crash]

/-- **C96 (what then happens).** Once the thread is gone, nobody ever gets an answer. -/
theorem C96_gone_is_silent (env : Env F E C) (su : Setup E) (hw : su.Works) (s s' : State F E C)
    (tr : List (State F E C × Act F C)) (h : Exec env su s tr) (hg : Gone s) (as : List (Act F C)) (hr : Acts env su s as s') :
    Gone s' ∧ s'.store.sent = s.store.sent := by
  induction hr generalizing tr with
  | nil => exact ⟨hg, rfl⟩
  | @cons s s1 s2 a as hpos ha _ ih =>
    obtain ⟨P, hsu, hP, hi⟩ := exec_inv hw h
    obtain ⟨t, ht⟩ := hi.store
    have key : Gone s1 ∧ s1.store.sent = s.store.sent := by
      cases a with
      | report ps =>
        obtain ⟨r, h1, rfl⟩ := Option.map_eq_some_iff.mp ha
        exact ⟨hg, (add_sent ht h1).1⟩
      | reload c => cases ha; exact ⟨hg, rfl⟩
      | touch f => cases ha; exact ⟨hg, rfl⟩
      | input w i =>
        cases ha
        have : step env su w s i = s := by
          rcases hg with hg | hg | hg <;> cases i <;> simp only [step, hg]
        rw [this]
        exact ⟨hg, rfl⟩
    obtain ⟨i1, i2⟩ := ih _ (.step a h hpos ha) key.1
    exact ⟨i1, i2.trans key.2⟩

/-- The thread panics at the end of the input while it makes the first config file. -/
example : ((demoRun none (reported [.missingConfiguration (str! "cackle.toml")] ++ [type (str! "fs"), .input true .eof])).map
    (fun s => (match s.phase with | .crashed => true | _ => false, s.store.nextChan, s.store.sent))) = some (true, 1, []) := by
  decide

/-- The thread ends because the config file has been damaged by hand and the user asks for a diff. -/
example : ((demoRun (some []) (reported [macroA] ++ [.touch (some [str! "broken"]), type (str! "d1")])).map
    (fun s => (match s.phase with | .failed => true | _ => false, s.store.nextChan, s.store.sent))) = some (true, 1, []) := by
  decide

/-! ## C97: answers -/

/-- **C97.** Typing the number of a fix applies exactly that fix, without a comment, to the config file as it is then, and
resolves the problem that was shown and no other; the fixes shown were those for that problem. -/
theorem C97_number_applies_fix (env : Env F E C) (su : Setup E) (hw : su.Works) (s : State F E C)
    (tr : List (State F E C × Act F C)) (h : Exec env su s tr) (id : Nat) (fixes : List (EditM E))
    (hp : s.phase = .asking id fixes) (n : Nat) (ed : EditM E) (hn : fixes[n]? = some ed) (hk : fixes.length < 2 ^ 64)
    (l : Str) (hl : Padded (numeral (n + 1)) l) (e : E) (he : env.parse (s.file.getD env.blank) = some e)
    (hok : (ed.apply none e).2 = true) :
    (∃ p c0 p0, (id, p) ∈ live s.store ∧ Grown p0 p ∧ fixes = env.fixes c0 p0) ∧
    (step env su true s (.line l)).file = some (env.print (ed.apply none e).1) ∧
    Dead (step env su true s (.line l)).store id ∧
    (∀ j : Nat, j ≠ id → (step env su true s (.line l)).store.problems[j]? = s.store.problems[j]?) := by
  obtain ⟨P, hsu, hP, hi⟩ := exec_inv hw h
  obtain ⟨t, ht⟩ := hi.store
  have hph := hi.phase
  unfold PhaseOk at hph
  rw [hp] at hph
  obtain ⟨p, rest, c0, p0, h1, h2, h3, h4⟩ := hph
  have hpl : (id, p) ∈ live s.store := by rw [h1]; simp
  have hlt : n < fixes.length := (List.getElem?_eq_some_iff.mp hn).1
  have ha := action_numeral hl hlt hk
  have hstep : step env su true s (.line l) = finish env su (written s (env.print (ed.apply none e).1)) id := by
    have ho : openFile env s.file = some e := he
    simp only [step, hp, ha, applyFix, hn, ho, hok, Bool.and_self, if_true]
  rw [hstep]
  obtain ⟨st, g1, g2, g3, _⟩ := finish_spec env su (written s (env.print (ed.apply none e).1)) ht hpl
  rw [g1, look_store, look_file]
  have g3 : st.problems = s.store.problems.set id none := g3
  refine ⟨⟨p, c0, p0, hpl, h3, h4⟩, rfl, ?_, ?_⟩
  · show st.problems[id]? = some none
    rw [g3, dead_set (mem_live.mp hpl)]
    exact Or.inl rfl
  · intro j hj
    show st.problems[j]? = _
    rw [g3, List.getElem?_set_ne (Ne.symm hj)]

/-- **C97 (diffs).** Typing `d` and the number of a fix changes nothing, and the question stays. -/
theorem C97_diff_changes_nothing (env : Env F E C) (su : Setup E) (s : State F E C) (id : Nat) (fixes : List (EditM E))
    (hp : s.phase = .asking id fixes) (n : Nat) (ed : EditM E) (hn : fixes[n]? = some ed) (hk : fixes.length < 2 ^ 64)
    (l : Str) (hl : Padded ('d' :: numeral (n + 1)) l) (he : Applies env s.file ed) (hf : s.file ≠ none) (w : Bool) :
    step env su w s (.line l) = s := by
  have hlt : n < fixes.length := (List.getElem?_eq_some_iff.mp hn).1
  have ha := action_diff hl hlt hk
  obtain ⟨e, he, hok⟩ := he
  have ho : openFile env s.file = some e := he
  have hf' : s.file.isSome = true := Option.isSome_iff_ne_none.mpr hf
  simp only [step, hp, ha, showDiff, hn, ho, hok, hf', Bool.and_self, if_true]

/-- **C97 (only numbers).** A line that is not the number of one of the fixes shown approves nothing. -/
theorem C97_only_numbers (env : Env F E C) (su : Setup E) (s : State F E C) (id : Nat) (fixes : List (EditM E))
    (hp : s.phase = .asking id fixes) (l : Str) (hl : ∀ n < fixes.length, ¬ Denotes l (n + 1)) (w : Bool) :
    (step env su w s (.line l)).store = s.store ∧ (step env su w s (.line l)).file = s.file := by
  have hst := stepped env su w s (.line l)
  generalize step env su w s (.line l) = s' at hst
  cases hst with
  | same => exact ⟨rfl, rfl⟩
  | look h1 => rw [look_store, look_file]; exact ⟨rfl, rfl⟩
  | failed _ _ _ => exact ⟨rfl, rfl⟩
  | apply h1 h2 _ _ _ _ =>
    rw [hp] at h1
    cases h1
    exact absurd (action_denotes h2) (hl _ (action_lt (Or.inl h2)))
  | chosen _ _ => exact ⟨rfl, rfl⟩
  | toggleFailed _ _ => exact ⟨rfl, rfl⟩
  | confirmed h1 _ => rw [hp] at h1; cases h1
  | writeFailed _ _ => exact ⟨rfl, rfl⟩

/-- Two problems, the second fix of the first one is chosen: it is written, and the second problem is asked about. -/
example : (demoRun (some [str! "x"]) (reported [usesFs, macroB] ++ [type (str! "D2"), type (str! "yes"), type (str! " +2 ")])).map
    (fun s => (s.file, isAsking s, (live s.store).map Prod.fst)) =
    some (some [str! "x", str! "exclude"], some (1, 1), [1]) := by decide

example : Padded (numeral 12) (str! " 12\t") :=
  ⟨[' '], ['\t'], by decide, by simp [blanks], by simp [blanks]⟩

/-! ## C98: nothing is approved without the user -/

/-- **C98.** A problem is solved only because the user chose one of its fixes, which was then written to the config file,
because they confirmed the first config file, or because the config file was changed by others while, or before, the
problem was asked about. -/
theorem C98_solved_only_by_user (env : Env F E C) (su : Setup E) (hw : su.Works) (s : State F E C)
    (tr : List (State F E C × Act F C)) (h : Exec env su s tr) (id : Nat) (hd : Dead s.store id) :
    ∃ later x a earlier, tr = later ++ (x, a) :: earlier ∧
      ((∃ n ed, Chose env id n ed x a) ∨ (∃ e, ConfirmedFirst id e x a) ∨
       (Noticed id x a ∧ ∃ y f, (y, .touch f) ∈ earlier)) := by
  obtain ⟨P, hsu, hP, hi⟩ := exec_inv hw h
  exact hi.dead id hd

/-- **C98 (the file).** The thread changes the config file only by writing the chosen fix or the confirmed first config
file. -/
theorem C98_file_only_by_user (env : Env F E C) (su : Setup E) (hw : su.Works) (s : State F E C)
    (tr : List (State F E C × Act F C)) (h : Exec env su s tr) (w : Bool) (i : Input)
    (hf : (step env su w s i).file ≠ s.file) :
    (∃ id n ed e, Chose env id n ed s (.input w i) ∧ env.parse (s.file.getD env.blank) = some e ∧
      (step env su w s i).file = some (env.print (ed.apply none e).1)) ∨
    (∃ id e, ConfirmedFirst id e s (.input w i) ∧ (step env su w s i).file = some (env.print e)) := by
  obtain ⟨P, hsu, hP, hi⟩ := exec_inv hw h
  obtain ⟨t, ht⟩ := hi.store
  have hph := hi.phase
  have hfin : ∀ s0 : State F E C, ∀ id, s0.store = s.store → (∃ p, (id, p) ∈ live s.store) →
      (finish env su s0 id).file = s0.file := by
    intro s0 id h0 ⟨p, hp⟩
    rw [← h0] at ht hp
    obtain ⟨st, h1, _⟩ := finish_spec env su s0 ht hp
    rw [h1, look_file]
  have hst := stepped env su w s i
  generalize step env su w s i = s' at hst hf
  cases hst with
  | same => exact absurd rfl hf
  | look _ => rw [look_file] at hf; exact absurd rfl hf
  | shutdown _ => exact absurd rfl hf
  | failed _ _ _ => exact absurd rfl hf
  | apply h1 h2 h3 h4 h5 h6 =>
    subst h6
    left
    refine ⟨_, _, _, _, ⟨_, _, h1, rfl, h2, h3, _, h4, h5⟩, h4, ?_⟩
    exact hfin (written s _) _ rfl ((asked_live hph).1 _ _ h1)
  | chosen _ _ => exact absurd rfl hf
  | toggleFailed _ _ => exact absurd rfl hf
  | confirmed h1 h2 =>
    subst h2
    right
    refine ⟨_, _, ⟨_, h1, rfl⟩, ?_⟩
    exact hfin (written s _) _ rfl ((asked_live hph).2.2 _ _ h1)
  | writeFailed _ _ => exact absurd rfl hf
  | retry h1 h2 =>
    rw [hfin { s with last := s.mtime } _ rfl ((asked_live hph).1 _ _ h1)] at hf
    exact absurd rfl hf
  | eofCrash _ => exact absurd rfl hf

/-- **C98 (changes are noticed).** If somebody else writes the config file while a problem is asked about, the next time-out
takes the problem as solved, so that it is checked again. -/
theorem C98_change_noticed (env : Env F E C) (su : Setup E) (hw : su.Works) (s s' : State F E C)
    (tr : List (State F E C × Act F C)) (h : Exec env su s tr) (id : Nat) (fixes : List (EditM E))
    (hp : s.phase = .asking id fixes) (f : F) (ha : act env su s (.touch (some f)) = some s') (w : Bool) :
    Dead (step env su w s' .tick).store id ∧ (step env su w s' .tick).file = some f := by
  obtain ⟨P, hsu, hP, hi⟩ := exec_inv hw h
  obtain ⟨t, ht⟩ := hi.store
  cases ha
  obtain ⟨p, hpl⟩ := (asked_live hi.phase).1 _ _ hp
  have hne : s.last ≠ some s.clock := fun he => absurd (hi.clock.1 _ he) (Nat.lt_irrefl _)
  have : step env su w { s with file := some f, mtime := some s.clock, clock := s.clock + 1 } .tick =
      finish env su { s with file := some f, mtime := some s.clock, clock := s.clock + 1, last := some s.clock } id := by
    simp only [step, hp]
    rw [if_pos hne]
  simp only [Option.map_some]
  rw [this]
  obtain ⟨st, g1, g2, g3, _⟩ := finish_spec env su
    { s with file := some f, mtime := some s.clock, clock := s.clock + 1, last := some s.clock } ht hpl
  rw [g1, look_store, look_file]
  refine ⟨?_, rfl⟩
  show st.problems[id]? = some none
  rw [g3, dead_set (mem_live.mp hpl)]
  exact Or.inl rfl

example : (demoRun (some []) (reported [usesFs, macroB] ++ [.input true .tick, .touch (some [str! "fs"]), .input true .tick])).map
    (fun s => (s.file, isAsking s, (live s.store).map Prod.fst)) = some (some [str! "fs"], some (1, 1), [1]) := by decide

/-! ## C99: the first config file -/

/-- **C99 (the claim).** The first config file restricts exactly the APIs of the last answer, the one that was not rejected. -/
def C99_Claim : Prop :=
  ∀ (F C : Type) (env : Env F Entries C) (b : Bool) (s : State F Entries C) (tr : List (State F Entries C × Act F C)),
    Exec env (setup b) s tr → ∀ id doc0, s.phase = .choosing id doc0 → (setup b).start = some doc0 →
    ∀ (ls : List Str) (l : Str) (ns : List Str), Lists l ns → (∀ n ∈ ns, (Config.builtIns.get? n).isSome) → ∀ doc,
    (typeLines env (setup b) s (ls ++ [l])).phase = .confirming id doc →
    ∃ r, readDoc 0 doc = some r ∧ ∀ a, a ∈ r.common.importStd ↔ a ∈ ns

/-- The real editor, with everything else of the example. -/
def real : Env Entries Entries Bool :=
  { fixes := fun _ _ => [], parse := some, blank := [], print := fun e => e, mentions := fun _ _ => false,
    typed := fun _ s => s, frames := fun _ _ => none }

/-- The thread asks for the APIs. -/
def realStart : State Entries Entries Bool :=
  { (State.new none false : State Entries Entries Bool) with
    phase := .choosing 0 (firstDoc true), received := 1,
    store := (match add {} [.missingConfiguration (str! "cackle.toml")] with | some r => r.1 | none => {}) }

theorem realStart_exec : ∃ tr, Exec real (setup true) realStart tr :=
  exec_runActs (as := [.report [.missingConfiguration (str! "cackle.toml")], .input true .added]) (.init none false) rfl

theorem fsNet_lists : Lists (str! "fs, net") [str! "fs", str! "net"] := by
  refine ⟨[(str! "fs", str! "fs"), (str! "net", str! " net")], rfl, rfl, ?_⟩
  intro x hx
  simp only [List.mem_cons, List.not_mem_nil, or_false] at hx
  rcases hx with rfl | rfl
  · exact ⟨by refine ⟨by decide, ?_, ?_⟩ <;> (intro c hc; cases hc; decide), [], [], rfl, by simp, by simp⟩
  · exact ⟨by refine ⟨by decide, ?_, ?_⟩ <;> (intro c hc; cases hc; decide), [' '], [], rfl, by simp [blanks], by simp⟩

/-- **C99 is false**: after a mistyped name the user types the whole list again, and the APIs that had been spelled right
are not restricted. -/
theorem C99_retyping_switches_off : ¬ C99_Claim := by
  intro h
  obtain ⟨tr, he⟩ := realStart_exec
  have hph : (typeLines real (setup true) realStart ([str! "fs,nett"] ++ [str! "fs, net"])).phase = .confirming 0
      [(str! "common", .table [(str! "version", .int 3), (str! "import_std", .array [.str (str! "net")])]),
       (str! "sandbox", .table [(str! "kind", .str (str! "Bubblewrap"))])] := rfl
  obtain ⟨r, h1, h2⟩ := h _ _ real true realStart tr he 0 (firstDoc true) rfl rfl [str! "fs,nett"] (str! "fs, net") _
    fsNet_lists (by decide) _ hph
  have h3 : readDoc 0 [(str! "common", .table [(str! "version", .int 3), (str! "import_std", .array [.str (str! "net")])]),
       (str! "sandbox", .table [(str! "kind", .str (str! "Bubblewrap"))])] = some (firstRaw true [str! "net"]) := rfl
  rw [h3] at h1
  cases h1
  have := (h2 (str! "fs")).mpr (by simp)
  revert this
  decide

/-- **C99 (partial).** If the first answer lists known APIs, none of them twice, exactly these are restricted; the file
has the latest version and the available sandbox and nothing else, and Enter writes it and resolves the problem. Missing: answers
after a rejected one, see `C99_toggles`. -/
theorem C99_first_answer_partial (env : Env F Entries C) (b : Bool) (s : State F Entries C)
    (tr : List (State F Entries C × Act F C)) (h : Exec env (setup b) s tr) (id : Nat) (doc0 : Entries)
    (hp : s.phase = .choosing id doc0) (h0 : (setup b).start = some doc0) (l : Str) (ns : List Str) (hl : Lists l ns)
    (hk : ∀ n ∈ ns, (Config.builtIns.get? n).isSome) (hn : ns.Nodup) (k : Nat) (w : Bool) :
    ∃ doc, (step env (setup b) w s (.line l)).phase = .confirming id doc ∧
      readDoc k doc = some { common := { version := 3, importStd := ns }
                             sandbox := { kind := some (if b then .bubblewrap else .disabled) } } ∧
      ∀ l', (typeLines env (setup b) s [l, l']).file = some (env.print doc) ∧
        Dead (typeLines env (setup b) s [l, l']).store id := by
  rw [setup_start] at h0
  cases h0
  obtain ⟨doc, imports, h1, h2, h3, h4, h5, h6⟩ := toggleAll_real b k ns (lists_clean hl) (firstDoc_shape b)
    (firstDoc_read b k) List.nodup_nil
  have himp : imports = ns := by
    have := h6 (fun n hn => ⟨hk n hn, by simp⟩) hn
    simpa using this
  have hall : ns.all (fun n => n.isEmpty || known n) = true := by
    rw [List.all_eq_true]
    intro n hn'
    have : known n = true := hk n hn'
    simp [this]
  rw [hall, ← choose_lists (setup b) hl] at h1
  have hstep : ∀ w, step env (setup b) w s (.line l) = { s with phase := .confirming id doc } := by
    intro w
    simp only [step, hp, h1]
  refine ⟨doc, by rw [hstep], by rw [h3, himp]; rfl, ?_⟩
  intro l'
  obtain ⟨P, hsu, hP, hi⟩ := exec_inv (setup_works b) h
  obtain ⟨t, ht⟩ := hi.store
  obtain ⟨p, hpl⟩ := (asked_live hi.phase).2.1 _ _ hp
  have htl : typeLines env (setup b) s [l, l'] =
      finish env (setup b) (written { s with phase := .confirming id doc } (env.print doc)) id := by
    simp only [typeLines, List.foldl_cons, List.foldl_nil, hstep]
    simp only [step, if_true]
  rw [htl]
  obtain ⟨st, g1, g2, g3, _⟩ := finish_spec env (setup b) (written { s with phase := .confirming id doc } (env.print doc)) ht hpl
  rw [g1, look_store, look_file]
  refine ⟨rfl, ?_⟩
  show st.problems[id]? = some none
  have g3 : st.problems = s.store.problems.set id none := g3
  rw [g3, dead_set (mem_live.mp hpl)]
  exact Or.inl rfl

/-- **C99 (in general).** Whatever is typed until all names of an answer are known, an API is restricted exactly if it is
known and has been typed an odd number of times in all answers together. -/
theorem C99_toggles (env : Env F Entries C) (b : Bool) (s : State F Entries C) (id : Nat) (doc0 : Entries)
    (hp : s.phase = .choosing id doc0) (h0 : (setup b).start = some doc0) (xs : List (Str × List Str))
    (hl : ∀ x ∈ xs, Lists x.1 x.2) (doc : Entries) (k : Nat)
    (he : (typeLines env (setup b) s (xs.map Prod.fst)).phase = .confirming id doc)
    (hlast : ∀ ys x, xs = ys ++ [x] → ∀ y ∈ ys, ∃ n ∈ y.2, n ≠ [] ∧ (Config.builtIns.get? n).isNone) :
    ∃ r, readDoc k doc = some r ∧ ∀ a, a ∈ r.common.importStd ↔
      (Config.builtIns.get? a).isSome ∧ ((xs.map Prod.snd).flatten.count a) % 2 = 1 := by
  rw [setup_start] at h0
  cases h0
  have key : ∀ (xs : List (Str × List Str)) (s : State F Entries C) (d : Entries) (imports : List Str),
      s.phase = .choosing id d → Shape d → readDoc k d = some (firstRaw b imports) → imports.Nodup →
      (∀ x ∈ xs, Lists x.1 x.2) → (typeLines env (setup b) s (xs.map Prod.fst)).phase = .confirming id doc →
      (∀ ys x, xs = ys ++ [x] → ∀ y ∈ ys, ∃ n ∈ y.2, n ≠ [] ∧ (Config.builtIns.get? n).isNone) →
      ∃ imports', readDoc k doc = some (firstRaw b imports') ∧ imports'.Nodup ∧
        ∀ a, imports'.count a % 2 = (imports.count a + if known a then (xs.map Prod.snd).flatten.count a else 0) % 2 := by
    intro xs
    induction xs with
    | nil =>
      intro s d imports h1 _ _ _ _ h2 _
      simp only [List.map_nil, typeLines, List.foldl_nil] at h2
      rw [h1] at h2
      cases h2
    | cons x xs ih =>
      intro s d imports h1 hsh hr hn hl h2 hlast
      have hx := hl x (by simp)
      obtain ⟨d', i', t1, t2, t3, t4, t5, _⟩ := toggleAll_real b k x.2 (lists_clean hx) hsh hr hn
      rw [← choose_lists (setup b) hx] at t1
      simp only [List.map_cons, typeLines, List.foldl_cons] at h2
      cases hall : x.2.all (fun n => n.isEmpty || known n) with
      | true =>
        rw [hall] at t1
        have hs1 : step env (setup b) true s (.line x.1) = { s with phase := .confirming id d' } := by
          simp only [step, h1, t1]
        rw [hs1] at h2
        cases xs with
        | nil =>
          simp only [List.map_nil, List.foldl_nil] at h2
          cases h2
          refine ⟨i', t3, t4, ?_⟩
          intro a
          rw [t5 a]
          simp
        | cons x' xs' =>
          exfalso
          obtain ⟨ys, z, hz⟩ : ∃ ys z, x' :: xs' = ys ++ [z] :=
            ⟨(x' :: xs').dropLast, (x' :: xs').getLast (by simp), (List.dropLast_concat_getLast (by simp)).symm⟩
          obtain ⟨n, hn1, hn2, hn3⟩ := hlast (x :: ys) z (by rw [hz]; rfl) x (by simp)
          rw [List.all_eq_true] at hall
          have := hall n hn1
          have hk : known n = false := by
            unfold known
            simpa using hn3
          rw [hk] at this
          simp [hn2] at this
      | false =>
        rw [hall] at t1
        have hs1 : step env (setup b) true s (.line x.1) = { s with phase := .choosing id d' } := by
          simp only [step, h1, t1]
        rw [hs1] at h2
        obtain ⟨i2, k1, k2, k3⟩ := ih { s with phase := .choosing id d' } d' i' rfl t2 t3 t4
          (fun y hy => hl y (by simp [hy])) h2 (fun ys z hz y hy => hlast (x :: ys) z (by rw [hz]; rfl) y (by simp [hy]))
        refine ⟨i2, k1, k2, ?_⟩
        intro a
        rw [k3 a]
        have := t5 a
        simp only [List.map_cons, List.flatten_cons, List.count_append]
        split <;> rename_i hka <;> simp only [hka] at this <;> simp at this <;> omega
  obtain ⟨i, h1, h2, h3⟩ := key xs s (firstDoc b) [] hp (firstDoc_shape b) (firstDoc_read b k) List.nodup_nil hl he hlast
  refine ⟨_, h1, ?_⟩
  intro a
  show a ∈ i ↔ known a = true ∧ _
  have h4 := h3 a
  have h5 : i.count a ≤ 1 := List.nodup_iff_count.mp h2 a
  simp only [List.count_nil, Nat.zero_add] at h4
  rw [← List.count_pos_iff]
  by_cases hk : known a = true
  · rw [if_pos hk] at h4
    simp only [hk, true_and]
    omega
  · rw [if_neg hk] at h4
    simp only [hk]
    simp only [Bool.false_eq_true, false_and, iff_false]
    omega

example : (typeLines real (setup false) realStart [str! " process,fs "]).phase = .confirming 0
    [(str! "common", .table [(str! "version", .int 3), (str! "import_std", .array [.str (str! "process"), .str (str! "fs")])]),
     (str! "sandbox", .table [(str! "kind", .str (str! "Bubblewrap"))])] := rfl

/-! ## C100: answering all questions -/

/-- **C100.** If the missing config file is not among the problems, there is a fix for every problem, and fixes can be applied
one after the other, then typing `1` once for each problem solves all of them, and everybody who waits is told to continue. -/
theorem C100_answering_finishes (env : Env F E C) (su : Setup E) (hw : su.Works) (s : State F E C)
    (tr : List (State F E C × Act F C)) (h : Exec env su s tr) (id : Nat) (fixes : List (EditM E))
    (hp : s.phase = .asking id fixes) (hcfg : ∀ j p, (j, p) ∈ live s.store → ¬ NoConfig p)
    (hfix : ∀ c p, ¬ NoConfig p → env.fixes c p ≠ [] ∧ (env.fixes c p).length < 2 ^ 64)
    (Q : Option F → Prop) (hQ : Q s.file)
    (happ : ∀ f c p ed, Q f → ed ∈ env.fixes c p → ∃ e, env.parse (f.getD env.blank) = some e ∧ (ed.apply none e).2 = true ∧
      Q (some (env.print (ed.apply none e).1))) :
    (typeLines env su s (List.replicate (live s.store).length (str! "1"))).phase = .idle ∧
    live (typeLines env su s (List.replicate (live s.store).length (str! "1"))).store = [] ∧
    ∀ w < s.store.nextChan, (w, .continue_) ∈ (typeLines env su s (List.replicate (live s.store).length (str! "1"))).store.sent := by
  generalize hm : (live s.store).length = m
  have key : ∀ (m : Nat) (s : State F E C) (tr : List (State F E C × Act F C)), Exec env su s tr → (live s.store).length = m →
      ((∃ id fixes, s.phase = .asking id fixes) ∨ s.phase = .idle ∧ m = 0) → (∀ j p, (j, p) ∈ live s.store → ¬ NoConfig p) →
      Q s.file → (typeLines env su s (List.replicate m (str! "1"))).phase = .idle ∧
        live (typeLines env su s (List.replicate m (str! "1"))).store = [] ∧
        ∀ w < s.store.nextChan, (w, .continue_) ∈ (typeLines env su s (List.replicate m (str! "1"))).store.sent := by
    intro m
    induction m with
    | zero =>
      intro s tr h hm hph _ _
      obtain ⟨P, hsu, hP, hi⟩ := exec_inv hw h
      obtain ⟨t, ht⟩ := hi.store
      have hl : live s.store = [] := List.length_eq_zero_iff.mp hm
      rcases hph with ⟨id, fixes, hph⟩ | ⟨hph, _⟩
      · obtain ⟨p, hpl⟩ := (asked_live hi.phase).1 _ _ hph
        rw [hl] at hpl
        cases hpl
      · exact ⟨hph, hl, fun w hlt => all_answered ht hl hi.running hlt⟩
    | succ m ih =>
      intro s tr h hm hph hcfg hQ
      obtain ⟨P, hsu, hP, hi⟩ := exec_inv hw h
      obtain ⟨t, ht⟩ := hi.store
      rcases hph with ⟨id, fixes, hph⟩ | ⟨_, h0⟩
      · have hok := hi.phase
        unfold PhaseOk at hok
        rw [hph] at hok
        obtain ⟨p, rest, c0, p0, h1, h2, h3, h4⟩ := hok
        have hpl : (id, p) ∈ live s.store := by rw [h1]; simp
        have hp0 : ¬ NoConfig p0 := fun hc => h2 ((noConfig_grown h3).mpr hc)
        have hf := hfix c0 p0 hp0
        rw [← h4] at hf
        cases fixes with
        | nil => exact absurd rfl hf.1
        | cons ed eds =>
          have ha : action (str! "1") (ed :: eds).length = some (.applyFix 0) :=
            action_numeral ⟨[], [], rfl, by simp, by simp⟩ (by simp) hf.2
          obtain ⟨e, e1, e2, e3⟩ := happ s.file c0 p0 ed hQ (by rw [← h4]; simp)
          have ho : openFile env s.file = some e := e1
          have hstep : step env su true s (.line (str! "1")) =
              finish env su (written s (env.print (ed.apply none e).1)) id := by
            simp only [step, hph, ha, applyFix, List.getElem?_cons_zero, ho, e2, Bool.and_self, if_true]
          obtain ⟨st, g1, g2, g3, g4, g5, g6, g7⟩ := finish_spec env su (written s (env.print (ed.apply none e).1)) ht hpl
          have g4 : live st = (live s.store).filter (fun x => decide (x.1 ≠ id)) := g4
          have hlen : (live st).length = m := by
            obtain ⟨st', ids, r1, r2, r3, _, r5⟩ := NullUi.resolve_live hpl
            have : live st = live st' := by
              have g3' : st.problems = s.store.problems.set id none := g3
              unfold live
              rw [g3', r5]
            rw [this]
            omega
          have hex := Exec.step (.input true (.line (str! "1"))) h trivial rfl
          rw [hstep, g1] at hex
          have hcfg' : ∀ j q, (j, q) ∈ live st → ¬ NoConfig q := by
            intro j q hj
            rw [g4, List.mem_filter] at hj
            exact hcfg j q hj.1
          have := ih _ _ hex (by rw [look_store]; exact hlen) (by
            cases hl : live st with
            | nil =>
              right
              refine ⟨look_nil env su hl, ?_⟩
              rw [hl] at hlen
              exact hlen.symm
            | cons x xs =>
              left
              obtain ⟨j, q⟩ := x
              exact ⟨j, _, look_other env su hl (hcfg' j q (by rw [hl]; simp))⟩) (by rw [look_store]; exact hcfg')
            (by rw [look_file]; exact e3)
          simp only [List.replicate_succ, typeLines, List.foldl_cons, hstep, g1]
          refine ⟨this.1, this.2.1, ?_⟩
          intro w hlt
          refine this.2.2 w ?_
          rw [look_store]
          exact Nat.lt_of_lt_of_eq hlt g6.symm
      · cases h0
  exact key m s tr h hm (Or.inl ⟨id, fixes, hp⟩) hcfg hQ

example : (demoRun (some []) (reported [usesFs, macroB] ++ [type (str! "1"), type (str! "1")])).map
    (fun s => (s.file, isIdle s, s.store.sent)) = some (some [str! "fs", str! "b"], true, [(0, .continue_)]) := by decide

theorem look_received (env : Env F E C) (su : Setup E) (s : State F E C) : (look env su s).received = s.received := by
  rw [look_eq]

theorem look_idle (env : Env F E C) (su : Setup E) (s : State F E C) (h : (look env su s).phase = .idle) :
    live (look env su s).store = [] := by
  rw [look_store]
  unfold look at h
  split at h
  · assumption
  · split at h <;> cases h
  · cases h

/-- **C100 (no report is overlooked).** While the thread waits for events and there are problems, an event is waiting for it;
and when it receives one, it asks about the first problem. -/
theorem C100_reports_are_seen (env : Env F E C) (su : Setup E) (hw : su.Works) (s : State F E C)
    (tr : List (State F E C × Act F C)) (h : Exec env su s tr) (hp : s.phase = .idle) (id : Nat) (p : Problem)
    (rest : List (Nat × Problem)) (hl : live s.store = (id, p) :: rest) :
    s.received < s.store.events ∧
    ∀ w, (¬ NoConfig p → (step env su w s .added).phase = .asking id (env.fixes s.config p)) ∧
      (NoConfig p → ∃ e, su.start = some e ∧ (step env su w s .added).phase = .choosing id e) := by
  refine ⟨?_, ?_⟩
  · have key : s.received ≤ s.store.events ∧ (s.phase = .idle → live s.store = [] ∨ s.received < s.store.events) := by
      clear hl hp p id rest
      induction h with
      | init f c => exact ⟨Nat.le_refl _, fun _ => Or.inl rfl⟩
      | @step s s' tr a he hpos ha ih =>
        obtain ⟨P, hsu, hP, hi⟩ := exec_inv hw he
        obtain ⟨t, ht⟩ := hi.store
        cases a with
        | report ps =>
          obtain ⟨r, h1, rfl⟩ := Option.map_eq_some_iff.mp ha
          have hev : r.1.events = s.store.events + 1 := by
            unfold add at h1
            split at h1
            · cases h1
            · split at h1
              · cases h1
              · rename_i s1 ids1 h2
                cases h1
                have he := (addProblems_spec (inv_run ht).w h2).2.1
                show s1.events + 1 = _
                rw [he.events]
          have : s.received < r.1.events := by have := ih.1; omega
          exact ⟨Nat.le_of_lt this, fun _ => Or.inr this⟩
        | reload c => cases ha; exact ih
        | touch f => cases ha; exact ih
        | input w i =>
          cases ha
          have hlook : ∀ x : State F E C, x.received ≤ x.store.events →
              (look env su x).received ≤ (look env su x).store.events ∧ ((look env su x).phase = .idle →
                live (look env su x).store = [] ∨ (look env su x).received < (look env su x).store.events) := by
            intro x hx
            refine ⟨by rw [look_received, look_store]; exact hx, fun hid => Or.inl (look_idle env su x hid)⟩
          have hfin : ∀ s0 : State F E C, ∀ id, s0.store = s.store → s0.received = s.received → (∃ p, (id, p) ∈ live s.store) →
              (finish env su s0 id).received ≤ (finish env su s0 id).store.events ∧ ((finish env su s0 id).phase = .idle →
                live (finish env su s0 id).store = [] ∨ (finish env su s0 id).received < (finish env su s0 id).store.events) := by
            intro s0 id h0 hr ⟨p, hp⟩
            rw [← h0] at ht hp
            obtain ⟨st, g1, _, _, _, g2, _⟩ := finish_spec env su s0 ht hp
            rw [g1]
            exact hlook _ (by show s0.received ≤ st.events; rw [g2, hr, h0]; exact ih.1)
          have hal := asked_live hi.phase
          by_cases hadd : i = .added
          · subst hadd
            simp only [step]
            split
            · exact hlook _ hpos
            · exact ih
          · have hst := stepped env su w s i
            have heof : i = .eof → ∀ id fixes, s.phase = .asking id fixes → step env su w s i = look env su s := by
              rintro rfl id fixes hp
              simp only [step, hp]
            generalize hs' : step env su w s i = s' at hst
            cases hst with
            | same => exact ih
            | look h1 =>
              rcases h1 with ⟨_, rfl⟩ | ⟨id, fixes, h1, h2⟩
              · exact absurd rfl hadd
              · rw [← hs', heof h2 id fixes h1]
                exact hlook _ ih.1
            | shutdown _ => exact ⟨ih.1, fun h => by cases h⟩
            | failed _ _ _ => exact ⟨ih.1, fun h => by cases h⟩
            | apply h1 _ _ _ _ _ => exact hfin (written s _) _ rfl rfl (hal.1 _ _ h1)
            | @chosen id e e' l b h1 h2 => exact ⟨ih.1, fun h => by cases b <;> cases h⟩
            | toggleFailed _ _ => exact ⟨ih.1, fun h => by cases h⟩
            | confirmed h1 _ => exact hfin (written s _) _ rfl rfl (hal.2.2 _ _ h1)
            | writeFailed _ _ => exact ⟨ih.1, fun h => by cases h⟩
            | retry h1 _ => exact hfin { s with last := s.mtime } _ rfl rfl (hal.1 _ _ h1)
            | eofCrash _ => exact ⟨ih.1, fun h => by cases h⟩
    rcases key.2 hp with h1 | h1
    · rw [h1] at hl; cases hl
    · exact h1
  · intro w
    have hs : step env su w s .added = look env su { s with received := s.received + 1 } := by simp only [step, hp]
    rw [hs]
    refine ⟨fun hc => look_other env su (s := { s with received := s.received + 1 }) hl hc, ?_⟩
    intro hc
    obtain ⟨P, ⟨e, he, _⟩, _⟩ := hw
    refine ⟨e, he, ?_⟩
    rw [look_missing env su (s := { s with received := s.received + 1 }) hl hc]
    rw [he]

example : (demoRun (some []) (reported [macroA] ++ [.report [macroB], type (str! "1")])).map
    (fun s => (isAsking s, s.received, s.store.events)) = some (some (1, 1), 1, 2) := by decide

example : (demoRun (some []) (reported [macroA] ++ [type (str! "1"), .report [macroB]])).map
    (fun s => (isIdle s, (live s.store).map Prod.fst, s.received, s.store.events)) = some (true, [1], 1, 2) := by decide

end Cackle.Basic
