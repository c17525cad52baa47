import Verif.Model.Options
import Verif.Props.Main

/-!
# C155 (options do what the help says), C156 (a run that fails says why)
-/

namespace Cackle.Options
open Cackle Store

/-! ## C155 -/

/-- User interfaces that ask the user. -/
def Asks : Ui → Prop
  | .null _ => False
  | .basic | .full => True

/-- The options and the terminal for which the user is asked. -/
def Interactive (a : Args) (tty : Bool) : Prop :=
  a.noUi = false ∧ (a.ui = some .basic ∨ a.ui = some .full ∨ (a.ui = none ∧ tty = true))

theorem not_interactive {a : Args} {tty : Bool} (h : ¬ Interactive a tty) :
    startUi a tty = .null { failOnWarnings := a.failOnWarnings, hasCommand := a.command.isSome,
                            autoAccept := a.autoAcceptFixes } := by
  unfold Interactive at h
  unfold startUi Args.uiKind
  cases hn : a.noUi with
  | true => rfl
  | false =>
    cases hu : a.ui with
    | none =>
      cases tty with
      | true => exact absurd ⟨hn, .inr (.inr ⟨hu, rfl⟩)⟩ h
      | false => rfl
    | some k =>
      cases k with
      | none => rfl
      | basic => exact absurd ⟨hn, .inl hu⟩ h
      | full => exact absurd ⟨hn, .inr (.inl hu)⟩ h

/-- **C155 (asking).** The user is asked exactly if `--no-ui` is not given and either `--ui` names an interface or
nothing is said and the output is a terminal; the output of cargo is held back in exactly these cases. The line-based
interface is used exactly if it is asked for. -/
theorem C155_asks (a : Args) (tty : Bool) :
    (Asks (startUi a tty) ↔ Interactive a tty) ∧ (a.captures tty = true ↔ Interactive a tty) ∧
    (startUi a tty = .basic ↔ a.noUi = false ∧ a.ui = some .basic) := by
  refine and_assoc.mp ⟨?_, ?_⟩
  rotate_left
  · unfold startUi Args.uiKind
    cases a.noUi with
    | true => simp
    | false =>
      cases a.ui with
      | none => cases tty <;> simp
      | some k => cases k <;> simp
  by_cases h : Interactive a tty
  · obtain ⟨h1, h2⟩ := h
    have hi : Interactive a tty := ⟨h1, h2⟩
    unfold Asks startUi Args.captures Args.uiKind
    rcases h2 with h2 | h2 | ⟨h2, h3⟩
    · simp [h1, h2, hi]
    · simp [h1, h2, hi]
    · subst h3
      simp [h1, h2, hi]
  · have hc : a.uiKind tty = .none := by
      have := not_interactive h
      unfold startUi at this
      split at this
      · assumption
      · cases this
      · cases this
    refine ⟨⟨fun ha => ?_, fun x => absurd x h⟩, ⟨fun hx => ?_, fun x => absurd x h⟩⟩
    · rw [not_interactive h] at ha
      exact ha.elim
    · simp [Args.captures, hc] at hx

/-- "Automatically accept the default (first) fix for all problems": nobody is asked about a problem. -/
def C155_AutoAccept : Prop := ∀ (a : Args) (tty : Bool), a.autoAcceptFixes = true → ¬ Asks (startUi a tty)

/-- "Promotes warnings (e.g. due to unused permissions) to errors": a problem that nobody is asked about makes
the run fail, whatever its severity; and nobody is asked. -/
def C155_FailOnWarnings : Prop :=
  ∀ (a : Args) (tty : Bool), a.failOnWarnings = true →
    ∃ n, startUi a tty = .null n ∧
      ∀ (s : State) (id : Nat) (p : Problem), (id, p) ∈ live s → ∃ s', NullUi.report n s = some s' ∧ s'.aborted = true

/-- **C155, disagreement.** At a terminal, `--auto-accept-fixes` has no effect: the user is asked. -/
theorem C155_auto_accept_ignored : ¬ C155_AutoAccept := by
  intro h
  exact h { autoAcceptFixes := true } true rfl trivial

/-- **C155, disagreement.** With the user interfaces that ask, neither option makes any difference. -/
theorem C155_interactive_ignores (a : Args) (tty : Bool) (h : Interactive a tty) (b c : Bool) :
    startUi { a with autoAcceptFixes := b, failOnWarnings := c } tty = startUi a tty := by
  obtain ⟨h1, h2⟩ := h
  unfold startUi Args.uiKind
  rcases h2 with h2 | h2 | ⟨h2, h3⟩
  · simp [h1, h2]
  · simp [h1, h2]
  · simp [h1, h2, h3]

private def warn : Problem := .unusedPackageConfig ⟨str! "a", .all⟩
private def st : State := ((step {} (.add [warn])).map Prod.fst).getD {}

/-- **C155, disagreement.** With `cargo acl test` (and `run`), warnings are not promoted even without a terminal. -/
theorem C155_fail_on_warnings_ignored : ¬ C155_FailOnWarnings := by
  intro h
  obtain ⟨n, h1, h2⟩ := h { failOnWarnings := true, command := some .test } false rfl
  have hn : n = { failOnWarnings := true, hasCommand := true, autoAccept := false } := by
    have : startUi { failOnWarnings := true, command := some .test } false
      = .null { failOnWarnings := true, hasCommand := true, autoAccept := false } := rfl
    rw [this] at h1
    exact (Ui.null.inj h1).symm
  subst hn
  obtain ⟨s', h3, h4⟩ := h2 st 0 warn (by decide)
  have h5 : (NullUi.report { failOnWarnings := true, hasCommand := true, autoAccept := false } st).map
      (fun s => s.aborted) = some false := by decide
  rw [h3] at h5
  simp [h4] at h5

/-- **C155 (partial).** If the user is not asked: with `--auto-accept-fixes`, whatever the history, as soon as an
event was handled without an error no problem is left for which there is a fix and that does not end the run. With
`--fail-on-warnings` and no command every problem that is left after accepting makes the run fail. -/
theorem C155_options_partial (a : Args) (tty : Bool) (h : ¬ Interactive a tty) :
    ∃ n, startUi a tty = .null n ∧
      (a.autoAcceptFixes = true → ∀ (F E : Type) (ed : NullUi.Edits F E) (f : F) (s : State) (tr : List Ev), Run s tr →
        ∃ s' tr' r, NullUi.onProblemsAdded ed n s f = some (s', r) ∧ Run s' tr' ∧
          (r.isSome → ∀ (id : Nat) (p : Problem), (id, p) ∈ live s' → ed.first p = none)) ∧
      (a.failOnWarnings = true → a.command = none → ∀ (s : State) (id : Nat) (p : Problem), (id, p) ∈ live s →
        ∃ s', NullUi.report n s = some s' ∧ s'.aborted = true) := by
  refine ⟨_, not_interactive h, ?_, ?_⟩
  · intro ha F E ed f s tr hr
    unfold NullUi.onProblemsAdded
    simp only [ha, if_true]
    unfold NullUi.acceptAll
    cases ho : ed.open_ f with
    | none => exact ⟨s, tr, none, rfl, hr, by simp⟩
    | some e =>
      obtain ⟨s1, tr1, r, g1, g2, g3, g4, g5⟩ :=
        NullUi.acceptLoop_spec ed hr (n := s.problems.length + 1) (by have := NullUi.live_length_le s; omega) e 0
      simp only [g1, Option.map_some]
      cases r with
      | none => exact ⟨s1, tr1, none, rfl, g2, by simp⟩
      | some x =>
        obtain ⟨e', k⟩ := x
        simp only [NullUi.finishAccept]
        cases hw : (if k > 0 then ed.write f e' else some f) with
        | none => exact ⟨s1, tr1, none, rfl, g2, by simp⟩
        | some f' =>
          simp only []
          obtain ⟨s2, tr2, k1, k2, k3, k4, _⟩ := NullUi.C13_decision F E ed
            { failOnWarnings := a.failOnWarnings, hasCommand := a.command.isSome } rfl f s1 tr1 g2
          have hrep : NullUi.report
              { failOnWarnings := a.failOnWarnings, hasCommand := a.command.isSome, autoAccept := true } s1 = some s2 := by
            simp only [NullUi.onProblemsAdded, Bool.false_eq_true, if_false, Option.map_eq_some_iff,
              Prod.mk.injEq] at k1
            obtain ⟨y, hy, rfl, _⟩ := k1
            exact hy
          refine ⟨s2, tr2, some f', by simp [hrep], k2, fun _ id p hm => ?_⟩
          unfold NullUi.report at hrep
          split at hrep
          · simp only [Option.some.injEq] at hrep
            subst hrep
            exact g5 rfl id p hm
          · rename_i hany
            have hno : ∀ id p, (id, p) ∈ live s1 →
                ¬ NullUi.Fatal { failOnWarnings := a.failOnWarnings, hasCommand := a.command.isSome } p := by
              intro id p hm hf
              apply hany
              exact List.any_eq_true.mpr ⟨(id, p), hm, (NullUi.countsAsError_iff _ p).mpr hf⟩
            rw [(k4 hno).2.1] at hm
            cases hm
  · intro hw hc s id p hm
    refine ⟨abort s, ?_, rfl⟩
    unfold NullUi.report
    rw [if_pos]
    refine List.any_eq_true.mpr ⟨(id, p), hm, ?_⟩
    simp [NullUi.countsAsError, hw, hc]

example : ¬ Interactive { noUi := true, autoAcceptFixes := true } true := by simp [Interactive]
example : Interactive {} true := by simp [Interactive]

/-! ## C156 -/

/-- All executions of the store and the UI thread with what was printed (latest last); see `NullUi.URun`. -/
inductive PRun {F E : Type} (ed : NullUi.Edits F E) (a : NullUi.Args) (f0 : F) :
    NullUi.Sys F → List Ev → List Line → Prop where
  | init : PRun ed a f0 { file := f0 } [] []
  | report {x : NullUi.Sys F} {tr : List Ev} {out : List Line} (ps : List Problem) (s' : State) (ev : Ev) :
      PRun ed a f0 x tr out → step x.store (.add ps) = some (s', ev) →
      PRun ed a f0 { x with store := s', pending := x.pending + 1 } (ev :: tr) out
  | event {x : NullUi.Sys F} {tr tr' : List Ev} {out : List Line} (s' : State) (r : Option F) :
      PRun ed a f0 x tr out → x.alive = true → x.pending > 0 →
      NullUi.onProblemsAdded ed a x.store x.file = some (s', r) → Run s' tr' →
      (∀ w ids, Ev.added w ids ∈ tr' ↔ Ev.added w ids ∈ tr) →
      PRun ed a f0 { store := s', file := r.getD x.file, alive := r.isSome, pending := x.pending - 1 } tr'
        (out ++ eventLines ed a x.store x.file)

theorem PRun.erase {F E : Type} {ed : NullUi.Edits F E} {a : NullUi.Args} {f0 : F} {x : NullUi.Sys F} {tr : List Ev}
    {out : List Line} (h : PRun ed a f0 x tr out) : NullUi.URun ed a f0 x tr := by
  induction h with
  | init => exact .init
  | report ps s' ev _ hs ih => exact .report ps s' ev ih hs
  | event s' r _ h1 h2 h3 h4 h5 ih => exact .event s' r ih h1 h2 h3 h4 h5

theorem lines_mem (a : NullUi.Args) (l : Line) (ps : List Problem) (has : Bool) :
    l ∈ problemLines a ps has ↔
      (∃ p, l = .error p ∧ p ∈ ps ∧ NullUi.Fatal a p) ∨
      (∃ p, l = .warning p ∧ p ∈ ps ∧ NullUi.IsWarning p ∧ a.failOnWarnings = false ∧ a.hasCommand = false) ∨
      (l = .blank ∧ has = false ∧ ∃ p ∈ ps, NullUi.Fatal a p) := by
  induction ps generalizing has with
  | nil => simp [problemLines]
  | cons q qs ih =>
    have hsev : q.severity = .warning ↔ NullUi.IsWarning q := by
      cases q <;> simp [Problem.severity, NullUi.IsWarning]
    unfold problemLines
    by_cases hc : a.hasCommand = true ∧ q.severity = .warning
    · rw [if_pos hc, ih]
      have hw := hsev.mp hc.2
      have hnf : ¬ NullUi.Fatal a q := by simp [NullUi.Fatal, hw, hc.1]
      constructor
      · rintro (⟨p, h1, h2, h3⟩ | ⟨p, h1, h2, h3⟩ | ⟨h1, h2, p, h3, h4⟩)
        · exact .inl ⟨p, h1, List.mem_cons_of_mem _ h2, h3⟩
        · exact .inr (.inl ⟨p, h1, List.mem_cons_of_mem _ h2, h3⟩)
        · exact .inr (.inr ⟨h1, h2, p, List.mem_cons_of_mem _ h3, h4⟩)
      · rintro (⟨p, h1, h2, h3⟩ | ⟨p, h1, h2, h3⟩ | ⟨h1, h2, p, h3, h4⟩)
        · rcases List.mem_cons.mp h2 with rfl | h2
          · exact absurd h3 hnf
          · exact .inl ⟨p, h1, h2, h3⟩
        · exact absurd h3.2.2 (by simp [hc.1])
        · rcases List.mem_cons.mp h3 with rfl | h3
          · exact absurd h4 hnf
          · exact .inr (.inr ⟨h1, h2, p, h3, h4⟩)
    · rw [if_neg hc]
      split
      · rename_i hs
        have hf : a.failOnWarnings = false ∧ q.severity = .warning := by
          cases hf : a.failOnWarnings with
          | true => simp [hf] at hs
          | false => simpa [hf] using hs
        have hw := hsev.mp hf.2
        have hnc : a.hasCommand = false := by
          cases hx : a.hasCommand with
          | false => rfl
          | true => exact absurd ⟨hx, hf.2⟩ hc
        have hnf : ¬ NullUi.Fatal a q := by simp [NullUi.Fatal, hw, hf.1]
        rw [List.mem_cons, ih]
        constructor
        · rintro (h0 | ⟨p, h1, h2, h3⟩ | ⟨p, h1, h2, h3⟩ | ⟨h1, h2, p, h3, h4⟩)
          · exact .inr (.inl ⟨q, h0, List.mem_cons_self .., hw, hf.1, hnc⟩)
          · exact .inl ⟨p, h1, List.mem_cons_of_mem _ h2, h3⟩
          · exact .inr (.inl ⟨p, h1, List.mem_cons_of_mem _ h2, h3⟩)
          · exact .inr (.inr ⟨h1, h2, p, List.mem_cons_of_mem _ h3, h4⟩)
        · rintro (⟨p, h1, h2, h3⟩ | ⟨p, h1, h2, h3⟩ | ⟨h1, h2, p, h3, h4⟩)
          · rcases List.mem_cons.mp h2 with rfl | h2
            · exact absurd h3 hnf
            · exact .inr (.inl ⟨p, h1, h2, h3⟩)
          · rcases List.mem_cons.mp h2 with rfl | h2
            · exact .inl h1
            · exact .inr (.inr (.inl ⟨p, h1, h2, h3⟩))
          · rcases List.mem_cons.mp h3 with rfl | h3
            · exact absurd h4 hnf
            · exact .inr (.inr (.inr ⟨h1, h2, p, h3, h4⟩))
      · rename_i hs
        have hfat : NullUi.Fatal a q := by
          rw [← NullUi.countsAsError_iff]
          unfold NullUi.countsAsError
          rw [if_neg hc]
          cases hf : a.failOnWarnings with
          | true => rfl
          | false => rw [hf] at hs; simpa using hs
        have hnw : ¬ (NullUi.IsWarning q ∧ a.failOnWarnings = false) := by
          rintro ⟨h1, h2⟩
          rcases hfat with h | h
          · exact h h1
          · rw [h2] at h; exact absurd h.2.1 (by simp)
        rw [List.mem_append, List.mem_cons, ih]
        constructor
        · rintro (h0 | h0 | ⟨p, h1, h2, h3⟩ | ⟨p, h1, h2, h3⟩ | ⟨h1, h2, p, h3, h4⟩)
          · cases has with
            | true => simp at h0
            | false =>
              simp only [Bool.false_eq_true, if_false, List.mem_singleton] at h0
              exact .inr (.inr ⟨h0, rfl, q, List.mem_cons_self .., hfat⟩)
          · exact .inl ⟨q, h0, List.mem_cons_self .., hfat⟩
          · exact .inl ⟨p, h1, List.mem_cons_of_mem _ h2, h3⟩
          · exact .inr (.inl ⟨p, h1, List.mem_cons_of_mem _ h2, h3⟩)
          · cases h2
        · rintro (⟨p, h1, h2, h3⟩ | ⟨p, h1, h2, h3⟩ | ⟨h1, h2, p, h3, h4⟩)
          · rcases List.mem_cons.mp h2 with rfl | h2
            · exact .inr (.inl h1)
            · exact .inr (.inr (.inl ⟨p, h1, h2, h3⟩))
          · rcases List.mem_cons.mp h2 with rfl | h2
            · exact absurd ⟨h3.1, h3.2.1⟩ hnw
            · exact .inr (.inr (.inr (.inl ⟨p, h1, h2, h3⟩)))
          · left
            rw [h2, h1]
            simp

theorem acceptLoop_sub {F E : Type} (ed : NullUi.Edits F E) {n : Nat} {s s' : State} {e : E} {k : Nat}
    {r : Option (E × Nat)} (h : NullUi.acceptLoop ed n s e k = some (s', r)) : ∀ x ∈ live s', x ∈ live s := by
  induction n generalizing s e k with
  | zero => simp [NullUi.acceptLoop] at h
  | succ n ih =>
    unfold NullUi.acceptLoop at h
    split at h
    · cases h; exact fun _ hx => hx
    · rename_i id ap hf
      obtain ⟨p, hp, _⟩ := NullUi.firstEdit_some hf
      split at h
      · cases h; exact fun _ hx => hx
      · obtain ⟨s1, ids, g1, g2, g3, g4, g5⟩ := NullUi.resolve_live hp
        rw [g2] at h
        intro x hx
        have := ih h x hx
        obtain ⟨i, q⟩ := x
        rw [mem_live] at this ⊢
        rw [g5] at this
        by_cases hi : i = id
        · subst hi
          have hlt : i < s.problems.length := (List.getElem?_eq_some_iff.mp (mem_live.mp hp)).1
          rw [List.getElem?_set_self hlt] at this
          cases this
        · rwa [List.getElem?_set_ne (Ne.symm hi)] at this

/-- The problems that are left after accepting, when handling an event. -/
theorem event_shape {F E : Type} (ed : NullUi.Edits F E) (a : NullUi.Args) (f : F) {s : State} {tr : List Ev}
    (h : Run s tr) (s' : State) (r : Option F) (ho : NullUi.onProblemsAdded ed a s f = some (s', r)) :
    (eventLines ed a s f = [] ∧ s'.aborted = s.aborted ∧ r = none) ∨
    (∃ s1 tr1, Run s1 tr1 ∧ s1.aborted = s.aborted ∧ NullUi.report a s1 = some s' ∧
      (∀ e ∈ live s1, e ∈ live s) ∧
      eventLines ed a s f = problemLines a ((live s1).map Prod.snd) false) := by
  unfold NullUi.onProblemsAdded at ho
  unfold eventLines
  cases ha : a.autoAccept with
  | false =>
    simp only [ha, Bool.false_eq_true, if_false, Option.map_eq_some_iff, Prod.mk.injEq] at ho
    obtain ⟨y, hy, rfl, _⟩ := ho
    exact .inr ⟨s, tr, h, rfl, hy, fun _ he => he, rfl⟩
  | true =>
    simp only [ha, if_true] at ho
    simp only [if_true]
    unfold NullUi.acceptAll at ho ⊢
    cases hop : ed.open_ f with
    | none =>
      simp only [hop, Option.some.injEq, Prod.mk.injEq] at ho
      obtain ⟨rfl, rfl⟩ := ho
      exact .inl ⟨rfl, rfl, rfl⟩
    | some e =>
      obtain ⟨s1, tr1, r1, g1, g2, g3, g4, g5⟩ :=
        NullUi.acceptLoop_spec ed h (n := s.problems.length + 1) (by have := NullUi.live_length_le s; omega) e 0
      have hsub := acceptLoop_sub ed g1
      simp only [hop, g1, Option.map_some] at ho ⊢
      cases hfa : NullUi.finishAccept ed f (s1, r1) with
      | mk s2 r2 =>
        have hs2 : s2 = s1 := by
          cases r1 with
          | none => simp [NullUi.finishAccept] at hfa; exact hfa.1.symm
          | some x => obtain ⟨x, y⟩ := x; simp [NullUi.finishAccept] at hfa; exact hfa.1.symm
        subst hs2
        rw [hfa] at ho
        cases r2 with
        | none =>
          simp only [Option.some.injEq, Prod.mk.injEq] at ho
          obtain ⟨rfl, rfl⟩ := ho
          exact .inl ⟨rfl, g4, rfl⟩
        | some f' =>
          simp only [Option.map_eq_some_iff, Prod.mk.injEq] at ho
          obtain ⟨y, hy, rfl, _⟩ := ho
          exact .inr ⟨s2, tr1, g2, g4, hy, hsub, rfl⟩

/-- Reporting aborts exactly if an error is printed. -/
theorem report_aborts {a : NullUi.Args} {s s' : State} {tr : List Ev} (h : Run s tr)
    (hr : NullUi.report a s = some s') :
    s'.aborted = true ↔ s.aborted = true ∨ ∃ p, Line.error p ∈ problemLines a ((live s).map Prod.snd) false := by
  have hd := NullUi.C13_decision Unit Unit ⟨fun _ => none, some, fun _ _ => some ()⟩ { a with autoAccept := false } rfl () s tr h
  obtain ⟨s2, tr2, k1, k2, k3, k4, _⟩ := hd
  have hs : s2 = s' := by
    simp only [NullUi.onProblemsAdded, Bool.false_eq_true, if_false, Option.map_eq_some_iff, Prod.mk.injEq] at k1
    obtain ⟨y, hy, rfl, _⟩ := k1
    have : NullUi.report a s = some y := hy
    rw [hr] at this
    exact (Option.some.inj this).symm
  subst hs
  have hiff : (∃ p, Line.error p ∈ problemLines a ((live s).map Prod.snd) false) ↔
      ∃ id p, (id, p) ∈ live s ∧ NullUi.Fatal { a with autoAccept := false } p := by
    constructor
    · rintro ⟨p, hp⟩
      rcases (lines_mem a _ _ _).mp hp with ⟨q, h1, h2, h3⟩ | ⟨q, h1, _⟩ | ⟨h1, _⟩
      · cases h1
        obtain ⟨⟨id, q⟩, h4, h5⟩ := List.mem_map.mp h2
        cases h5
        exact ⟨id, _, h4, h3⟩
      · cases h1
      · cases h1
    · rintro ⟨id, p, h1, h2⟩
      exact ⟨p, (lines_mem a _ _ _).mpr (.inl ⟨p, rfl, List.mem_map.mpr ⟨(id, p), h1, rfl⟩, h2⟩)⟩
  rw [hiff]
  by_cases hf : ∃ id p, (id, p) ∈ live s ∧ NullUi.Fatal { a with autoAccept := false } p
  · exact ⟨fun _ => .inr hf, fun _ => (k3 hf).1⟩
  · rw [(k4 (fun id p hm hx => hf ⟨id, p, hm, hx⟩)).1]
    exact ⟨.inl, fun h => h.resolve_right hf⟩

/-- **C156 (problems).** Without user interaction, at any time: the run was told to give up exactly if a problem was
printed as an error. Problems are printed as errors if they are not mere warnings, or `--fail-on-warnings` was given
without a command; mere warnings are printed as warnings, without a command; nothing else is printed except blank
lines in front of errors. -/
theorem C156_problems (F E : Type) (ed : NullUi.Edits F E) (a : NullUi.Args) (f0 : F) (x : NullUi.Sys F) (tr : List Ev)
    (out : List Line) (h : PRun ed a f0 x tr out) :
    (x.store.aborted = true ↔ ∃ p, Line.error p ∈ out) ∧
    (∀ l ∈ out, (∃ p, l = .error p ∧ (¬ NullUi.IsWarning p ∨ (a.failOnWarnings = true ∧ a.hasCommand = false))) ∨
      (∃ p, l = .warning p ∧ NullUi.IsWarning p ∧ a.failOnWarnings = false ∧ a.hasCommand = false) ∨
      (l = .blank ∧ ∃ p, Line.error p ∈ out)) := by
  induction h with
  | init => exact ⟨by simp, by simp⟩
  | @report x tr out ps s' ev h hs ih =>
    refine ⟨?_, ih.2⟩
    have h1 := (inv_run (NullUi.urun_inv h.erase).1).abortedEv
    have h2 := (inv_run (Run.step (.add ps) (NullUi.urun_inv h.erase).1 hs)).abortedEv
    have hev : ev ≠ .aborted := by
      simp only [step, Option.map_eq_some_iff, Prod.mk.injEq] at hs
      obtain ⟨_, _, _, rfl⟩ := hs
      simp
    rw [← ih.1, h1]
    refine h2.trans ?_
    rw [List.mem_cons]
    exact ⟨fun h => h.resolve_left (Ne.symm hev), .inr⟩
  | @event x tr tr' out s' r h ha hp ho hr hm ih =>
    have hrun := (NullUi.urun_inv h.erase).1
    rcases event_shape ed a x.file hrun s' r ho with ⟨h1, h2, _⟩ | ⟨s1, tr1, h1, h2, h3, h4, h5⟩
    · rw [h1, List.append_nil]
      simp only [h2]
      exact ih
    · rw [h5]
      refine ⟨?_, ?_⟩
      · simp only [report_aborts h1 h3, h2, ih.1, List.mem_append]
        constructor
        · rintro (⟨p, hp⟩ | ⟨p, hp⟩)
          · exact ⟨p, .inl hp⟩
          · exact ⟨p, .inr hp⟩
        · rintro ⟨p, hp | hp⟩
          · exact .inl ⟨p, hp⟩
          · exact .inr ⟨p, hp⟩
      · intro l hl
        rcases List.mem_append.mp hl with hl | hl
        · rcases ih.2 l hl with h | h | ⟨h, p, hp⟩
          · exact .inl h
          · exact .inr (.inl h)
          · exact .inr (.inr ⟨h, p, List.mem_append_left _ hp⟩)
        · have := (lines_mem a l _ _).mp hl
          rcases this with ⟨p, g1, g2, g3⟩ | ⟨p, g1, g2, g3⟩ | ⟨g1, g2, p, g3, g4⟩
          · refine .inl ⟨p, g1, ?_⟩
            rcases g3 with g3 | g3
            · exact .inl g3
            · exact .inr g3.2
          · exact .inr (.inl ⟨p, g1, g3⟩)
          · exact .inr (.inr ⟨g1, p, List.mem_append_right _ ((lines_mem a _ _ _).mpr (.inl ⟨p, rfl, g3, g4⟩))⟩)

/-- A line that says why the run failed. -/
def Reason : Line → Prop
  | .error _ | .uiError _ | .failed _ | .configError _ => True
  | _ => False

/-- The results of the steps fit the state of the store at the end of the run: whoever was told to give up was told
by the store. -/
structure FitsEnd (p : Main.Phases) (s : State) : Prop where
  aborted : p.aborted = true → s.aborted = true
  createConfig : p.createConfig = .giveUp → ∃ w, (w, Outcome.giveUp) ∈ s.sent
  unusedAnswer : p.unusedAnswer = .giveUp → ∃ w, (w, Outcome.giveUp) ∈ s.sent

theorem run_false {full : Bool} {p : Main.Phases} (h : Main.run full p = some false) :
    p.createConfig = .giveUp ∨ p.aborted = true ∨ p.unusedAnswer = .giveUp := by
  unfold Main.run at h
  split at h
  · rename_i h1; exact .inl h1
  split at h
  · cases h
  split at h
  · cases h
  split at h
  · cases h
  rename_i o h4
  simp only at h
  split at h
  · cases h
  generalize hb : (if o.and p.unusedImports = .continue_ then p.build else true) = b at h
  split at h
  · rename_i h1; exact .inr (.inl h1)
  split at h
  · cases h
  cases hf : full with
  | false => rw [hf] at h; simp at h
  | true =>
    rw [hf, if_pos rfl] at h
    split at h
    · cases h
    · split at h
      · rename_i h1
        right; right
        cases ha : p.unusedAnswer with
        | giveUp => rfl
        | continue_ => exact absurd ha h1
      · cases h

/-- **C156.** Without user interaction, a run that does not end successfully has printed a reason: a problem as an
error, an error of a step, of the user interface or of the config file. -/
theorem C156_failure_is_explained (F E : Type) (ed : NullUi.Edits F E) (a : Args) (n : NullUi.Args)
    (f0 : F) (x : NullUi.Sys F) (tr : List Ev) (out : List Line)
    (h : PRun ed n f0 x tr out) (p : Main.Phases) (hp : FitsEnd p x.store) (loads : Bool) (t : Texts)
    (hf : (finish a p loads t).2 = false) :
    ∃ l ∈ out ++ (finish a p loads t).1, Reason l := by
  have hg : (∃ w, (w, Outcome.giveUp) ∈ x.store.sent) → x.store.aborted = true := by
    rintro ⟨w, hw⟩
    have hi := inv_run (NullUi.urun_inv h.erase).1
    exact hi.abortedEv.mpr (hi.gaveUp w hw)
  have he : x.store.aborted = true → ∃ l ∈ out ++ (finish a p loads t).1, Reason l := by
    intro hx
    obtain ⟨q, hq⟩ := (C156_problems F E ed n f0 x tr out h).1.mp hx
    exact ⟨_, List.mem_append_left _ hq, trivial⟩
  unfold finish at hf ⊢
  split at hf
  · rename_i hs
    rw [if_pos hs] at *
    unfold printSummary at hf ⊢
    cases loads with
    | true => simp at hf
    | false => exact ⟨.configError t.configError, by simp, trivial⟩
  · rename_i hs
    unfold finish at he
    rw [if_neg hs] at he ⊢
    unfold report at hf ⊢ he
    cases hu : p.uiError with
    | true => exact ⟨.uiError t.uiError, by simp, trivial⟩
    | false =>
      rw [hu] at hf he
      cases hr : Main.run a.full p with
      | none => exact ⟨.failed t.error, by simp, trivial⟩
      | some b =>
        rw [hr] at hf he
        cases b with
        | true => simp at hf
        | false =>
          refine he ?_
          rcases run_false hr with h1 | h1 | h1
          · exact hg (hp.createConfig h1)
          · exact hp.aborted h1
          · exact hg (hp.unusedAnswer h1)

/-- "Don't print anything on success". The last hypothesis: if the store was aborted, then the main thread noticed. -/
def C155_Quiet : Prop :=
  ∀ (F E : Type) (ed : NullUi.Edits F E) (a : Args) (tty : Bool) (n : NullUi.Args), startUi a tty = .null n →
    ∀ (f0 : F) (x : NullUi.Sys F) (tr : List Ev) (out : List Line), PRun ed n f0 x tr out →
    ∀ (p : Main.Phases) (loads : Bool) (t : Texts),
      (x.store.aborted = true → p.aborted = true ∨ p.unusedAnswer = .giveUp) →
      a.quiet = true → a.command ≠ some .summary → a.printPathToCrateMap = false → (finish a p loads t).2 = true →
      out ++ (finish a p loads t).1 = []

private def good : Main.Phases :=
  { createConfig := .continue_, load1 := true, cleanStatus := some 0, newVersion := .continue_,
    initial := some .continue_, unusedImports := .continue_, load2 := true, build := true,
    aborted := false, unused := some [warn], unusedAnswer := .continue_, uiError := false }

private def noEdits : NullUi.Edits Unit Unit := ⟨fun _ => none, some, fun _ _ => some ()⟩

/-- **C155, disagreement.** Warnings are printed in spite of `--quiet`. -/
theorem C155_quiet_warns : ¬ C155_Quiet := by
  intro hc
  have r0 : PRun noEdits {} () _ _ _ := .init
  have r1 := PRun.report [warn] _ _ r0 rfl
  have r2 := PRun.event (tr' := [.replaced 0 [], .added 0 [0]]) _ _ r1 rfl (by decide) rfl
    (Run.step (.replace 0 []) (Run.step (.add [warn]) .init rfl) rfl) (by simp)
  have := hc Unit Unit noEdits { quiet := true } false {} rfl () _ _ _ r2 good true {} (by decide) rfl (by simp) rfl
    (by decide)
  revert this
  decide

/-- **C155 (partial).** With `--quiet`, a successful run without user interaction prints nothing but warnings; with
`--fail-on-warnings` or a command in addition it prints nothing. -/
theorem C155_quiet_partial (F E : Type) (ed : NullUi.Edits F E) (a : Args) (tty : Bool) (n : NullUi.Args)
    (hn : startUi a tty = .null n) (f0 : F) (x : NullUi.Sys F) (tr : List Ev) (out : List Line)
    (h : PRun ed n f0 x tr out) (p : Main.Phases) (loads : Bool) (t : Texts)
    (hab : x.store.aborted = true → p.aborted = true ∨ p.unusedAnswer = .giveUp)
    (hfull : p.unusedAnswer = .giveUp → a.full = true)
    (hq : a.quiet = true) (hs : a.command ≠ some .summary) (hm : a.printPathToCrateMap = false)
    (hf : (finish a p loads t).2 = true) :
    (∀ l ∈ out ++ (finish a p loads t).1, ∃ q, l = .warning q ∧ NullUi.IsWarning q) ∧
    (a.failOnWarnings = true ∨ a.command ≠ none → out ++ (finish a p loads t).1 = []) := by
  have hn' : n.failOnWarnings = a.failOnWarnings ∧ n.hasCommand = a.command.isSome := by
    unfold startUi at hn
    split at hn
    · cases hn; exact ⟨rfl, rfl⟩
    · cases hn
    · cases hn
  unfold finish at hf ⊢
  rw [if_neg hs] at hf ⊢
  unfold report at hf ⊢
  cases hu : p.uiError with
  | true => rw [hu] at hf; simp at hf
  | false =>
    rw [hu] at hf
    have hr : Main.run a.full p = some true := by
      cases hr : Main.run a.full p with
      | none => rw [hr] at hf; simp at hf
      | some b => rw [hr] at hf; simpa using hf
    have hend : ((if Main.run a.full p = none then [Line.blank, .failed t.error] else []) ++
      (if a.printPathToCrateMap = true then [.pathMap] else []) ++
      (if Main.run a.full p = some true ∧ a.quiet = false ∧ a.command = none then
        [.completed t.configPath, .summary] else [])) = [] := by
      simp [hr, hm, hq]
    obtain ⟨_, _, _, g1, _, g2⟩ := Main.run_true hr
    have hna : x.store.aborted ≠ true := by
      intro hx
      rcases hab hx with h1 | h1
      · rw [g1] at h1; cases h1
      · rw [(g2 (hfull h1)).2] at h1; cases h1
    simp only [Bool.false_eq_true, if_false, hend, List.append_nil]
    obtain ⟨k1, k2⟩ := C156_problems F E ed n f0 x tr out h
    have hne : ¬ ∃ q, Line.error q ∈ out := fun hx => hna (k1.mpr hx)
    have hw : ∀ l ∈ out, ∃ q, l = .warning q ∧ NullUi.IsWarning q ∧ n.failOnWarnings = false ∧ n.hasCommand = false := by
      intro l hl
      rcases k2 l hl with ⟨q, rfl, _⟩ | h | ⟨_, hx⟩
      · exact absurd ⟨q, hl⟩ hne
      · exact h
      · exact absurd hx hne
    refine ⟨fun l hl => ?_, fun hor => ?_⟩
    · obtain ⟨q, h1, h2, _⟩ := hw l hl
      exact ⟨q, h1, h2⟩
    · cases out with
      | nil => rfl
      | cons l rest =>
        obtain ⟨q, _, _, h3, h4⟩ := hw l (List.mem_cons_self ..)
        rw [hn'.1] at h3
        rw [hn'.2] at h4
        rcases hor with h | h
        · rw [h] at h3; cases h3
        · cases hc : a.command with
          | none => exact absurd hc h
          | some c => rw [hc] at h4; cases h4

/-! Non-vacuity: a run with a warning and an error fails and prints both; a good one with `--quiet` prints nothing. -/
example : problemLines {} [warn, .selectSandbox] false = [.warning warn, .blank, .error .selectSandbox] := by decide
example : finish { quiet := true } good true {} = ([], true) := by decide
example : finish {} good true { configPath := str! "cackle.toml" } = ([.completed (str! "cackle.toml"), .summary], true) := by
  decide

end Cackle.Options
