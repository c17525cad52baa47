import Verif.Props.NullUi

/-!
# C66 (what auto-accept does), C67 (order of saving and answering)
-/

namespace Cackle.NullUi
open Cackle Store

/-! ## Specification -/

/-- The unresolved problems for which an edit is offered, in the order of their IDs. -/
def fixable {F E : Type} (ed : Edits F E) (s : State) : List Problem :=
  ((live s).map Prod.snd).filter (fun p => (ed.first p).isSome)

/-- Applying the first offered edit for each problem, one after the other. -/
def applyFirst {F E : Type} (ed : Edits F E) : List Problem → E → Option E
  | [], e => some e
  | p :: ps, e => ((ed.first p).bind (fun ap => ap e)).bind (applyFirst ed ps)

/-- What becomes of the config file; `none` is an error. -/
def acceptedFile {F E : Type} (ed : Edits F E) (ps : List Problem) (f : F) : Option F :=
  (ed.open_ f).bind fun e => (applyFirst ed ps e).bind fun e' =>
    if ps = [] then some f else ed.write f e'

/-! ## Lemmas -/

/-- `live` on a list of slots starting at an ID. -/
def liveFrom (ps : List (Option Problem)) (n : Nat) : List (Nat × Problem) :=
  (ps.zipIdx n).filterMap (fun (p, i) => p.map (fun p => (i, p)))

theorem liveFrom_ge (ps : List (Option Problem)) (n : Nat) : ∀ e ∈ liveFrom ps n, n ≤ e.1 := by
  induction ps generalizing n with
  | nil => simp [liveFrom]
  | cons x xs ih =>
    intro e he
    have ih' : ∀ e ∈ liveFrom xs (n + 1), n + 1 ≤ e.1 := ih (n + 1)
    cases x with
    | none =>
      have : e ∈ liveFrom xs (n + 1) := by simpa [liveFrom] using he
      have := ih' e this; omega
    | some p =>
      have : e = (n, p) ∨ e ∈ liveFrom xs (n + 1) := by simpa [liveFrom] using he
      rcases this with rfl | h
      · simp
      · have := ih' e h; omega

theorem liveFrom_set (ps : List (Option Problem)) (id n : Nat) :
    liveFrom (ps.set id none) n = (liveFrom ps n).filter (fun e => e.1 ≠ id + n) := by
  induction ps generalizing id n with
  | nil => simp [liveFrom]
  | cons x xs ih =>
    have hcons : ∀ (x : Option Problem) (l : List (Option Problem)),
        liveFrom (x :: l) n = (x.map (fun p => (n, p))).toList ++ liveFrom l (n + 1) := by
      intro x l
      cases x <;> simp [liveFrom]
    cases id with
    | zero =>
      rw [List.set_cons_zero, hcons, hcons, List.filter_append]
      have h1 : (liveFrom xs (n + 1)).filter (fun e => decide (e.1 ≠ 0 + n)) = liveFrom xs (n + 1) := by
        rw [List.filter_eq_self]
        intro e he
        have := liveFrom_ge xs (n + 1) e he
        simp; omega
      have h2 : ((x.map (fun p => (n, p))).toList).filter (fun e => decide (e.1 ≠ 0 + n)) = [] := by
        cases x <;> simp
      rw [h1, h2]
      simp
    | succ id =>
      rw [List.set_cons_succ, hcons, hcons, List.filter_append, ih]
      have h1 : (fun e : Nat × Problem => decide (e.1 ≠ id + (n + 1))) =
          (fun e => decide (e.1 ≠ id + 1 + n)) := by
        funext e
        have : id + (n + 1) = id + 1 + n := by omega
        rw [this]
      have h2 : ((x.map (fun p => (n, p))).toList).filter (fun e => decide (e.1 ≠ id + 1 + n)) =
          (x.map (fun p => (n, p))).toList := by
        cases x with
        | none => simp
        | some p =>
          have : n ≠ id + 1 + n := by omega
          simp [this]
      rw [h1, h2]

theorem liveFrom_pairwise (ps : List (Option Problem)) (n : Nat) :
    (liveFrom ps n).Pairwise (fun a b => a.1 < b.1) := by
  induction ps generalizing n with
  | nil => simp [liveFrom]
  | cons x xs ih =>
    cases x with
    | none => have := ih (n + 1); simpa [liveFrom] using this
    | some p =>
      have h : liveFrom (some p :: xs) n = (n, p) :: liveFrom xs (n + 1) := by simp [liveFrom]
      rw [h, List.pairwise_cons]
      exact ⟨fun e he => by have := liveFrom_ge xs (n + 1) e he; show n < e.1; omega, ih (n + 1)⟩

/-- Removing the first element with a property by its key. -/
theorem remove_first {q : Problem → Bool} {id : Nat} {p : Problem} :
    ∀ {l : List (Nat × Problem)}, l.Pairwise (fun a b => a.1 < b.1) →
      l.find? (fun e => q e.2) = some (id, p) →
      (l.map Prod.snd).filter q = p :: ((l.filter (fun e => e.1 ≠ id)).map Prod.snd).filter q := by
  intro l
  induction l with
  | nil => simp
  | cons x xs ih =>
    intro hpw hf
    rw [List.pairwise_cons] at hpw
    rw [List.find?_cons] at hf
    cases hq : q x.2 with
    | true =>
      rw [hq] at hf
      simp only [Option.some.injEq] at hf
      subst hf
      have h1 : xs.filter (fun e => decide (e.1 ≠ id)) = xs := by
        rw [List.filter_eq_self]
        intro e he
        have := hpw.1 e he
        simp only at this
        simp; omega
      simp only [List.map_cons, List.filter_cons, hq, if_true, ne_eq, not_true_eq_false, decide_false,
        Bool.false_eq_true, if_false]
      rw [show xs.filter (fun e => decide ¬ e.1 = id) = xs from h1]
    | false =>
      rw [hq] at hf
      have hmem := List.mem_of_find?_eq_some hf
      have hlt := hpw.1 _ hmem
      simp only at hlt
      have hne : x.1 ≠ id := by omega
      simp [hq, hne]
      have := ih hpw.2 hf
      simpa using this

theorem firstEdit_eq {F E : Type} (ed : Edits F E) (s : State) :
    firstEdit ed s = ((live s).find? (fun e => (ed.first e.2).isSome)).bind
      (fun e => (ed.first e.2).map (fun ap => (e.1, ap))) := by
  unfold firstEdit
  induction live s with
  | nil => rfl
  | cons x xs ih =>
    rw [List.findSome?_cons, List.find?_cons]
    cases hx : ed.first x.2 with
    | none => simp [ih]
    | some ap => simp [hx]

theorem acceptLoop_exact {F E : Type} (ed : Edits F E) {n : Nat} {s : State} {tr : List Ev} (h : Run s tr)
    (hn : (live s).length < n) (e : E) (k : Nat) :
    ∃ s' tr', acceptLoop ed n s e k =
        some (s', (applyFirst ed (fixable ed s) e).map (fun e' => (e', k + (fixable ed s).length))) ∧
      Run s' tr' ∧ OnlyResolved tr tr' ∧ s'.aborted = s.aborted ∧
      ((applyFirst ed (fixable ed s) e).isSome →
        live s' = (live s).filter (fun x => (ed.first x.2).isNone)) := by
  induction n generalizing s tr e k with
  | zero => omega
  | succ n ih =>
    unfold acceptLoop
    rw [firstEdit_eq]
    cases hf : (live s).find? (fun e => (ed.first e.2).isSome) with
    | none =>
      have hnone := List.find?_eq_none.mp hf
      have hfix : fixable ed s = [] := by
        unfold fixable
        rw [List.filter_eq_nil_iff]
        intro p hp
        obtain ⟨x, hx, rfl⟩ := List.mem_map.mp hp
        exact hnone x hx
      refine ⟨s, tr, by simp [hfix, applyFirst], h, .refl tr, rfl, fun _ => ?_⟩
      rw [eq_comm, List.filter_eq_self]
      intro x hx
      have := hnone x hx
      simpa using this
    | some r =>
      obtain ⟨id, p⟩ := r
      have hp : (id, p) ∈ live s := List.mem_of_find?_eq_some hf
      have hpe : (ed.first p).isSome = true := by simpa using List.find?_some hf
      obtain ⟨ap, hap⟩ := Option.isSome_iff_exists.mp hpe
      obtain ⟨s', ids, h1, h2, h3, h4, h5⟩ := resolve_live hp
      have hlive : live s' = (live s).filter (fun e => e.1 ≠ id) := by
        have := liveFrom_set s.problems id 0
        simp only [Nat.add_zero] at this
        show liveFrom s'.problems 0 = _
        rw [h5, this]
        rfl
      have hfx : fixable ed s = p :: fixable ed s' := by
        unfold fixable
        rw [hlive]
        exact remove_first (q := fun p => (ed.first p).isSome) (liveFrom_pairwise s.problems 0) hf
      simp only [Option.bind_some, hap, Option.map_some]
      rw [hfx]
      unfold applyFirst
      simp only [hap, Option.bind_some]
      cases ha : ap e with
      | none => exact ⟨s, tr, by simp, h, .refl tr, rfl, by simp⟩
      | some e' =>
        obtain ⟨s2, tr2, g1, g2, g3, g4, g5⟩ := ih (Run.step _ h h1) (by omega) e' (k + 1)
        refine ⟨s2, tr2, ?_, g2, g3.cons, g4.trans h4, ?_⟩
        · simp only [h2, g1, Option.bind_some, List.length_cons]
          rw [show k + 1 + (fixable ed s').length = k + ((fixable ed s').length + 1) by omega]
        · intro hs
          rw [g5 (by simpa using hs), hlive, List.filter_filter]
          apply List.filter_congr
          intro x hx
          by_cases hxi : x.1 = id
          · obtain ⟨xi, xp⟩ := x
            simp only at hxi
            subst hxi
            have e1 := mem_live.mp hx
            have e2 := mem_live.mp hp
            rw [e1] at e2
            simp only [Option.some.injEq] at e2
            subst e2
            simp [hap]
          · simp [hxi]

/-! ## C66 -/

/-- **C66.** Whatever the history of the store, handling a batch of problems with auto-accept: the first
offered edit of every unresolved problem that has one is applied, exactly once and in the order of the
problems, and the result is saved (the file is left alone if there is nothing to apply); an error is
reported exactly if the file could not be opened or saved or an edit failed. If there was no error, the
problems without an offered edit decide about the outcome in the same way as without auto-accept. -/
theorem C66_auto_accept (F E : Type) (ed : Edits F E) (a : Args) (ha : a.autoAccept = true) (f : F)
    (s : State) (tr : List Ev) (h : Run s tr) :
    ∃ s' tr', onProblemsAdded ed a s f = some (s', acceptedFile ed (fixable ed s) f) ∧ Run s' tr' ∧
      ((acceptedFile ed (fixable ed s) f).isSome →
        ((∃ id p, (id, p) ∈ live s ∧ ed.first p = none ∧ Fatal a p) → s'.aborted = true) ∧
        ((∀ id p, (id, p) ∈ live s → ed.first p = none → ¬ Fatal a p) →
          s'.aborted = s.aborted ∧ live s' = [])) := by
  unfold onProblemsAdded acceptAll acceptedFile
  simp only [ha, if_true]
  cases ho : ed.open_ f with
  | none => exact ⟨s, tr, by simp, h, by simp⟩
  | some e =>
    obtain ⟨s1, tr1, g1, g2, g3, g4, g5⟩ :=
      acceptLoop_exact ed h (n := s.problems.length + 1) (by have := live_length_le s; omega) e 0
    simp only [g1, Option.map_some, Option.bind_some]
    cases hap : applyFirst ed (fixable ed s) e with
    | none => exact ⟨s1, tr1, by simp [finishAccept], g2, by simp⟩
    | some e' =>
      simp only [Option.map_some, finishAccept, Option.bind_some, Nat.zero_add]
      have hk : (if (fixable ed s).length > 0 then ed.write f e' else some f) =
          (if fixable ed s = [] then some f else ed.write f e') := by
        cases fixable ed s <;> simp
      rw [hk]
      cases hw : (if fixable ed s = [] then some f else ed.write f e') with
      | none => exact ⟨s1, tr1, by simp, g2, by simp⟩
      | some f' =>
        have hl := g5 (by simp [hap])
        obtain ⟨s', tr', k1, k2, k3, k4, k5⟩ :=
          C13_decision F E ed { a with autoAccept := false } rfl f s1 tr1 g2
        have hrep : report a s1 = some s' := by
          simp only [onProblemsAdded, Bool.false_eq_true, if_false, Option.map_eq_some_iff,
            Prod.mk.injEq] at k1
          obtain ⟨x, hx, rfl, _⟩ := k1
          exact hx
        have hm : ∀ id p, (id, p) ∈ live s1 ↔ (id, p) ∈ live s ∧ ed.first p = none := by
          intro id p
          rw [hl, List.mem_filter]
          simp
        refine ⟨s', tr', by simp [hrep], k2, fun _ => ⟨?_, ?_⟩⟩
        · rintro ⟨id, p, h1, h2, h3⟩
          exact (k3 ⟨id, p, (hm id p).mpr ⟨h1, h2⟩, h3⟩).1
        · intro hno
          have := k4 (fun id p hx hf => hno id p ((hm id p).mp hx).1 ((hm id p).mp hx).2 hf)
          exact ⟨by rw [this.1, g4], this.2.1⟩

/-! Non-vacuity: of three problems the first and the last have an edit; the file is the list of edits. -/
private def edEx (ok : Bool) : Edits (List Nat) (List Nat) :=
  { first := fun p => match p with
      | .selectSandbox => some (fun e => some (e ++ [1]))
      | .importStdApi _ => some (fun e => some (e ++ [2]))
      | _ => none
    open_ := some
    write := fun _ e => if ok then some e else none }
private def three : List Problem := [.selectSandbox, .unusedPackageConfig ⟨str! "a", .all⟩, .importStdApi (str! "fs")]
example : ((step {} (.add three)).bind (fun r => onProblemsAdded (edEx true) { autoAccept := true } r.1 [])).map
    (fun r => (r.1.aborted, r.1.sent, r.2)) = some (false, [(0, .continue_)], some [1, 2]) := by decide
example : ((step {} (.add (three ++ [.message []]))).bind
      (fun r => onProblemsAdded (edEx true) { autoAccept := true } r.1 [])).map
    (fun r => (r.1.aborted, r.1.sent, r.2)) = some (true, [(0, .giveUp)], some [1, 2]) := by decide

/-! ## C67 -/

/-- The English claim C67: if the edits could not be saved, nobody is told to continue. -/
def C67_Claim : Prop :=
  ∀ (F E : Type) (ed : Edits F E) (a : Args) (f : F) (s s' : State) (tr : List Ev), Run s tr →
    onProblemsAdded ed a s f = some (s', none) →
    ∀ w, (w, Outcome.continue_) ∈ s'.sent → (w, Outcome.continue_) ∈ s.sent

/-- **C67, disagreement.** Problems are resolved, and whoever reported them is told to continue, while the
edits are being applied; saving comes last and may fail. -/
theorem C67_continue_before_saved : ¬ C67_Claim := by
  intro h
  have r : Run _ _ := Run.step (.add [.selectSandbox]) Run.init rfl
  have := h _ _ (edEx false) { autoAccept := true } [] _ _ _ r rfl 0 (by decide)
  revert this
  decide

/-- **C67 (partial).** If the file cannot even be opened, or the first edit fails, nothing is resolved and
nobody is told anything. Missing: errors after that. -/
theorem C67_early_error_partial (F E : Type) (ed : Edits F E) (a : Args) (f : F) (s s' : State)
    (ha : a.autoAccept = true) (hn : fixable ed s ≠ [])
    (hbad : ∀ e, ed.open_ f = some e → ∀ p, (fixable ed s).head? = some p → ∀ ap, ed.first p = some ap → ap e = none)
    (h : onProblemsAdded ed a s f = some (s', none)) : s' = s := by
  unfold onProblemsAdded acceptAll at h
  simp only [ha, if_true] at h
  cases ho : ed.open_ f with
  | none =>
    simp only [ho] at h
    simpa [eq_comm] using h
  | some e =>
    simp only [ho] at h
    unfold acceptLoop at h
    rw [firstEdit_eq] at h
    cases hf : (live s).find? (fun e => (ed.first e.2).isSome) with
    | none =>
      exfalso
      apply hn
      have hnone := List.find?_eq_none.mp hf
      unfold fixable
      rw [List.filter_eq_nil_iff]
      intro p hp
      obtain ⟨x, hx, rfl⟩ := List.mem_map.mp hp
      exact hnone x hx
    | some r =>
      obtain ⟨id, p⟩ := r
      have hpe : (ed.first p).isSome = true := by simpa using List.find?_some hf
      obtain ⟨ap, hap⟩ := Option.isSome_iff_exists.mp hpe
      have hhead : (fixable ed s).head? = some p := by
        have := remove_first (q := fun p => (ed.first p).isSome) (liveFrom_pairwise s.problems 0) hf
        exact congrArg List.head? this
      have hnone := hbad e ho p hhead ap hap
      simp only [hf, Option.bind_some, hap, Option.map_some, hnone, finishAccept] at h
      simpa [eq_comm] using h

example : (step {} (.add three)).isSome ∧
    ((step {} (.add three)).bind (fun r => onProblemsAdded
      ({ edEx true with first := fun _ => some (fun _ => none) }) { autoAccept := true } r.1 [])).map
    (fun r => (r.1.sent, r.2)) = some ([], none) := by decide

end Cackle.NullUi
