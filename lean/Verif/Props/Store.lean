import Verif.Lemmas.Store

/-!
# C10, C11, C12: the problem store
-/

namespace Cackle.Store
open Cackle

theorem mem_live {s : State} {id : Nat} {p : Problem} :
    (id, p) ∈ live s ↔ s.problems[id]? = some (some p) := by
  unfold live
  rw [List.mem_filterMap]
  constructor
  · rintro ⟨⟨o, i⟩, hm, h⟩
    have := (List.mem_zipIdx_iff_getElem? (x := (o, i))).mp hm
    obtain ⟨q, rfl, h2⟩ := Option.map_eq_some_iff.mp h
    simp only [Prod.mk.injEq] at h2
    obtain ⟨rfl, rfl⟩ := h2
    exact this
  · intro h
    exact ⟨(some p, id), (List.mem_zipIdx_iff_getElem? (x := (some p, id))).mpr h, rfl⟩

/-! ## C10 -/

theorem sent_mono {s s' : State} {ev : Ev} {op : Op} (hi : W s) (h : step s op = some (s', ev)) :
    ∀ m ∈ s.sent, m ∈ s'.sent := by
  intro m hm
  cases op with
  | add ps =>
    obtain ⟨⟨s1, ids⟩, h1, h2⟩ := Option.map_eq_some_iff.mp h
    simp only [Prod.mk.injEq] at h2
    obtain ⟨rfl, rfl⟩ := h2
    unfold add at h1
    split at h1
    · cases h1
    · split at h1
      · cases h1
      · rename_i s2 ids2 h3
        simp only [Option.some.injEq, Prod.mk.injEq] at h1
        obtain ⟨rfl, rfl⟩ := h1
        have := (addProblems_spec hi h3).2.1.sent
        simp only [this]; exact hm
  | replace id repl =>
    obtain ⟨⟨s1, ids⟩, h1, h2⟩ := Option.map_eq_some_iff.mp h
    simp only [Prod.mk.injEq] at h2
    obtain ⟨rfl, rfl⟩ := h2
    unfold replace at h1
    split at h1
    · split at h1
      · cases h1
      · rename_i s2 ids2 h3
        simp only [Option.some.injEq, Prod.mk.injEq] at h1
        obtain ⟨rfl, rfl⟩ := h1
        have := (addProblems_spec (W_take hi id) h3).2.1.sent
        simp only [this]; exact List.mem_append_left _ hm
    · cases h1
  | abort =>
    simp only [step, Option.some.injEq, Prod.mk.injEq] at h
    obtain ⟨rfl, rfl⟩ := h
    exact List.mem_append_left _ hm

theorem answered_after_abort {s : State} {tr : List Ev} (h : Run s tr) (later earlier : List Ev)
    (he : tr = later ++ Ev.aborted :: earlier) (w : Nat) (ids : List Nat)
    (ha : Ev.added w ids ∈ earlier) : ∃ o, (w, o) ∈ s.sent := by
  induction h generalizing later with
  | init => simp at he
  | @step s0 s1 tr0 ev op hr hs ih =>
    cases later with
    | nil =>
      simp only [List.nil_append, List.cons.injEq] at he
      obtain ⟨rfl, rfl⟩ := he
      have hi := inv_step op (inv_run hr) hs
      cases op with
      | add ps =>
        obtain ⟨_, _, h2⟩ := Option.map_eq_some_iff.mp hs
        simp at h2
      | replace id repl =>
        obtain ⟨_, _, h2⟩ := Option.map_eq_some_iff.mp hs
        simp at h2
      | abort =>
        simp only [step, Option.some.injEq, Prod.mk.injEq] at hs
        obtain ⟨rfl, _⟩ := hs
        rcases hi.complete w ids (List.mem_cons_of_mem _ ha) with ⟨e, he, _⟩ | h
        · simp [abort] at he
        · exact h
    | cons e later =>
      simp only [List.cons_append, List.cons.injEq] at he
      obtain ⟨rfl, he⟩ := he
      obtain ⟨o, ho⟩ := ih later he
      exact ⟨o, sent_mono (inv_run hr).w hs _ ho⟩

/-- **C10.** In every state that can be reached, for every waiter (`added w ids0` happened):
it has received at most one outcome; if it received `Continue`, then everything it owes (what it
reported and what replaced that) is resolved; if it received `GiveUp`, the store was aborted; once
everything it owes is resolved it has an outcome; and if the store was aborted after it reported its
problems, it has an outcome. Since this holds in every reachable state, it holds in particular in the
state right after the outcome was sent. -/
theorem C10_waiters (s : State) (tr : List Ev) (h : Run s tr) (w : Nat) (ids0 : List Nat)
    (hw : Ev.added w ids0 ∈ tr) :
    (s.sent.filter (fun m => m.1 = w)).length ≤ 1 ∧
    ((w, .continue_) ∈ s.sent → ∀ id, Owes tr w id → Dead s id) ∧
    ((w, .giveUp) ∈ s.sent → Ev.aborted ∈ tr) ∧
    ((∀ id, Owes tr w id → Dead s id) → ∃ o, (w, o) ∈ s.sent) ∧
    (∀ later earlier, tr = later ++ Ev.aborted :: earlier → Ev.added w ids0 ∈ earlier →
      ∃ o, (w, o) ∈ s.sent) := by
  have hi := inv_run h
  refine ⟨?_, hi.cont w, hi.gaveUp w, ?_, ?_⟩
  · have : ∀ l : List (Nat × Outcome), (l.map Prod.fst).Nodup →
        (l.filter (fun m => m.1 = w)).length ≤ 1 := by
      intro l
      induction l with
      | nil => simp
      | cons m l ih =>
        intro hn
        simp only [List.map_cons, List.nodup_cons] at hn
        by_cases hm : m.1 = w
        · have : l.filter (fun m => decide (m.1 = w)) = [] := by
            rw [List.filter_eq_nil_iff]
            intro x hx hxw
            simp only [decide_eq_true_eq] at hxw
            exact hn.1 (List.mem_map.mpr ⟨x, hx, hxw.trans hm.symm⟩)
          rw [List.filter_cons_of_pos (by simpa using hm), this]; simp
        · rw [List.filter_cons_of_neg (by simpa using hm)]; exact ih hn.2
    exact this _ hi.sentOnce
  · intro hd
    rcases hi.complete w ids0 hw with ⟨e, he, rfl⟩ | h
    · cases ho : e.isOpen with
      | false => exact ⟨_, (hi.entryClosed e he ho).2⟩
      | true =>
        exfalso
        apply (hi.entryOpen e he ho).1
        rw [List.eq_nil_iff_forall_not_mem]
        intro x hx
        obtain ⟨h1, h2⟩ := (hi.entryIds e he x).mp hx
        exact not_live_dead h2 (hd x h1)
    · exact h
  · intro later earlier he ha
    exact answered_after_abort h later earlier he w ids0 ha

/-! ## C11 -/

/-- **C11, stability.** One operation on a reachable store: a live ID keeps denoting the same problem
(with possibly more usages) unless this very ID is resolved; a resolved ID stays resolved (so it is
never reused); and resolving an ID does resolve it. -/
theorem C11_ids_stable (s s' : State) (tr : List Ev) (h : Run s tr) (op : Op) (ev : Ev)
    (hs : step s op = some (s', ev)) :
    (∀ id p, (id, p) ∈ live s → (∀ r, op ≠ .replace id r) →
      ∃ q, (id, q) ∈ live s' ∧ Grown p q) ∧
    (∀ id, Dead s id → Dead s' id) ∧
    (∀ id r, op = .replace id r → Dead s' id) := by
  have hi := inv_run h
  cases op with
  | add ps =>
    obtain ⟨⟨s1, ids⟩, h1, h2⟩ := Option.map_eq_some_iff.mp hs
    simp only [Prod.mk.injEq] at h2
    obtain ⟨rfl, rfl⟩ := h2
    unfold add at h1
    split at h1
    · cases h1
    · split at h1
      · cases h1
      · rename_i s2 ids2 h3
        simp only [Option.some.injEq, Prod.mk.injEq] at h1
        obtain ⟨rfl, rfl⟩ := h1
        have e := (addProblems_spec hi.w h3).2.1
        refine ⟨?_, e.dead, by simp⟩
        intro id p hp _
        simp only [mem_live] at hp ⊢
        exact e.live id p hp
  | replace id repl =>
    obtain ⟨⟨s1, ids⟩, h1, h2⟩ := Option.map_eq_some_iff.mp hs
    simp only [Prod.mk.injEq] at h2
    obtain ⟨rfl, rfl⟩ := h2
    unfold replace at h1
    split at h1
    · rename_i problem hp
      have hlt : id < s.problems.length := (List.getElem?_eq_some_iff.mp hp).1
      split at h1
      · cases h1
      · rename_i s2 ids2 h3
        simp only [Option.some.injEq, Prod.mk.injEq] at h1
        obtain ⟨rfl, rfl⟩ := h1
        have e := (addProblems_spec (W_take hi.w id) h3).2.1
        refine ⟨?_, ?_, ?_⟩
        · intro j p hj hne
          have hne : ¬ id = j := by rintro rfl; exact hne _ rfl
          simp only [mem_live] at hj ⊢
          refine e.live j p ?_
          show (s.problems.set id none)[j]? = _
          rw [List.getElem?_set]; simp [hne, hj]
        · intro j hj
          refine e.dead j ?_
          unfold Dead at hj ⊢
          show (s.problems.set id none)[j]? = _
          rw [List.getElem?_set]
          split
          · rename_i heq; subst heq; simp [hlt]
          · exact hj
        · intro j r hr
          cases hr
          refine e.dead id ?_
          show (s.problems.set id none)[id]? = _
          rw [List.getElem?_set]; simp [hlt]
    · cases h1
  | abort =>
    simp only [step, Option.some.injEq, Prod.mk.injEq] at hs
    obtain ⟨rfl, rfl⟩ := hs
    refine ⟨?_, fun id hd => hd, by simp⟩
    intro id p hp _
    exact ⟨p, hp, Grown.refl p⟩

/-- **C11, deduplication.** Two live entries are never about the same problem. -/
theorem C11_one_entry_per_problem (s : State) (tr : List Ev) (h : Run s tr) (i j : Nat)
    (p q : Problem) (hp : (i, p) ∈ live s) (hq : (j, q) ∈ live s) (hsame : p.Same q) :
    i = j ∧ p = q := by
  have hi := inv_run h
  rw [mem_live] at hp hq
  have h1 := hi.w.key i p hp
  have h2 := hi.w.key j q hq
  rw [(Problem.same_iff p q).mp hsame, h2] at h1
  simp only [Option.some.injEq] at h1
  subst h1
  rw [hp] at hq
  exact ⟨rfl, by simpa using hq⟩

/-- **C11, nothing lost, nothing invented.** After adding problems, each of them is live under one of
the returned IDs with all its usages; every live entry either was live before under that ID or is one
of the added problems. -/
theorem C11_add_visible (s s' : State) (tr : List Ev) (h : Run s tr) (ps : List Problem)
    (ids : List Nat) (hs : step s (.add ps) = some (s', .added s.nextChan ids)) :
    (∀ p ∈ ps, ∃ id ∈ ids, ∃ q, (id, q) ∈ live s' ∧ Grown p q) ∧
    (∀ id q, (id, q) ∈ live s' → (∃ p, (id, p) ∈ live s ∧ Grown p q) ∨ ∃ p ∈ ps, p.Same q) := by
  have hi := inv_run h
  obtain ⟨⟨s1, ids'⟩, h1, h2⟩ := Option.map_eq_some_iff.mp hs
  simp only [Prod.mk.injEq, Ev.added.injEq, true_and] at h2
  obtain ⟨rfl, rfl⟩ := h2
  unfold add at h1
  split at h1
  · cases h1
  · split at h1
    · cases h1
    · rename_i s2 ids2 h3
      simp only [Option.some.injEq, Prod.mk.injEq] at h1
      obtain ⟨rfl, rfl⟩ := h1
      obtain ⟨w1, e1, g1, _⟩ := addProblems_spec hi.w h3
      refine ⟨?_, ?_⟩
      · intro p hp
        obtain ⟨id, hid, q, hq, hg⟩ := g1 p hp
        exact ⟨id, hid, q, mem_live.mpr hq, hg⟩
      · intro id q hq
        rw [mem_live] at hq
        have hq' : s2.problems[id]? = some (some q) := hq
        by_cases hlt : id < s.problems.length
        · cases ho : s.problems[id] with
          | none =>
            have : Dead s id := by rw [Dead, List.getElem?_eq_getElem hlt, ho]
            exact absurd (e1.dead id this) (fun d => not_live_dead ⟨q, hq'⟩ d)
          | some p =>
            have hp : s.problems[id]? = some (some p) := by rw [List.getElem?_eq_getElem hlt, ho]
            obtain ⟨q', hq'', hg⟩ := e1.live id p hp
            rw [hq'] at hq''
            simp only [Option.some.injEq] at hq''
            subst hq''
            exact Or.inl ⟨p, mem_live.mpr hp, hg⟩
        · right
          -- a new slot belongs to one of the added problems
          have := addProblems_new hi.w h3 id q (Nat.not_lt.mp hlt) hq'
          obtain ⟨p, hp, hk⟩ := this
          exact ⟨p, hp, (Problem.same_iff p q).mpr hk.symm⟩

/-! ## C12 -/

/-- The English claim C12. -/
def C12_Claim : Prop :=
  ∀ (s : State) (tr : List Ev), Run s tr →
    (∀ ps, ps ≠ [] → (step s (.add ps)).isSome) ∧
    (∀ id p repl, (id, p) ∈ live s → (step s (.replace id repl)).isSome) ∧
    (step s .abort).isSome

/-- **C12, disagreement.** Replacing a problem by itself panics: the slot is emptied before the
replacements are added, while its deduplication key is still registered. -/
theorem C12_replace_by_same_panics : ¬ C12_Claim := by
  intro h
  have hrun : Run _ _ := Run.step (.add [.selectSandbox]) .init rfl
  have := (h _ _ hrun).2.1 0 .selectSandbox [.selectSandbox] (mem_live.mpr rfl)
  revert this
  decide

/-- **C12 (partial).** From every reachable state: adding a non-empty list of problems, aborting, and
replacing a live problem by problems different from it, in particular resolving it, never panic.
Missing: replacing a problem by the same problem, see `C12_replace_by_same_panics`. -/
theorem C12_no_panic_partial (s : State) (tr : List Ev) (h : Run s tr) :
    (∀ ps, ps ≠ [] → (step s (.add ps)).isSome) ∧
    (∀ id p repl, (id, p) ∈ live s → (∀ r ∈ repl, ¬ p.Same r) →
      (step s (.replace id repl)).isSome) ∧
    (∀ id p, (id, p) ∈ live s → (step s (.replace id [])).isSome) ∧
    (step s .abort).isSome := by
  have hi := inv_run h
  have hrep : ∀ id p repl, (id, p) ∈ live s → (∀ r ∈ repl, ¬ p.Same r) →
      (step s (.replace id repl)).isSome := by
    intro id p repl hp hr
    rw [mem_live] at hp
    obtain ⟨s1, ids, h1⟩ := addProblems_total (ps := repl) (W_take hi.w id) (by
      intro r hrm j hj
      have hkl := hi.keyLive _ j hj
      obtain ⟨q, hq⟩ := hkl
      refine ⟨q, ?_⟩
      show (s.problems.set id none)[j]? = _
      rw [List.getElem?_set]
      have hne : ¬ id = j := by
        rintro rfl
        have := (hi.w.slot _ _ hj).2 p hp
        exact hr r hrm ((Problem.same_iff p r).mpr this)
      simp [hne, hq])
    simp [step, replace, hp, h1]
  refine ⟨?_, hrep, fun id p hp => hrep id p [] hp (by simp), by simp [step]⟩
  intro ps hne
  obtain ⟨s1, ids, h1⟩ := addProblems_total (ps := ps) hi.w (fun p _ id hk => hi.keyLive _ id hk)
  simp [step, add, hne, h1]

/-! Non-vacuity: two waiters share a problem, it is replaced by two others which are resolved. -/

private def p1 : Problem := .missingConfiguration (str! "cackle.toml")
private def script : List Op :=
  [.add [p1], .add [p1, .importStdApi (str! "fs")], .replace 0 [.selectSandbox], .replace 2 []]
private def play : State → List Op → Option State
  | s, [] => some s
  | s, op :: ops => (step s op).bind (fun r => play r.1 ops)
example : ((play {} script).map (fun s => s.sent)) = some [(0, .continue_)] := by decide
example : ((play {} (script ++ [.abort])).map (fun s => s.sent)) =
    some [(0, .continue_), (1, .giveUp)] := by decide
example : ∃ s tr, Run s tr ∧ Ev.added 0 [0] ∈ tr ∧ Owes tr 0 1 ∧ (0, .continue_) ∉ s.sent := by
  refine ⟨_, _, .step (.replace 0 [.selectSandbox]) (.step (.add [p1]) .init rfl) rfl, ?_, ?_, ?_⟩
  · exact List.mem_cons_of_mem _ (List.mem_cons_self ..)
  · exact .replaced (id := 0) (.reported (List.mem_cons_of_mem _ (List.mem_cons_self ..)) (by simp))
      (List.mem_cons_self ..) (by simp)
  · decide

end Cackle.Store
