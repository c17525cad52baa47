import Verif.Props.StoreSpec

/-!
# Invariants of the problem store
-/

namespace Cackle.Problem

theorem dedupKey_idem (p : Problem) : p.dedupKey.dedupKey = p.dedupKey := by
  cases p <;> rfl

theorem same_iff (a b : Problem) : a.Same b ↔ a.dedupKey = b.dedupKey := by
  cases a <;> cases b <;> simp [Same, dedupKey]

theorem merge_some {a b : Problem} (h : a.dedupKey = b.dedupKey) :
    ∃ c, a.merge b = some c ∧ c.dedupKey = a.dedupKey ∧
      (∀ u ∈ a.apiUsages, u ∈ c.apiUsages) ∧ (∀ u ∈ b.apiUsages, u ∈ c.apiUsages) := by
  by_cases hd : ∃ u, a = .disallowedApiUsage u
  · obtain ⟨u, rfl⟩ := hd
    cases b with
    | disallowedApiUsage v =>
      simp only [dedupKey, disallowedApiUsage.injEq, ApiUsages.mk.injEq, and_true] at h
      obtain ⟨h1, h2, h3⟩ := h
      refine ⟨.disallowedApiUsage { u with usages := u.usages ++ v.usages }, ?_, ?_, ?_, ?_⟩
      · simp [merge, h1, h2, h3]
      · rfl
      · intro x hx; simp only [apiUsages] at hx ⊢; exact List.mem_append_left _ hx
      · intro x hx; simp only [apiUsages] at hx ⊢; exact List.mem_append_right _ hx
    | _ => simp [dedupKey] at h
  · refine ⟨a, ?_, rfl, fun u h => h, ?_⟩
    · cases a <;> first | rfl | exact absurd ⟨_, rfl⟩ hd
    · cases a <;> cases b <;> simp_all [dedupKey, apiUsages]

end Cackle.Problem

namespace Cackle.Store
open Cackle

theorem not_live_dead {s : State} {id : Nat} (h1 : Live s id) (h2 : Dead s id) : False := by
  obtain ⟨p, hp⟩ := h1
  rw [Dead, hp] at h2
  cases h2

/-- Keys and slots agree, except that a key may still point to a resolved slot. -/
structure W (s : State) : Prop where
  key : ∀ (id : Nat) p, s.problems[id]? = some (some p) → s.idByKey.get? p.dedupKey = some id
  slot : ∀ k id, s.idByKey.get? k = some id →
    id < s.problems.length ∧ ∀ p, s.problems[id]? = some (some p) → p.dedupKey = k

theorem Grown.key {p q : Problem} (h : Grown p q) : q.dedupKey = p.dedupKey :=
  ((Problem.same_iff p q).mp h.1).symm
theorem Grown.mk' {p q : Problem} (h : q.dedupKey = p.dedupKey)
    (hu : ∀ u ∈ p.apiUsages, u ∈ q.apiUsages) : Grown p q :=
  ⟨(Problem.same_iff p q).mpr h.symm, hu⟩
theorem Grown.refl (p : Problem) : Grown p p := Grown.mk' rfl (fun _ h => h)
theorem Grown.trans {p q r : Problem} (h1 : Grown p q) (h2 : Grown q r) : Grown p r :=
  Grown.mk' (h2.key.trans h1.key) (fun u h => h2.2 u (h1.2 u h))

/-- How the slots may change when problems are added. -/
structure Ext (s s' : State) : Prop where
  len : s.problems.length ≤ s'.problems.length
  dead : ∀ j, Dead s j → Dead s' j
  live : ∀ (j : Nat) p, s.problems[j]? = some (some p) → ∃ q, s'.problems[j]? = some (some q) ∧ Grown p q
  new : ∀ j, s.problems.length ≤ j → j < s'.problems.length → Live s' j
  entries : s'.entries = s.entries
  aborted : s'.aborted = s.aborted
  nextChan : s'.nextChan = s.nextChan
  sent : s'.sent = s.sent
  events : s'.events = s.events

theorem Ext.refl (s : State) : Ext s s :=
  ⟨Nat.le_refl _, fun _ h => h, fun _ p h => ⟨p, h, Grown.refl p⟩,
    fun _ h1 h2 => absurd h2 (Nat.not_lt.mpr h1), rfl, rfl, rfl, rfl, rfl⟩

theorem Ext.liveOf {s s' : State} (h : Ext s s') {j : Nat} (hl : Live s j) : Live s' j := by
  obtain ⟨p, hp⟩ := hl
  obtain ⟨q, hq, _⟩ := h.live j p hp
  exact ⟨q, hq⟩

theorem Ext.trans {a b c : State} (h1 : Ext a b) (h2 : Ext b c) : Ext a c := by
  refine ⟨Nat.le_trans h1.len h2.len, fun j h => h2.dead j (h1.dead j h), ?_, ?_, ?_, ?_, ?_, ?_, ?_⟩
  · intro j p h
    obtain ⟨q, hq, g⟩ := h1.live j p h
    obtain ⟨r, hr, g'⟩ := h2.live j q hq
    exact ⟨r, hr, g.trans g'⟩
  · intro j h3 h4
    by_cases h5 : j < b.problems.length
    · exact h2.liveOf (h1.new j h3 h5)
    · exact h2.new j (Nat.not_lt.mp h5) h4
  · rw [h2.entries, h1.entries]
  · rw [h2.aborted, h1.aborted]
  · rw [h2.nextChan, h1.nextChan]
  · rw [h2.sent, h1.sent]
  · rw [h2.events, h1.events]

/-- What a successful `addProblem` does. -/
theorem addProblem_spec {s s' : State} {p : Problem} {id : Nat} (hw : W s)
    (h : addProblem s p = some (s', id)) :
    W s' ∧ Ext s s' ∧ (∃ q, s'.problems[id]? = some (some q) ∧ Grown p q) ∧
    (∀ k, s'.idByKey.get? k = if p.dedupKey = k then some id else s.idByKey.get? k) ∧
    (s.idByKey.get? p.dedupKey = none ∨ s.idByKey.get? p.dedupKey = some id ∧ Live s id) := by
  unfold addProblem at h
  cases hk : s.idByKey.get? p.dedupKey with
  | some i =>
    rw [hk] at h
    simp only at h
    split at h
    · rename_i existing he
      have hkey := (hw.slot _ _ hk).2 existing he
      have hlt := (hw.slot _ _ hk).1
      split at h
      · rename_i hne
        obtain ⟨c, hc, hck, hca, hcb⟩ := Problem.merge_some hkey
        rw [hc] at h
        simp only [Option.some.injEq, Prod.mk.injEq] at h
        obtain ⟨rfl, rfl⟩ := h
        have hget : ∀ j, (s.problems.set i (some c))[j]? =
            if i = j then some (some c) else s.problems[j]? := by
          intro j; rw [List.getElem?_set]; by_cases hij : i = j
          · subst hij; simp [hlt]
          · simp [hij]
        refine ⟨⟨?_, ?_⟩, ⟨?_, ?_, ?_, ?_, rfl, rfl, rfl, rfl, rfl⟩, ⟨c, ?_, ?_⟩, ?_, ?_⟩
        · intro j q hq
          simp only [hget] at hq
          by_cases hij : i = j
          · subst hij; simp at hq; subst hq; rw [hck, hkey]; exact hk
          · simp [hij] at hq; exact hw.key j q hq
        · intro k j hkj
          refine ⟨by simpa using (hw.slot k j hkj).1, ?_⟩
          intro q hq
          simp only [hget] at hq
          by_cases hij : i = j
          · subst hij; simp at hq; subst hq; rw [hck]; exact (hw.slot k i hkj).2 _ he
          · simp [hij] at hq; exact (hw.slot k j hkj).2 q hq
        · simp
        · intro j hj
          unfold Dead at hj ⊢
          simp only [hget]
          by_cases hij : i = j
          · subst hij; rw [he] at hj; cases hj
          · simp [hij, hj]
        · intro j q hq
          simp only [hget]
          by_cases hij : i = j
          · subst hij
            rw [he] at hq
            simp only [Option.some.injEq] at hq
            subst hq
            exact ⟨c, by simp, Grown.mk' hck hca⟩
          · exact ⟨q, by simp [hij, hq], Grown.refl q⟩
        · intro j h1 h2
          simp at h2; omega
        · simp [hget]
        · exact Grown.mk' (by rw [hck, hkey]) hcb
        · intro k
          by_cases hkk : p.dedupKey = k
          · subst hkk; simp [hk]
          · simp [hkk]
        · exact Or.inr ⟨rfl, existing, he⟩
      · rename_i heq
        simp only [ne_eq, Decidable.not_not] at heq
        simp only [Option.some.injEq, Prod.mk.injEq] at h
        obtain ⟨rfl, rfl⟩ := h
        refine ⟨hw, Ext.refl s, ⟨existing, he, heq ▸ Grown.refl p⟩, ?_, Or.inr ⟨rfl, existing, he⟩⟩
        intro k
        by_cases hkk : p.dedupKey = k
        · subst hkk; simp [hk]
        · simp [hkk]
    · cases h
  | none =>
    rw [hk] at h
    simp only [Option.some.injEq, Prod.mk.injEq] at h
    obtain ⟨rfl, rfl⟩ := h
    have hget : ∀ j, (s.problems ++ [some p])[j]? =
        if j < s.problems.length then s.problems[j]? else
          if j = s.problems.length then some (some p) else none := by
      intro j
      by_cases hj : j < s.problems.length
      · rw [List.getElem?_append_left hj, if_pos hj]
      · by_cases hj2 : j = s.problems.length
        · subst hj2; simp
        · simp only [hj, hj2, if_false]
          rw [List.getElem?_eq_none]; simp; omega
    have hlt : ∀ {j : Nat} {x : Option Problem}, s.problems[j]? = some x → j < s.problems.length := by
      intro j x hx
      exact (List.getElem?_eq_some_iff.mp hx).1
    refine ⟨⟨?_, ?_⟩, ⟨?_, ?_, ?_, ?_, rfl, rfl, rfl, rfl, rfl⟩, ⟨p, ?_, Grown.refl p⟩, ?_, Or.inl rfl⟩
    · intro j q hq
      simp only [hget] at hq
      by_cases hj : j < s.problems.length
      · simp only [hj, if_true] at hq
        have := hw.key j q hq
        simp only [AMap.get?_insert]
        rw [if_neg]
        · exact this
        · intro e; rw [← e, hk] at this; cases this
      · simp only [hj, if_false] at hq
        split at hq
        · rename_i e
          simp only [Option.some.injEq] at hq
          subst hq; simp [e]
        · cases hq
    · intro k j hkj
      simp only [AMap.get?_insert] at hkj
      by_cases hkk : p.dedupKey = k
      · simp only [hkk, if_true, Option.some.injEq] at hkj
        subst hkj
        refine ⟨by simp, ?_⟩
        intro q hq
        simp at hq; subst hq; exact hkk
      · simp only [hkk, if_false] at hkj
        have := hw.slot k j hkj
        refine ⟨by simp; omega, ?_⟩
        intro q hq
        simp only [hget, this.1, if_true] at hq
        exact this.2 q hq
    · simp
    · intro j hj
      unfold Dead at hj ⊢
      simp only [hget, hlt hj, if_true]; exact hj
    · intro j q hq
      exact ⟨q, by simp only [hget, hlt hq, if_true]; exact hq, Grown.refl q⟩
    · intro j h1 h2
      simp at h2
      have : j = s.problems.length := by omega
      subst this
      exact ⟨p, by simp⟩
    · simp
    · intro k; simp

/-- What a successful `addProblems` does. -/
theorem addProblems_spec {s s' : State} {ps : List Problem} {ids : List Nat} (hw : W s)
    (h : addProblems s ps = some (s', ids)) :
    W s' ∧ Ext s s' ∧
    (∀ p ∈ ps, ∃ id ∈ ids, ∃ q, s'.problems[id]? = some (some q) ∧ Grown p q) ∧
    (∀ id ∈ ids, Live s' id) ∧
    (∀ id ∈ ids, ∃ p ∈ ps, ∃ q, s'.problems[id]? = some (some q) ∧ q.dedupKey = p.dedupKey) ∧
    (∀ k id, s.idByKey.get? k = some id → s'.idByKey.get? k = some id) ∧
    (∀ k id, s'.idByKey.get? k = some id → s.idByKey.get? k = some id ∨ Live s' id) ∧
    (∀ k id, s.idByKey.get? k = some id → Dead s id → ∀ p ∈ ps, p.dedupKey ≠ k) := by
  induction ps generalizing s ids with
  | nil =>
    simp only [addProblems, Option.some.injEq, Prod.mk.injEq] at h
    obtain ⟨rfl, rfl⟩ := h
    refine ⟨hw, Ext.refl s, ?_, ?_, ?_, ?_, ?_, ?_⟩ <;> simp +contextual
  | cons p ps ih =>
    simp only [addProblems] at h
    split at h
    · cases h
    · rename_i s1 id h1
      split at h
      · cases h
      · rename_i s2 ids2 h2
        simp only [Option.some.injEq, Prod.mk.injEq] at h
        obtain ⟨rfl, rfl⟩ := h
        obtain ⟨w1, e1, ⟨q, hq, gq⟩, k1, c1⟩ := addProblem_spec hw h1
        obtain ⟨w2, e2, g2, l2, b2, m2, n2, d2⟩ := ih w1 h2
        refine ⟨w2, e1.trans e2, ?_, ?_, ?_, ?_, ?_, ?_⟩
        · intro r hr
          rcases List.mem_cons.mp hr with rfl | hr
          · obtain ⟨q', hq', gq'⟩ := e2.live id q hq
            exact ⟨id, List.mem_cons_self .., q', hq', gq.trans gq'⟩
          · obtain ⟨i, hi, x⟩ := g2 r hr
            exact ⟨i, List.mem_cons_of_mem _ hi, x⟩
        · intro i hi
          rcases List.mem_cons.mp hi with rfl | hi
          · exact e2.liveOf ⟨q, hq⟩
          · exact l2 i hi
        · intro i hi
          rcases List.mem_cons.mp hi with rfl | hi
          · obtain ⟨q', hq', gq'⟩ := e2.live i q hq
            exact ⟨p, List.mem_cons_self .., q', hq', (gq.trans gq').key⟩
          · obtain ⟨r, hr, x⟩ := b2 i hi
            exact ⟨r, List.mem_cons_of_mem _ hr, x⟩
        · intro k i hk
          refine m2 k i ?_
          rw [k1]
          by_cases hkk : p.dedupKey = k
          · subst hkk
            rcases c1 with c1 | c1
            · rw [c1] at hk; cases hk
            · rw [c1.1] at hk; simp [hk]
          · simp [hkk, hk]
        · intro k i hk
          rcases n2 k i hk with h | h
          · rw [k1] at h
            by_cases hkk : p.dedupKey = k
            · simp only [hkk, if_true, Option.some.injEq] at h
              subst h
              exact Or.inr (e2.liveOf ⟨q, hq⟩)
            · simp only [hkk, if_false] at h; exact Or.inl h
          · exact Or.inr h
        · intro k i hk hd r hr
          rcases List.mem_cons.mp hr with rfl | hr
          · rintro rfl
            rcases c1 with c1 | c1
            · rw [c1] at hk; cases hk
            · rw [c1.1] at hk
              simp only [Option.some.injEq] at hk
              subst hk
              exact not_live_dead c1.2 hd
          · refine d2 k i ?_ (e1.dead i hd) r hr
            rw [k1]
            by_cases hkk : p.dedupKey = k
            · subst hkk
              rcases c1 with c1 | c1
              · rw [c1] at hk; cases hk
              · rw [c1.1] at hk; simp [hk]
            · simp [hkk, hk]

/-- A slot that did not exist before belongs to one of the added problems. -/
theorem addProblems_new {s s' : State} {ps : List Problem} {ids : List Nat} (hw : W s)
    (h : addProblems s ps = some (s', ids)) (id : Nat) (q : Problem) (hn : s.problems.length ≤ id)
    (hq : s'.problems[id]? = some (some q)) : ∃ p ∈ ps, q.dedupKey = p.dedupKey := by
  induction ps generalizing s ids with
  | nil =>
    simp only [addProblems, Option.some.injEq, Prod.mk.injEq] at h
    obtain ⟨rfl, rfl⟩ := h
    exact absurd (List.getElem?_eq_some_iff.mp hq).1 (Nat.not_lt.mpr hn)
  | cons p ps ih =>
    simp only [addProblems] at h
    split at h
    · cases h
    · rename_i s1 i h1
      split at h
      · cases h
      · rename_i s2 ids2 h2
        simp only [Option.some.injEq, Prod.mk.injEq] at h
        obtain ⟨rfl, rfl⟩ := h
        obtain ⟨w1, e1, ⟨r, hr, gr⟩, k1, c1⟩ := addProblem_spec hw h1
        by_cases hlt : id < s1.problems.length
        · obtain ⟨r', hr'⟩ := e1.new id hn hlt
          have e2 := (addProblems_spec w1 h2).2.1
          obtain ⟨q', hq', hg⟩ := e2.live id r' hr'
          rw [hq] at hq'
          simp only [Option.some.injEq] at hq'
          subst hq'
          have hk := w1.key id r' hr'
          rw [k1] at hk
          by_cases hkk : p.dedupKey = r'.dedupKey
          · exact ⟨p, List.mem_cons_self .., by rw [hg.key, hkk]⟩
          · simp only [hkk, if_false] at hk
            exact absurd (hw.slot _ _ hk).1 (Nat.not_lt.mpr hn)
        · obtain ⟨p', hp', x⟩ := ih w1 h2 (Nat.not_lt.mp hlt)
          exact ⟨p', List.mem_cons_of_mem _ hp', x⟩

/-- `addProblems` does not panic if every key that points to a resolved slot is avoided. -/
theorem addProblems_total {s : State} {ps : List Problem} (hw : W s)
    (hd : ∀ p ∈ ps, ∀ id, s.idByKey.get? p.dedupKey = some id → Live s id) :
    ∃ s' ids, addProblems s ps = some (s', ids) := by
  induction ps generalizing s with
  | nil => exact ⟨s, [], rfl⟩
  | cons p ps ih =>
    have h1 : ∃ s1 id, addProblem s p = some (s1, id) := by
      unfold addProblem
      cases hk : s.idByKey.get? p.dedupKey with
      | none => exact ⟨_, _, rfl⟩
      | some id =>
        obtain ⟨q, hq⟩ := hd p (List.mem_cons_self ..) id hk
        simp only [hq]
        split
        · obtain ⟨c, hc, _⟩ := Problem.merge_some ((hw.slot _ _ hk).2 q hq)
          rw [hc]; exact ⟨_, _, rfl⟩
        · exact ⟨_, _, rfl⟩
    obtain ⟨s1, id, h1⟩ := h1
    obtain ⟨w1, e1, ⟨q, hq, gq⟩, k1, c1⟩ := addProblem_spec hw h1
    have := ih w1 (by
      intro r hr i hi
      rw [k1] at hi
      by_cases hkk : p.dedupKey = r.dedupKey
      · simp only [hkk, if_true, Option.some.injEq] at hi
        subst hi; exact ⟨q, hq⟩
      · simp only [hkk, if_false] at hi
        exact e1.liveOf (hd r (List.mem_cons_of_mem _ hr) i hi))
    obtain ⟨s2, ids, h2⟩ := this
    exact ⟨s2, id :: ids, by simp [addProblems, h1, h2]⟩

theorem Owes.mono {tr tr' : List Ev} {w id : Nat} (h : ∀ e ∈ tr, e ∈ tr') (ho : Owes tr w id) :
    Owes tr' w id := by
  induction ho with
  | reported h1 h2 => exact .reported (h _ h1) h2
  | replaced _ h1 h2 ih => exact .replaced ih (h _ h1) h2

/-- The invariant. -/
structure Inv (s : State) (tr : List Ev) : Prop where
  w : W s
  keyLive : ∀ k id, s.idByKey.get? k = some id → Live s id
  /-- IDs mentioned in the trace have been issued. -/
  issued : ∀ v id, Owes tr v id → Live s id ∨ Dead s id
  dead : ∀ id ids, Ev.replaced id ids ∈ tr → Dead s id
  chan : ∀ v ids, Ev.added v ids ∈ tr → v < s.nextChan
  entryChan : ∀ e ∈ s.entries, e.chan < s.nextChan
  entryNodup : (s.entries.map Entry.chan).Nodup
  entryIds : ∀ e ∈ s.entries, ∀ id, id ∈ e.ids ↔ Owes tr e.chan id ∧ Live s id
  entryOpen : ∀ e ∈ s.entries, e.isOpen = true → e.ids ≠ [] ∧ ∀ o, (e.chan, o) ∉ s.sent
  entryClosed : ∀ e ∈ s.entries, e.isOpen = false → e.ids = [] ∧ (e.chan, Outcome.continue_) ∈ s.sent
  sentChan : ∀ m ∈ s.sent, m.1 < s.nextChan
  sentOnce : (s.sent.map Prod.fst).Nodup
  cont : ∀ v, (v, Outcome.continue_) ∈ s.sent → ∀ id, Owes tr v id → Dead s id
  gaveUp : ∀ v, (v, Outcome.giveUp) ∈ s.sent → Ev.aborted ∈ tr
  abortedEv : s.aborted = true ↔ Ev.aborted ∈ tr
  complete : ∀ v ids, Ev.added v ids ∈ tr → (∃ e ∈ s.entries, e.chan = v) ∨ ∃ o, (v, o) ∈ s.sent

theorem inv_init : Inv {} [] := by
  have ho : ∀ w id, ¬ Owes [] w id := by
    intro w id h; induction h with
    | reported h => cases h
    | replaced _ h => cases h
  constructor
  · constructor <;> simp
  · simp
  · intro v id h; exact absurd h (ho v id)
  · simp
  · simp
  · simp
  · simp
  · simp
  · simp
  · simp
  · simp
  · simp
  · simp
  · simp
  · simp
  · simp

/-- Obligations after an `add`. -/
theorem owes_added {s : State} {tr : List Ev} (hi : Inv s tr) {ids : List Nat} {s' : State}
    (he : Ext s s') (hlive : ∀ id ∈ ids, Live s' id) (v id : Nat) :
    Owes (Ev.added s.nextChan ids :: tr) v id ↔ Owes tr v id ∨ (v = s.nextChan ∧ id ∈ ids) := by
  constructor
  · intro h
    induction h with
    | reported h1 h2 =>
      rcases List.mem_cons.mp h1 with h1 | h1
      · cases h1; exact Or.inr ⟨rfl, h2⟩
      · exact Or.inl (.reported h1 h2)
    | replaced _ h1 h2 ih =>
      rcases List.mem_cons.mp h1 with h1 | h1
      · cases h1
      · rcases ih with ih | ⟨rfl, ih⟩
        · exact Or.inl (.replaced ih h1 h2)
        · exact absurd (he.dead _ (hi.dead _ _ h1)) (fun d => not_live_dead (hlive _ ih) d)
  · rintro (h | ⟨rfl, h⟩)
    · exact h.mono (fun e he => List.mem_cons_of_mem _ he)
    · exact .reported (List.mem_cons_self ..) h

/-- A waiter that does not exist yet owes nothing. -/
theorem owes_lt {s : State} {tr : List Ev} (hi : Inv s tr) {v id : Nat} (h : Owes tr v id) :
    v < s.nextChan := by
  induction h with
  | reported h1 _ => exact hi.chan _ _ h1
  | replaced _ _ _ ih => exact ih

theorem inv_add {s s' : State} {tr : List Ev} (hi : Inv s tr) {ps : List Problem} {ids : List Nat}
    (h : add s ps = some (s', ids)) : Inv s' (Ev.added s.nextChan ids :: tr) := by
  unfold add at h
  split at h
  · cases h
  · rename_i hne
    split at h
    · cases h
    · rename_i s1 ids1 h1
      simp only [Option.some.injEq, Prod.mk.injEq] at h
      obtain ⟨rfl, rfl⟩ := h
      obtain ⟨w1, e1, g1, l1, b1, m1, n1, d1⟩ := addProblems_spec hi.w h1
      have howes := owes_added hi e1 l1
      have hL : ∀ i, Live { s1 with entries := s1.entries ++ [⟨s1.nextChan, ids1, true⟩]
                                    nextChan := s1.nextChan + 1
                                    events := s1.events + 1 } i ↔ Live s1 i := fun i => Iff.rfl
      have hD : ∀ i, Dead { s1 with entries := s1.entries ++ [⟨s1.nextChan, ids1, true⟩]
                                    nextChan := s1.nextChan + 1
                                    events := s1.events + 1 } i ↔ Dead s1 i := fun i => Iff.rfl
      have hids : ids1 ≠ [] := by
        cases ps with
        | nil => exact absurd rfl hne
        | cons p ps =>
          obtain ⟨i, hi', _⟩ := g1 p (List.mem_cons_self ..)
          intro e; rw [e] at hi'; cases hi'
      have hback : ∀ i, (Live s i ∨ Dead s i) → (Live s1 i ↔ Live s i) := by
        intro i hl
        refine ⟨fun h => ?_, fun h => e1.liveOf h⟩
        rcases hl with hl | hl
        · exact hl
        · exact absurd (e1.dead i hl) (fun d => not_live_dead h d)
      constructor
      · exact ⟨w1.key, w1.slot⟩
      · intro k i hk
        rcases n1 k i hk with h | h
        · exact e1.liveOf (hi.keyLive k i h)
        · exact h
      · intro v i ho
        rw [howes] at ho
        rcases ho with ho | ⟨_, ho⟩
        · rcases hi.issued v i ho with h | h
          · exact Or.inl (e1.liveOf h)
          · exact Or.inr (e1.dead i h)
        · exact Or.inl (l1 i ho)
      · intro i is hm
        rcases List.mem_cons.mp hm with hm | hm
        · cases hm
        · exact e1.dead i (hi.dead i is hm)
      · intro v is hm
        simp only [e1.nextChan]
        rcases List.mem_cons.mp hm with hm | hm
        · cases hm; omega
        · have := hi.chan v is hm; omega
      · intro e he
        simp only [e1.nextChan, e1.entries] at he ⊢
        rcases List.mem_append.mp he with he | he
        · have := hi.entryChan e he; omega
        · simp at he; subst he; simp
      · simp only [e1.entries, e1.nextChan, List.map_append, List.map_cons, List.map_nil]
        rw [List.nodup_append]
        refine ⟨hi.entryNodup, by simp, ?_⟩
        intro a ha b hb
        simp only [List.mem_cons, List.not_mem_nil, or_false] at hb
        obtain ⟨e, he, rfl⟩ := List.mem_map.mp ha
        have := hi.entryChan e he
        omega
      · intro e he i
        simp only [e1.entries, e1.nextChan] at he
        rw [hL, howes]
        rcases List.mem_append.mp he with he | he
        · rw [hi.entryIds e he i]
          have hne : e.chan ≠ s.nextChan := Nat.ne_of_lt (hi.entryChan e he)
          simp only [hne, false_and, or_false]
          constructor
          · rintro ⟨h1, h2⟩; exact ⟨h1, e1.liveOf h2⟩
          · rintro ⟨h1, h2⟩; exact ⟨h1, (hback i (hi.issued _ i h1)).mp h2⟩
        · simp only [List.mem_cons, List.not_mem_nil, or_false] at he
          subst he
          simp only [true_and]
          constructor
          · intro h; exact ⟨Or.inr h, l1 i h⟩
          · rintro ⟨h | h, _⟩
            · exact absurd (owes_lt hi h) (Nat.lt_irrefl _)
            · exact h
      · intro e he ho
        simp only [e1.entries, e1.nextChan] at he
        simp only [e1.sent]
        rcases List.mem_append.mp he with he | he
        · exact hi.entryOpen e he ho
        · simp only [List.mem_cons, List.not_mem_nil, or_false] at he
          subst he
          refine ⟨hids, fun o hm => ?_⟩
          exact absurd (hi.sentChan _ hm) (Nat.lt_irrefl _)
      · intro e he ho
        simp only [e1.entries, e1.nextChan] at he
        simp only [e1.sent]
        rcases List.mem_append.mp he with he | he
        · exact hi.entryClosed e he ho
        · simp only [List.mem_cons, List.not_mem_nil, or_false] at he
          subst he; cases ho
      · intro m hm
        simp only [e1.sent, e1.nextChan] at hm ⊢
        have := hi.sentChan m hm; omega
      · simp only [e1.sent]; exact hi.sentOnce
      · intro v hv i ho
        simp only [e1.sent] at hv
        rw [howes] at ho
        rcases ho with ho | ⟨rfl, _⟩
        · exact e1.dead i (hi.cont v hv i ho)
        · exact absurd (hi.sentChan _ hv) (Nat.lt_irrefl _)
      · intro v hv
        simp only [e1.sent] at hv
        exact List.mem_cons_of_mem _ (hi.gaveUp v hv)
      · simp only [e1.aborted, hi.abortedEv, List.mem_cons]
        constructor
        · exact Or.inr
        · rintro (h | h)
          · cases h
          · exact h
      · intro v is hm
        simp only [e1.entries, e1.nextChan, e1.sent]
        rcases List.mem_cons.mp hm with hm | hm
        · cases hm
          exact Or.inl ⟨⟨s.nextChan, ids1, true⟩, by simp, rfl⟩
        · rcases hi.complete v is hm with ⟨e, he, hc⟩ | h
          · exact Or.inl ⟨e, List.mem_append_left _ he, hc⟩
          · exact Or.inr h

theorem inj_of_nodup_map {α β : Type} {f : α → β} {l : List α} (h : (l.map f).Nodup) {a b : α}
    (ha : a ∈ l) (hb : b ∈ l) (he : f a = f b) : a = b := by
  induction l with
  | nil => cases ha
  | cons x l ih =>
    simp only [List.map_cons, List.nodup_cons] at h
    rcases List.mem_cons.mp ha with rfl | ha'
    · rcases List.mem_cons.mp hb with rfl | hb'
      · rfl
      · exact absurd (List.mem_map.mpr ⟨b, hb', he.symm⟩) h.1
    · rcases List.mem_cons.mp hb with rfl | hb'
      · exact absurd (List.mem_map.mpr ⟨a, ha', he⟩) h.1
      · exact ih h.2 ha' hb'

theorem mem_foldl_setInsert (l acc : List Nat) (x : Nat) :
    x ∈ l.foldl (fun acc i => setInsert i acc) acc ↔ x ∈ acc ∨ x ∈ l := by
  induction l generalizing acc with
  | nil => simp
  | cons a l ih => simp only [List.foldl_cons, ih, mem_setInsert, List.mem_cons]; grind

/-- What happens to one entry in `replace`. -/
theorem replaceProblem_spec (e : Entry) (id : Nat) (repl : List Nat) :
    (e.replaceProblem id repl).1.chan = e.chan ∧
    (∀ x, x ∈ (e.replaceProblem id repl).1.ids ↔
      (x ∈ e.ids ∧ x ≠ id) ∨ (id ∈ e.ids ∧ x ∈ repl)) ∧
    ((e.replaceProblem id repl).2 = true ↔
      e.isOpen = true ∧ id ∈ e.ids ∧ (e.replaceProblem id repl).1.ids = []) ∧
    ((e.replaceProblem id repl).1.isOpen = true ↔
      e.isOpen = true ∧ (e.replaceProblem id repl).2 = false) := by
  unfold Entry.replaceProblem
  by_cases h : id ∈ e.ids
  · simp only [h, if_true]
    split
    · rename_i hc
      refine ⟨rfl, ?_, ?_, ?_⟩
      · intro x; simp only [mem_foldl_setInsert, mem_setRemove]; grind
      · simp only [hc, true_and, and_self]
      · simp
    · rename_i hc
      refine ⟨rfl, ?_, ?_, ?_⟩
      · intro x; simp only [mem_foldl_setInsert, mem_setRemove]; grind
      · simp only [true_and]
        constructor
        · intro h; cases h
        · rintro ⟨h1, h2⟩; exact absurd ⟨h2, h1⟩ hc
      · simp
  · simp only [h, if_false]
    refine ⟨trivial, ?_, ?_, ?_⟩
    · intro x
      simp only [false_and, or_false]
      constructor
      · intro hx; exact ⟨hx, fun e => h (e ▸ hx)⟩
      · exact fun hx => hx.1
    · simp
    · simp

theorem notifyAll_entries (id : Nat) (repl : List Nat) (es : List Entry) :
    (notifyAll id repl es).1 = es.map (fun e => (e.replaceProblem id repl).1) := by
  induction es with
  | nil => rfl
  | cons e es ih => simp [notifyAll, ih]

theorem notifyAll_msgs (id : Nat) (repl : List Nat) (es : List Entry) :
    (notifyAll id repl es).2 =
      (es.filter (fun e => (e.replaceProblem id repl).2)).map (fun e => (e.chan, .continue_)) := by
  induction es with
  | nil => rfl
  | cons e es ih =>
    simp only [notifyAll, ih]
    by_cases h : (e.replaceProblem id repl).2 = true
    · simp [h]
    · simp only [Bool.not_eq_true] at h; simp [h]

/-- Taking a problem out of its slot. -/
theorem W_take {s : State} (hw : W s) (id : Nat) :
    W { s with problems := s.problems.set id none } := by
  have hget : ∀ (j : Nat) q, (s.problems.set id none)[j]? = some (some q) →
      s.problems[j]? = some (some q) := by
    intro j q h
    rw [List.getElem?_set] at h
    split at h
    · split at h <;> cases h
    · exact h
  constructor
  · intro j q hq
    exact hw.key j q (hget j q hq)
  · intro k j hk
    refine ⟨by simpa using (hw.slot k j hk).1, fun q hq => (hw.slot k j hk).2 q (hget j q hq)⟩

theorem inv_replace {s s' : State} {tr : List Ev} (hi : Inv s tr) {id : Nat} {repl : List Problem}
    {ids : List Nat} (h : replace s id repl = some (s', ids)) : Inv s' (Ev.replaced id ids :: tr) := by
  unfold replace at h
  split at h
  · rename_i problem hp
    split at h
    · cases h
    · rename_i s1 ids1 h1
      simp only [Option.some.injEq, Prod.mk.injEq] at h
      obtain ⟨rfl, rfl⟩ := h
      obtain ⟨w1, e1, g1, l1, b1, m1, n1, d1⟩ := addProblems_spec (W_take hi.w id) h1
      have hlt : id < s.problems.length := (List.getElem?_eq_some_iff.mp hp).1
      -- slots of the intermediate state
      have hget : ∀ j, (s.problems.set id none)[j]? = if id = j then some none else s.problems[j]? := by
        intro j; rw [List.getElem?_set]; by_cases hij : id = j
        · subst hij; simp [hlt]
        · simp [hij]
      have hid : Dead s1 id := e1.dead id (by simp [Dead, hget])
      have hdead : ∀ j, Dead s j → Dead s1 j := by
        intro j hj
        refine e1.dead j ?_
        unfold Dead at hj ⊢
        simp only [hget]
        split
        · rfl
        · exact hj
      have hlive : ∀ j, Live s j → j ≠ id → Live s1 j := by
        rintro j ⟨p, hj⟩ hne
        refine e1.liveOf ⟨p, ?_⟩
        have : ¬ id = j := fun e => hne e.symm
        simp [hget, this, hj]
      have hback : ∀ j, (Live s j ∨ Dead s j) → (Live s1 j ↔ Live s j ∧ j ≠ id) := by
        intro j hl
        constructor
        · intro h
          have hne : j ≠ id := by rintro rfl; exact not_live_dead h hid
          refine ⟨?_, hne⟩
          rcases hl with hl | hl
          · exact hl
          · exact absurd (hdead j hl) (fun d => not_live_dead h d)
        · rintro ⟨h, hne⟩; exact hlive j h hne
      have hidn : id ∉ ids1 := fun hm => not_live_dead (l1 id hm) hid
      have howes : ∀ v x, Owes (Ev.replaced id ids1 :: tr) v x ↔
          Owes tr v x ∨ (Owes tr v id ∧ x ∈ ids1) := by
        intro v x
        constructor
        · intro h
          induction h with
          | reported h1 h2 =>
            rcases List.mem_cons.mp h1 with h1 | h1
            · cases h1
            · exact Or.inl (.reported h1 h2)
          | replaced _ h1 h2 ih =>
            rcases List.mem_cons.mp h1 with h1 | h1
            · cases h1
              rcases ih with ih | ⟨_, ih⟩
              · exact Or.inr ⟨ih, h2⟩
              · exact absurd ih hidn
            · rcases ih with ih | ⟨_, ih⟩
              · exact Or.inl (.replaced ih h1 h2)
              · exact absurd (hdead _ (hi.dead _ _ h1)) (fun d => not_live_dead (l1 _ ih) d)
        · rintro (h | ⟨h, hx⟩)
          · exact h.mono (fun e he => List.mem_cons_of_mem _ he)
          · exact .replaced (h.mono (fun e he => List.mem_cons_of_mem _ he)) (List.mem_cons_self ..) hx
      have hkid : s.idByKey.get? problem.dedupKey = some id := hi.w.key id problem hp
      have hkid1 : s1.idByKey.get? problem.dedupKey = some id := m1 _ _ hkid
      have hent : (notifyAll id ids1 s1.entries).1 =
          s.entries.map (fun e => (e.replaceProblem id ids1).1) := by
        rw [notifyAll_entries, e1.entries]
      have hmsg : (notifyAll id ids1 s1.entries).2 = (s.entries.filter
          (fun e => (e.replaceProblem id ids1).2)).map (fun e => (e.chan, .continue_)) := by
        rw [notifyAll_msgs, e1.entries]
      rw [hent, hmsg]
      simp only [e1.sent]
      -- ids of an updated entry
      have hEntryIds : ∀ e ∈ s.entries, ∀ x, x ∈ (e.replaceProblem id ids1).1.ids ↔
          Owes (Ev.replaced id ids1 :: tr) e.chan x ∧ Live s1 x := by
        intro e he x
        rw [(replaceProblem_spec e id ids1).2.1, howes, hi.entryIds e he x, hi.entryIds e he id]
        constructor
        · rintro (⟨⟨h1, h2⟩, h3⟩ | ⟨⟨h1, h2⟩, h3⟩)
          · exact ⟨Or.inl h1, hlive x h2 h3⟩
          · exact ⟨Or.inr ⟨h1, h3⟩, l1 x h3⟩
        · rintro ⟨h1 | ⟨h1, h3⟩, h2⟩
          · have := (hback x (hi.issued _ x h1)).mp h2
            exact Or.inl ⟨⟨h1, this.1⟩, this.2⟩
          · exact Or.inr ⟨⟨h1, problem, hp⟩, h3⟩
      have hopen : ∀ e ∈ s.entries, (e.replaceProblem id ids1).2 = true → e.isOpen = true := by
        intro e _ h; exact ((replaceProblem_spec e id ids1).2.2.1.mp h).1
      constructor
      · constructor
        · intro j q hq
          have := w1.key j q hq
          simp only [AMap.get?_erase]
          rw [if_neg]
          · exact this
          · intro e
            rw [← e, hkid1] at this
            simp only [Option.some.injEq] at this
            subst this
            exact not_live_dead ⟨q, hq⟩ hid
        · intro k j hk
          simp only [AMap.get?_erase] at hk
          split at hk
          · cases hk
          · exact w1.slot k j hk
      · intro k j hk
        simp only [AMap.get?_erase] at hk
        split at hk
        · cases hk
        · rename_i hkk
          rcases n1 k j hk with h | h
          · have hl := hi.keyLive k j h
            refine hlive j hl ?_
            rintro rfl
            exact hkk ((hi.w.slot k j h).2 problem hp)
          · exact h
      · intro v x ho
        rw [howes] at ho
        rcases ho with ho | ⟨_, ho⟩
        · by_cases hx : x = id
          · subst hx; exact Or.inr hid
          · rcases hi.issued v x ho with h | h
            · exact Or.inl (hlive x h hx)
            · exact Or.inr (hdead x h)
        · exact Or.inl (l1 x ho)
      · intro j js hm
        rcases List.mem_cons.mp hm with hm | hm
        · cases hm; exact hid
        · exact hdead j (hi.dead j js hm)
      · intro v js hm
        rw [e1.nextChan]
        rcases List.mem_cons.mp hm with hm | hm
        · cases hm
        · exact hi.chan v js hm
      · intro e he
        obtain ⟨e0, he0, rfl⟩ := List.mem_map.mp he
        rw [(replaceProblem_spec e0 id ids1).1, e1.nextChan]
        exact hi.entryChan e0 he0
      · rw [List.map_map]
        have : (Entry.chan ∘ fun e => (e.replaceProblem id ids1).1) = Entry.chan := by
          funext e; exact (replaceProblem_spec e id ids1).1
        rw [this]; exact hi.entryNodup
      · intro e he x
        obtain ⟨e0, he0, rfl⟩ := List.mem_map.mp he
        rw [(replaceProblem_spec e0 id ids1).1]
        exact hEntryIds e0 he0 x
      · intro e he ho
        obtain ⟨e0, he0, rfl⟩ := List.mem_map.mp he
        obtain ⟨s1', s2', s3', s4'⟩ := replaceProblem_spec e0 id ids1
        obtain ⟨o1, o2⟩ := s4'.mp ho
        obtain ⟨q1, q2⟩ := hi.entryOpen e0 he0 o1
        rw [s1']
        refine ⟨?_, ?_⟩
        · intro hnil
          by_cases hm : id ∈ e0.ids
          · have := s3'.mpr ⟨o1, hm, hnil⟩
            rw [o2] at this; cases this
          · apply q1
            rw [List.eq_nil_iff_forall_not_mem]
            intro x hx
            have hxx := (s2' x).mpr (Or.inl ⟨hx, fun e => hm (e ▸ hx)⟩)
            rw [hnil] at hxx; cases hxx
        · intro o hm
          rcases List.mem_append.mp hm with hm | hm
          · exact q2 o hm
          · obtain ⟨e2, he2, heq⟩ := List.mem_map.mp hm
            obtain ⟨he2, hb⟩ := List.mem_filter.mp he2
            simp only [Prod.mk.injEq] at heq
            have : e2 = e0 := inj_of_nodup_map hi.entryNodup he2 he0 heq.1
            subst this
            rw [o2] at hb; cases hb
      · intro e he ho
        obtain ⟨e0, he0, rfl⟩ := List.mem_map.mp he
        obtain ⟨s1', s2', s3', s4'⟩ := replaceProblem_spec e0 id ids1
        rw [s1']
        cases hb : (e0.replaceProblem id ids1).2 with
        | true =>
          refine ⟨(s3'.mp hb).2.2, List.mem_append_right _ (List.mem_map.mpr ⟨e0, ?_, rfl⟩)⟩
          exact List.mem_filter.mpr ⟨he0, hb⟩
        | false =>
          have hc : e0.isOpen = false := by
            cases ho' : e0.isOpen with
            | true =>
              have := s4'.mpr ⟨ho', hb⟩
              rw [this] at ho; cases ho
            | false => rfl
          obtain ⟨q1, q2⟩ := hi.entryClosed e0 he0 hc
          refine ⟨?_, List.mem_append_left _ q2⟩
          rw [List.eq_nil_iff_forall_not_mem]
          intro x hx
          rw [s2', q1] at hx
          simp at hx
      · intro m hm
        rw [e1.nextChan]
        rcases List.mem_append.mp hm with hm | hm
        · exact hi.sentChan m hm
        · obtain ⟨e2, he2, rfl⟩ := List.mem_map.mp hm
          exact hi.entryChan e2 (List.mem_filter.mp he2).1
      · rw [List.map_append, List.nodup_append]
        refine ⟨hi.sentOnce, ?_, ?_⟩
        · rw [List.map_map]
          have : (Prod.fst ∘ fun (e : Entry) => (e.chan, Outcome.continue_)) = Entry.chan := rfl
          rw [this]
          exact (List.filter_sublist.map _).nodup hi.entryNodup
        · intro a ha b hb hab
          obtain ⟨m, hm, rfl⟩ := List.mem_map.mp ha
          rw [List.map_map] at hb
          obtain ⟨e2, he2, rfl⟩ := List.mem_map.mp hb
          obtain ⟨he2, hbb⟩ := List.mem_filter.mp he2
          have := (hi.entryOpen e2 he2 (hopen e2 he2 hbb)).2 m.2
          simp only [Function.comp] at hab
          apply this
          rw [← hab]; exact hm
      · intro v hv x ho
        rw [howes] at ho
        rcases List.mem_append.mp hv with hv | hv
        · rcases ho with ho | ⟨ho, _⟩
          · exact hdead x (hi.cont v hv x ho)
          · exact absurd (hi.cont v hv id ho) (fun d => not_live_dead ⟨problem, hp⟩ d)
        · obtain ⟨e2, he2, heq⟩ := List.mem_map.mp hv
          obtain ⟨he2, hbb⟩ := List.mem_filter.mp he2
          simp only [Prod.mk.injEq, and_true] at heq
          subst heq
          have hnil := ((replaceProblem_spec e2 id ids1).2.2.1.mp hbb).2.2
          have hiss : Live s1 x ∨ Dead s1 x := by
            rcases ho with ho | ⟨_, ho⟩
            · by_cases hx : x = id
              · subst hx; exact Or.inr hid
              · rcases hi.issued _ x ho with h | h
                · exact Or.inl (hlive x h hx)
                · exact Or.inr (hdead x h)
            · exact Or.inl (l1 x ho)
          rcases hiss with h | h
          · have := (hEntryIds e2 he2 x).mpr ⟨(howes _ _).mpr ho, h⟩
            rw [hnil] at this; cases this
          · exact h
      · intro v hv
        rcases List.mem_append.mp hv with hv | hv
        · exact List.mem_cons_of_mem _ (hi.gaveUp v hv)
        · obtain ⟨e2, _, heq⟩ := List.mem_map.mp hv
          simp at heq
      · rw [e1.aborted, hi.abortedEv, List.mem_cons]
        constructor
        · exact Or.inr
        · rintro (h | h)
          · cases h
          · exact h
      · intro v js hm
        rcases List.mem_cons.mp hm with hm | hm
        · cases hm
        · rcases hi.complete v js hm with ⟨e, he, hc⟩ | ⟨o, ho⟩
          · refine Or.inl ⟨_, List.mem_map.mpr ⟨e, he, rfl⟩, ?_⟩
            rw [(replaceProblem_spec e id ids1).1, hc]
          · exact Or.inr ⟨o, List.mem_append_left _ ho⟩
  · cases h

theorem inv_abort {s : State} {tr : List Ev} (hi : Inv s tr) : Inv (abort s) (Ev.aborted :: tr) := by
  have howes : ∀ v x, Owes (Ev.aborted :: tr) v x ↔ Owes tr v x := by
    intro v x
    constructor
    · intro h
      induction h with
      | reported h1 h2 =>
        rcases List.mem_cons.mp h1 with h1 | h1
        · cases h1
        · exact .reported h1 h2
      | replaced _ h1 h2 ih =>
        rcases List.mem_cons.mp h1 with h1 | h1
        · cases h1
        · exact .replaced ih h1 h2
    · intro h; exact h.mono (fun e he => List.mem_cons_of_mem _ he)
  constructor
  · exact ⟨hi.w.key, hi.w.slot⟩
  · exact hi.keyLive
  · intro v x h; rw [howes] at h; exact hi.issued v x h
  · intro j js hm
    rcases List.mem_cons.mp hm with hm | hm
    · cases hm
    · exact hi.dead j js hm
  · intro v js hm
    rcases List.mem_cons.mp hm with hm | hm
    · cases hm
    · exact hi.chan v js hm
  · intro e he; simp [abort] at he
  · simp [abort]
  · intro e he; simp [abort] at he
  · intro e he; simp [abort] at he
  · intro e he; simp [abort] at he
  · intro m hm
    simp only [abort] at hm ⊢
    rcases List.mem_append.mp hm with hm | hm
    · exact hi.sentChan m hm
    · obtain ⟨e, he, rfl⟩ := List.mem_map.mp hm
      exact hi.entryChan e (List.mem_filter.mp he).1
  · simp only [abort, List.map_append]
    rw [List.nodup_append]
    refine ⟨hi.sentOnce, ?_, ?_⟩
    · rw [List.map_map]
      exact (List.filter_sublist.map _).nodup hi.entryNodup
    · intro a ha b hb hab
      obtain ⟨m, hm, rfl⟩ := List.mem_map.mp ha
      rw [List.map_map] at hb
      obtain ⟨e2, he2, rfl⟩ := List.mem_map.mp hb
      obtain ⟨he2, hbb⟩ := List.mem_filter.mp he2
      simp only [Function.comp] at hab
      apply (hi.entryOpen e2 he2 hbb).2 m.2
      rw [← hab]; exact hm
  · intro v hv x ho
    rw [howes] at ho
    simp only [abort] at hv
    rcases List.mem_append.mp hv with hv | hv
    · exact hi.cont v hv x ho
    · obtain ⟨e, _, heq⟩ := List.mem_map.mp hv
      simp at heq
  · intro v _; exact List.mem_cons_self ..
  · simp [abort]
  · intro v js hm
    rcases List.mem_cons.mp hm with hm | hm
    · cases hm
    · right
      simp only [abort]
      rcases hi.complete v js hm with ⟨e, he, rfl⟩ | ⟨o, ho⟩
      · cases hop : e.isOpen with
        | true =>
          exact ⟨.giveUp, List.mem_append_right _ (List.mem_map.mpr
            ⟨e, List.mem_filter.mpr ⟨he, hop⟩, rfl⟩)⟩
        | false => exact ⟨.continue_, List.mem_append_left _ (hi.entryClosed e he hop).2⟩
      · exact ⟨o, List.mem_append_left _ ho⟩

theorem inv_step {s s' : State} {tr : List Ev} {ev : Ev} (op : Op) (hi : Inv s tr)
    (h : step s op = some (s', ev)) : Inv s' (ev :: tr) := by
  cases op with
  | add ps =>
    obtain ⟨⟨s1, ids⟩, h1, h2⟩ := Option.map_eq_some_iff.mp h
    simp only [Prod.mk.injEq] at h2
    obtain ⟨rfl, rfl⟩ := h2
    exact inv_add hi h1
  | replace id repl =>
    obtain ⟨⟨s1, ids⟩, h1, h2⟩ := Option.map_eq_some_iff.mp h
    simp only [Prod.mk.injEq] at h2
    obtain ⟨rfl, rfl⟩ := h2
    exact inv_replace hi h1
  | abort =>
    simp only [step, Option.some.injEq, Prod.mk.injEq] at h
    obtain ⟨rfl, rfl⟩ := h
    exact inv_abort hi

theorem inv_run {s : State} {tr : List Ev} (h : Run s tr) : Inv s tr := by
  induction h with
  | init => exact inv_init
  | step op _ h ih => exact inv_step op ih h

end Cackle.Store
