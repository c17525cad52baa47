import Verif.Props.ProblemsUiSpec
import Verif.Props.AutoAccept

/-!
# Lemmas about the full-screen user interface
-/

namespace Cackle.Ui
open Cackle Store
open Cackle.NullUi (liveFrom liveFrom_set liveFrom_pairwise resolve_live live_length_le OnlyResolved)

variable {F E C : Type}

/-! ## The store -/

theorem storeLen_eq (s : Store.State) : storeLen s = (live s).length := by
  have : ∀ (ps : List (Option Problem)) (n : Nat),
      (ps.filter Option.isSome).length = (liveFrom ps n).length := by
    intro ps
    induction ps with
    | nil => intro n; simp [liveFrom]
    | cons x xs ih =>
      intro n
      cases x with
      | none => simpa [liveFrom] using ih (n + 1)
      | some p => simpa [liveFrom] using ih (n + 1)
  exact this s.problems 0

theorem resolveList_spec {ids : List Nat} :
    ∀ {s : Store.State} {tr : List Ev}, Run s tr → ids.Nodup → (∀ id ∈ ids, ∃ p, (id, p) ∈ live s) →
    ∃ s' tr', resolveList s ids = some s' ∧ Run s' tr' ∧ OnlyResolved tr tr' ∧
      live s' = (live s).filter (fun x => decide (x.1 ∉ ids)) ∧ s'.aborted = s.aborted ∧
      s'.events = s.events ∧ (∀ id ∈ ids, Dead s' id) ∧ (∀ id, Dead s id → Dead s' id) := by
  induction ids with
  | nil =>
    intro s tr h _ _
    exact ⟨s, tr, rfl, h, .refl tr, (List.filter_eq_self.mpr (by simp)).symm, rfl, rfl, by simp, fun _ h => h⟩
  | cons id ids ih =>
    intro s tr h hn hl
    rw [List.nodup_cons] at hn
    obtain ⟨p, hp⟩ := hl id (by simp)
    obtain ⟨s', r, h1, h2, _, h4, h5⟩ := resolve_live hp
    have hlive : live s' = (live s).filter (fun x => decide (x.1 ≠ id)) := by
      have := liveFrom_set s.problems id 0
      simp only [Nat.add_zero] at this
      show liveFrom s'.problems 0 = _
      rw [h5, this]
      rfl
    have hstep := Run.step _ h h1
    have hC11 := C11_ids_stable _ _ _ h _ _ h1
    obtain ⟨s2, tr2, g1, g2, g3, g4, g5, g6, g7, g8⟩ := ih hstep hn.2 (by
      intro j hj
      obtain ⟨q, hq⟩ := hl j (by simp [hj])
      refine ⟨q, ?_⟩
      rw [hlive, List.mem_filter]
      refine ⟨hq, ?_⟩
      have : j ≠ id := by rintro rfl; exact hn.1 hj
      simpa using this)
    have hev : s'.events = s.events := by
      have hp' := mem_live.mp hp
      simp only [resolve, replace, hp', addProblems, Option.some.injEq, Prod.mk.injEq] at h2
      obtain ⟨rfl, _⟩ := h2
      rfl
    refine ⟨s2, tr2, by simp only [resolveList, h2, g1], g2, g3.cons, ?_, g5.trans h4, g6.trans hev, ?_,
      fun j hj => g8 j (hC11.2.1 j hj)⟩
    · rw [g4, hlive, List.filter_filter]
      apply List.filter_congr
      intro x _
      by_cases hx : x.1 = id <;> simp [hx]
    · intro j hj
      rcases List.mem_cons.mp hj with rfl | hj
      · exact g8 _ (hC11.2.2 _ _ rfl)
      · exact g7 j hj

variable [DecidableEq F]

theorem emptyIds_nodup (env : Env F E C) (c : C) (e : E) (s : Store.State) : (emptyIds env c e s).reverse.Nodup := by
  have h := (liveFrom_pairwise s.problems 0).filter
    (fun x => (env.fixes c x.2).any (fun ed => ed.isEmpty env e))
  have h2 : (emptyIds env c e s).Nodup := by
    unfold emptyIds
    rw [List.Nodup, List.pairwise_map]
    exact h.imp (fun hab => Nat.ne_of_lt hab)
  exact List.pairwise_reverse.mpr (h2.imp (fun hab => fun h => hab h.symm))

theorem settled_iff (env : Env F E C) (c : C) (e : E) (p : Problem) :
    (env.fixes c p).any (fun ed => ed.isEmpty env e) = true ↔ Settled env c e p := by
  simp only [List.any_eq_true, EditM.isEmpty, Bool.and_eq_true, decide_eq_true_eq, Settled, and_assoc]

theorem mem_emptyIds (env : Env F E C) (c : C) (e : E) (s : Store.State) (id : Nat) :
    id ∈ emptyIds env c e s ↔ ∃ p, (id, p) ∈ live s ∧ Settled env c e p := by
  simp only [emptyIds, List.mem_map, List.mem_filter, settled_iff]
  constructor
  · rintro ⟨⟨i, p⟩, h, rfl⟩
    exact ⟨p, h⟩
  · rintro ⟨p, h⟩
    exact ⟨(id, p), h, rfl⟩

theorem resolveEmpty_spec (env : Env F E C) (c : C) (e : E) {s : Store.State} {tr : List Ev} (h : Run s tr) :
    ∃ s' tr', resolveEmpty env c e s = some s' ∧ Run s' tr' ∧ OnlyResolved tr tr' ∧
      (∀ id p, (id, p) ∈ live s' ↔ (id, p) ∈ live s ∧ ¬ Settled env c e p) ∧
      s'.aborted = s.aborted ∧ s'.events = s.events ∧
      (∀ id p, (id, p) ∈ live s → Settled env c e p → Dead s' id) ∧ (∀ id, Dead s id → Dead s' id) := by
  obtain ⟨s', tr', h1, h2, h3, h4, h5, h6, h7, h8⟩ := resolveList_spec (ids := (emptyIds env c e s).reverse) h
    (emptyIds_nodup env c e s) (by
      intro id hid
      rw [List.mem_reverse, mem_emptyIds] at hid
      obtain ⟨p, hp, _⟩ := hid
      exact ⟨p, hp⟩)
  refine ⟨s', tr', h1, h2, h3, ?_, h5, h6, ?_, h8⟩
  · intro id p
    rw [h4, List.mem_filter]
    simp only [List.mem_reverse, mem_emptyIds, decide_eq_true_eq]
    constructor
    · rintro ⟨a, b⟩
      exact ⟨a, fun hs => b ⟨p, a, hs⟩⟩
    · rintro ⟨a, b⟩
      refine ⟨a, ?_⟩
      rintro ⟨q, hq, hs⟩
      rw [mem_live] at a hq
      rw [a] at hq
      simp only [Option.some.injEq] at hq
      subst hq
      exact b hs
  · intro id p hp hs
    apply h7
    rw [List.mem_reverse, mem_emptyIds]
    exact ⟨p, hp, hs⟩

/-! ## Auto-accept -/

/-- The same as parameters of `Model/NullUi.lean`. -/
def asEdits (env : Env F E C) (c : C) : NullUi.Edits Unit E :=
  { first := fun p => (single env c p).map EditM.run, open_ := fun _ => none, write := fun _ _ => none }

theorem firstSingle_eq (env : Env F E C) (c : C) (s : Store.State) :
    NullUi.firstEdit (asEdits env c) s = (firstSingle env c s).map (fun x => (x.1, x.2.run)) := by
  unfold NullUi.firstEdit firstSingle
  induction live s with
  | nil => rfl
  | cons x xs ih =>
    rw [List.findSome?_cons, List.findSome?_cons]
    have : (asEdits env c).first x.2 = (single env c x.2).map EditM.run := rfl
    rw [this]
    unfold single
    rcases env.fixes c x.2 with _ | ⟨a, _ | ⟨b, l⟩⟩
    · simp [ih]
    · simp
    · simp [ih]

theorem acceptLoop_eq (env : Env F E C) (c : C) (n : Nat) (s : Store.State) (e : E) (k : Nat) :
    acceptLoop env c n s e =
      (NullUi.acceptLoop (asEdits env c) n s e k).map (fun r => (r.1, r.2.map Prod.fst)) := by
  induction n generalizing s e k with
  | zero => rfl
  | succ n ih =>
    unfold acceptLoop NullUi.acceptLoop
    rw [firstSingle_eq]
    cases hf : firstSingle env c s with
    | none => rfl
    | some r =>
      obtain ⟨id, ed⟩ := r
      simp only [Option.map_some]
      cases ha : (ed.apply none e).2 with
      | false => simp [EditM.run, ha]
      | true =>
        simp only [EditM.run, ha, if_true]
        cases hr : resolve s id with
        | none => rfl
        | some r => simp only; exact ih _ _ _

theorem applyFirst_eq (env : Env F E C) (c : C) (s : Store.State) (e : E) :
    NullUi.applyFirst (asEdits env c) (NullUi.fixable (asEdits env c) s) e = runAll (singles env c s) e := by
  unfold NullUi.fixable singles
  induction live s generalizing e with
  | nil => rfl
  | cons x xs ih =>
    simp only [List.map_cons, List.filter_cons, List.filterMap_cons]
    have : (asEdits env c).first x.2 = (single env c x.2).map EditM.run := rfl
    cases hs : single env c x.2 with
    | none => simp only [this, hs, Option.map_none, Option.isSome_none, Bool.false_eq_true, if_false, ih]
    | some ed =>
      simp only [this, hs, Option.map_some, Option.isSome_some, if_true, NullUi.applyFirst, runAll, Option.bind_some]
      congr 1
      funext e'
      exact ih e'

theorem acceptLoop_spec (env : Env F E C) (c : C) {s : Store.State} {tr : List Ev} (h : Run s tr) (e : E) :
    ∃ s' tr', acceptLoop env c (s.problems.length + 1) s e = some (s', runAll (singles env c s) e) ∧
      Run s' tr' ∧ OnlyResolved tr tr' ∧ s'.aborted = s.aborted ∧
      ((runAll (singles env c s) e).isSome → live s' = (live s).filter (fun x => (single env c x.2).isNone)) := by
  obtain ⟨s', tr', h1, h2, h3, h4, h5⟩ := NullUi.acceptLoop_exact (asEdits env c) (n := s.problems.length + 1) h
    (by have := live_length_le s; omega) e 0
  rw [applyFirst_eq] at h1 h5
  refine ⟨s', tr', ?_, h2, h3, h4, ?_⟩
  · rw [acceptLoop_eq env c _ s e 0, h1]
    cases runAll (singles env c s) e <;> rfl
  · intro hs
    rw [h5 hs]
    apply List.filter_congr
    intro x _
    show ((single env c x.2).map EditM.run).isNone = _
    cases single env c x.2 <;> rfl

/-! ## The stack of modes -/

/-- The list of problems is at the bottom of the stack, unless the user has quit. -/
def Bottom (ms : List Mode) : Prop := ms = [] ∨ ms.getLast? = some .selectProblem

theorem Bottom.push {m : Mode} {ms : List Mode} (h : Bottom ms) (hne : ms ≠ []) : Bottom (m :: ms) := by
  rcases h with rfl | h
  · exact absurd rfl hne
  · right
    cases ms with
    | nil => simp at h
    | cons a l => simpa [List.getLast?_cons_cons] using h

theorem Bottom.pop {m : Mode} {ms : List Mode} (h : Bottom (m :: ms)) (hm : m ≠ .selectProblem ∨ ms ≠ []) :
    Bottom ms ∧ ms ≠ [] := by
  rcases h with h | h
  · cases h
  · cases ms with
    | nil =>
      simp only [List.getLast?_singleton, Option.some.injEq] at h
      simp [h] at hm
    | cons a l =>
      rw [List.getLast?_cons_cons] at h
      exact ⟨Or.inr h, by simp⟩

theorem dropToProblems_some {ms : List Mode} (h : ms.getLast? = some .selectProblem) :
    ∃ l, dropToProblems ms = some (.selectProblem :: l) ∧ Bottom (.selectProblem :: l) := by
  induction ms with
  | nil => simp at h
  | cons a l ih =>
    by_cases ha : a = .selectProblem
    · subst ha
      exact ⟨l, rfl, Or.inr h⟩
    · have hd : dropToProblems (a :: l) = dropToProblems l := by
        cases a <;> first | rfl | exact absurd rfl ha
      rw [hd]
      have hb := Bottom.pop (Or.inr h) (Or.inl ha)
      rcases hb.1 with h1 | h1
      · exact absurd h1 hb.2
      · exact ih h1

theorem updateCounter_lt {c len i : Nat} {k : Key} (h : updateCounter c k len = some i) : i < len := by
  unfold updateCounter at h
  split at h
  · cases h
  · rename_i hl
    have hl : 0 < len := by omega
    cases k <;> simp only [Option.some.injEq, reduceCtorEq] at h <;> subst h <;> exact Nat.mod_lt _ hl

theorem updateCounter_none {c len : Nat} {k : Key} (hk : k = .up ∨ k = .down) :
    updateCounter c k len = none ↔ len = 0 := by
  unfold updateCounter
  rcases hk with rfl | rfl <;> by_cases h : len = 0 <;> simp [h]

/-! ## One key -/

/-- What other keys leave alone. -/
structure Quiet (s s' : State F C) : Prop where
  file : s'.file = s.file
  store : s'.store = s.store
  config : s'.config = s.config
  accept : s'.acceptSingle = s.acceptSingle
  bottom : Bottom s'.modes
  index : s'.problemIndex = s.problemIndex ∨ s'.problemIndex < (live s.store).length
  comment : s'.comment = s.comment ∨ ∃ input, s.modes.head? = some (.setComment input)

theorem Quiet.mk_modes {s : State F C} {ms : List Mode} (h : Bottom ms) : Quiet s { s with modes := ms } :=
  ⟨rfl, rfl, rfl, rfl, h, Or.inl rfl, Or.inl rfl⟩

theorem commentKey_quiet (env : Env F E C) {s : State F C} {input : Str} {ms : List Mode}
    (hm : s.modes = .setComment input :: ms) (hb : Bottom s.modes) (k : Key) :
    Quiet s (commentKey env s input k) := by
  have hb' := hb
  rw [hm] at hb'
  have hp := Bottom.pop hb' (Or.inl (by simp))
  have ht : s.modes.tail = ms := by rw [hm]; rfl
  have hhead : s.modes.head? = some (.setComment input) := by rw [hm]; rfl
  unfold commentKey
  cases k <;> simp only [ht]
  · exact Quiet.mk_modes (Bottom.push hp.1 hp.2)
  · exact Quiet.mk_modes (Bottom.push hp.1 hp.2)
  · exact Quiet.mk_modes hp.1
  · unfold setComment
    simp only [ht]
    split
    · exact ⟨rfl, rfl, rfl, rfl, hp.1, Or.inl rfl, Or.inr ⟨_, hhead⟩⟩
    · split <;> exact ⟨rfl, rfl, rfl, rfl, hp.1, Or.inl rfl, Or.inr ⟨_, hhead⟩⟩
  · exact Quiet.mk_modes (Bottom.push hp.1 hp.2)
  · exact Quiet.mk_modes (Bottom.push hp.1 hp.2)

theorem generalKey_quiet {s : State F C} {m : Mode} {ms : List Mode} (hm : s.modes = m :: ms)
    (hb : Bottom s.modes) (k : Key) : Quiet s (generalKey s m k) := by
  have ht : s.modes.tail = ms := by rw [hm]; rfl
  have hne : s.modes ≠ [] := by rw [hm]; simp
  unfold generalKey
  split
  · exact ⟨rfl, rfl, rfl, rfl, hb, Or.inl rfl, Or.inl rfl⟩
  · split
    · split
      · rename_i h
        rw [ht]
        have hb' := hb
        rw [hm] at hb'
        exact Quiet.mk_modes (Bottom.pop hb' (Or.inl (by rw [h]; simp))).1
      · exact Quiet.mk_modes (Bottom.push hb hne)
    · split
      · split
        · rename_i hl
          rw [ht]
          have hb' := hb
          rw [hm] at hb' hl
          refine Quiet.mk_modes (Bottom.pop hb' (Or.inr ?_)).1
          cases ms <;> simp at hl ⊢
        · exact ⟨rfl, rfl, rfl, rfl, hb, Or.inl rfl, Or.inl rfl⟩
      · exact ⟨rfl, rfl, rfl, rfl, hb, Or.inl rfl, Or.inl rfl⟩

theorem handleKey_quiet (env : Env F E C) (w : Bool) {s : State F C} {k : Key} (hb : Bottom s.modes)
    (hw : ¬ Writes s k) {r : State F C × Bool} (h : handleKey env w s k = some r) : Quiet s r.1 := by
  have hself : Quiet s s := ⟨rfl, rfl, rfl, rfl, hb, Or.inl rfl, Or.inl rfl⟩
  unfold handleKey at h
  split at h
  · simp only [ok, Option.some.injEq] at h
    subst h
    exact hself
  · rename_i m ms hm
    have hb' := hb
    rw [hm] at hb'
    have ht : s.modes.tail = ms := by rw [hm]; rfl
    have hne : s.modes ≠ [] := by rw [hm]; simp
    have hpop : m ≠ .selectProblem → Bottom ms ∧ ms ≠ [] := fun h => Bottom.pop hb' (Or.inl h)
    have hdet : ∀ r, detailsKey s = some r → Quiet s r.1 := by
      intro r hr
      unfold detailsKey at hr
      split at hr
      · cases hr; exact hself
      · rcases hb with h0 | h0
        · exact absurd h0 hne
        · obtain ⟨l, h1, h2⟩ := dropToProblems_some h0
          rw [h1] at hr
          cases hr
          exact ⟨rfl, rfl, rfl, rfl, Bottom.push h2 (by simp), Or.inl rfl, Or.inl rfl⟩
    split at h
    · simp only [ok, Option.some.injEq] at h
      subst h
      exact commentKey_quiet env hm hb k
    · split at h
      · cases h
        exact Quiet.mk_modes (Or.inl rfl)
      · split at h
        all_goals first
          | exact hdet _ h
          | (simp only [Option.map_eq_some_iff] at h
             obtain ⟨i, hi, rfl⟩ := h
             first
               | exact ⟨rfl, rfl, rfl, rfl, hb, Or.inr (storeLen_eq s.store ▸ updateCounter_lt hi), Or.inl rfl⟩
               | exact ⟨rfl, rfl, rfl, rfl, hb, Or.inl rfl, Or.inl rfl⟩)
          | (simp only [ok, Option.some.injEq, ht] at h
             subst h
             first
               | exact Quiet.mk_modes (hpop (by simp)).1
               | exact Quiet.mk_modes (Bottom.push hb hne)
               | exact ⟨rfl, rfl, rfl, rfl, Bottom.push (hpop (by simp)).1 (hpop (by simp)).2, Or.inl rfl, Or.inl rfl⟩
               | exact generalKey_quiet hm hb k)
          | (split at h
             · cases h
               first
                 | exact hself
                 | exact Quiet.mk_modes (Bottom.push hb hne)
             · cases h
               first
                 | exact hself
                 | exact Quiet.mk_modes (Bottom.push hb hne)
                 | exact ⟨rfl, rfl, rfl, rfl, Bottom.push hb hne, Or.inl rfl, Or.inl rfl⟩)
          | exact absurd (Or.inl ⟨by rw [hm]; rfl, by simp⟩) hw
          | exact absurd (Or.inr ⟨by rw [hm]; rfl, rfl⟩) hw
          | (simp only [Option.some.injEq] at h
             subst h
             unfold backtraceKey
             split
             · exact ⟨rfl, rfl, rfl, rfl, hb, Or.inl rfl, Or.inl rfl⟩
             · split
               · exact ⟨rfl, rfl, rfl, rfl, hb, Or.inl rfl, Or.inl rfl⟩
               · exact ⟨rfl, rfl, rfl, rfl, Bottom.push hb hne, Or.inl rfl, Or.inl rfl⟩)

theorem handleKey_stays (env : Env F E C) (w : Bool) {s : State F C} {k : Key} (hb : Bottom s.modes) (hne : s.modes ≠ [])
    (hw : ¬ Writes s k) (hq : k ≠ .char 'q' ∨ ∃ input, s.modes.head? = some (.setComment input))
    {r : State F C × Bool} (h : handleKey env w s k = some r) : r.1.modes ≠ [] := by
  unfold handleKey at h
  split at h
  · rename_i hm; exact absurd hm hne
  · rename_i m ms hm
    have hb' := hb
    rw [hm] at hb'
    have ht : s.modes.tail = ms := by rw [hm]; rfl
    have hpop : m ≠ .selectProblem → Bottom ms ∧ ms ≠ [] := fun h => Bottom.pop hb' (Or.inl h)
    have hdet : ∀ r, detailsKey s = some r → r.1.modes ≠ [] := by
      intro r hr
      unfold detailsKey at hr
      split at hr
      · cases hr; exact hne
      · obtain ⟨l, _, rfl⟩ := Option.map_eq_some_iff.mp hr
        simp
    split at h
    · simp only [ok, Option.some.injEq] at h
      subst h
      have hp := (hpop (by simp)).2
      unfold commentKey
      cases k <;> simp only [ht, ne_eq, reduceCtorEq, not_false_eq_true, setComment]
      · exact hp
      · split
        · exact hp
        · split <;> exact hp
    · rename_i hcm
      split at h
      · rename_i hk
        rcases hq with h1 | ⟨input, h1⟩
        · exact absurd hk h1
        · rw [hm] at h1
          simp only [List.head?_cons, Option.some.injEq] at h1
          exact absurd h1 (hcm input)
      · split at h
        all_goals first
          | exact hdet _ h
          | (simp only [Option.map_eq_some_iff] at h
             obtain ⟨i, hi, rfl⟩ := h
             exact hne)
          | (simp only [ok, Option.some.injEq, ht] at h
             subst h
             first
               | exact (hpop (by simp)).2
               | (simp [enterEdit]; done)
               | (unfold generalKey
                  split
                  · exact hne
                  · split
                    · split
                      · rename_i h
                        show s.modes.tail ≠ []
                        rw [ht]
                        exact (hpop (by rw [h]; simp)).2
                      · simp
                    · split
                      · split
                        · rename_i hl
                          show s.modes.tail ≠ []
                          rw [ht]
                          rw [hm] at hl
                          cases ms <;> simp at hl ⊢
                        · exact hne
                      · exact hne))
          | (split at h
             · cases h
               first
                 | exact hne
                 | (simp; done)
             · cases h
               first
                 | exact hne
                 | (simp [enterEdit]; done))
          | exact absurd (Or.inl ⟨by rw [hm]; rfl, by simp⟩) hw
          | exact absurd (Or.inr ⟨by rw [hm]; rfl, rfl⟩) hw
          | (simp only [Option.some.injEq] at h
             subst h
             unfold backtraceKey
             split
             · exact hne
             · split
               · exact hne
               · simp)

/-! ## Accepting the highlighted edit -/

theorem replace_visible {s s1 : Store.State} {tr : List Ev} (h : Run s tr) {id : Nat} {p : Problem}
    {repl : List Problem} {ids : List Nat} (hp : (id, p) ∈ live s) (hr : replace s id repl = some (s1, ids)) :
    (∀ r ∈ repl, ∃ j q, (j, q) ∈ live s1 ∧ Grown r q) ∧
    (∀ j q, (j, q) ∈ live s1 → (j ≠ id ∧ ∃ p0, (j, p0) ∈ live s ∧ Grown p0 q) ∨ ∃ r ∈ repl, r.Same q) ∧
    s1.aborted = s.aborted ∧ s1.events = s.events := by
  have hi := inv_run h
  have hp' := mem_live.mp hp
  unfold replace at hr
  simp only [hp'] at hr
  split at hr
  · cases hr
  · rename_i s2 ids2 h3
    simp only [Option.some.injEq, Prod.mk.injEq] at hr
    obtain ⟨rfl, rfl⟩ := hr
    have hlt : id < s.problems.length := (List.getElem?_eq_some_iff.mp hp').1
    obtain ⟨w1, e1, g1, _⟩ := addProblems_spec (W_take hi.w id) h3
    refine ⟨?_, ?_, e1.aborted, e1.events⟩
    · intro r hr
      obtain ⟨j, _, q, hq, hg⟩ := g1 r hr
      exact ⟨j, q, mem_live.mpr hq, hg⟩
    · intro j q hq
      have hq' : s2.problems[j]? = some (some q) := mem_live.mp hq
      by_cases hlt : j < s.problems.length
      · have hlt' : j < (s.problems.set id none).length := by simpa using hlt
        cases ho : (s.problems.set id none)[j]'hlt' with
        | none =>
          have hd : Dead { s with problems := s.problems.set id none } j := by
            show (s.problems.set id none)[j]? = _
            rw [List.getElem?_eq_getElem hlt', ho]
          exact absurd (e1.dead j hd) (fun d => not_live_dead ⟨q, hq'⟩ d)
        | some p0 =>
          have h0 : (s.problems.set id none)[j]? = some (some p0) := by
            rw [List.getElem?_eq_getElem hlt', ho]
          obtain ⟨q', hq'', hg⟩ := e1.live j p0 h0
          rw [hq'] at hq''
          simp only [Option.some.injEq] at hq''
          subst hq''
          rw [List.getElem?_set] at h0
          left
          by_cases hji : id = j
          · simp [hji, hlt] at h0
          · simp only [hji, if_false] at h0
            exact ⟨fun h => hji h.symm, p0, mem_live.mpr h0, hg⟩
      · right
        obtain ⟨r, hr, hk⟩ := addProblems_new (W_take hi.w id) h3 j q (by simpa using hlt) hq'
        exact ⟨r, hr, (Problem.same_iff r q).mpr hk.symm⟩

theorem accept_store (env : Env F E C) (hs : env.Sane) (c : C) (e : E) {s : Store.State} {tr : List Ev} (h : Run s tr)
    {id : Nat} {p : Problem} (hp : (id, p) ∈ live s) {ed : EditM E} (hed : ed ∈ env.fixes c p) :
    ∃ s1 ids s2 tr2, replace s id ed.repl = some (s1, ids) ∧ resolveEmpty env c e s1 = some s2 ∧ Run s2 tr2 ∧
      Accepted env c e id ed.repl s s2 := by
  have h1 := (C12_no_panic_partial s tr h).2.1 id p ed.repl hp (hs c p ed hed)
  obtain ⟨⟨s1, ev⟩, h2⟩ := Option.isSome_iff_exists.mp h1
  have hrun := Run.step _ h h2
  have hC11 := C11_ids_stable _ _ _ h _ _ h2
  obtain ⟨⟨s1', ids⟩, h3, h4⟩ := Option.map_eq_some_iff.mp h2
  simp only [Prod.mk.injEq] at h4
  obtain ⟨rfl, rfl⟩ := h4
  obtain ⟨v1, v2, v3, v4⟩ := replace_visible h hp h3
  obtain ⟨s2, tr2, g1, g2, g3, g4, g5, g6, g7, g8⟩ := resolveEmpty_spec env c e hrun
  refine ⟨_, ids, s2, tr2, h3, g1, g2, ?_, ?_, ?_, ?_, g5.trans v3, g6.trans v4⟩
  · exact g8 id (hC11.2.2 id _ rfl)
  · intro j q hq hj
    obtain ⟨q', hq', hg⟩ := hC11.1 j q hq (by
      intro r hr
      cases hr
      exact hj rfl)
    exact ⟨q', hg, fun hset => g7 j q' hq' hset, fun hset => (g4 j q').mpr ⟨hq', hset⟩⟩
  · intro r hr
    obtain ⟨j, q, hq, hg⟩ := v1 r hr
    exact ⟨j, q, hg, fun hset => g7 j q hq hset, fun hset => (g4 j q).mpr ⟨hq, hset⟩⟩
  · intro j q hq
    exact v2 j q ((g4 j q).mp hq).1

/-- All results of `applySelected`. -/
theorem applySelected_cases (env : Env F E C) (hs : env.Sane) (w : Bool) (s : State F C) {tr : List Ev}
    (h : Run s.store tr) :
    (applySelected env w s = some (s, false) ∧ (s.edits env)[s.editIndex]? = none) ∨
    (∃ ed, (s.edits env)[s.editIndex]? = some ed ∧ applySelected env w s = some (s, true) ∧
      (w = false ∨ ∀ e, openFile env s.file = some e → (ed.apply s.comment e).2 = false)) ∨
    ∃ id p ed e st tr', s.selected = some (id, p) ∧ (s.edits env)[s.editIndex]? = some ed ∧
      openFile env s.file = some e ∧ (ed.apply s.comment e).2 = true ∧ w = true ∧
      applySelected env w s =
        some ({ s with file := some (env.print (ed.apply s.comment e).1), store := st }, false) ∧
      Run st tr' ∧ Accepted env s.config (ed.apply s.comment e).1 id ed.repl s.store st := by
  unfold applySelected
  cases hed : (s.edits env)[s.editIndex]? with
  | none => exact Or.inl ⟨rfl, rfl⟩
  | some ed =>
    right
    cases ho : openFile env s.file with
    | none => exact Or.inl ⟨ed, rfl, rfl, Or.inr (by simp)⟩
    | some e =>
      simp only
      cases ha : (ed.apply s.comment e).2 with
      | false => exact Or.inl ⟨ed, rfl, by simp, Or.inr (by simp [ha])⟩
      | true =>
        cases w with
        | false => exact Or.inl ⟨ed, rfl, by simp, Or.inl rfl⟩
        | true =>
          right
          cases hsel : s.selected with
          | none =>
            unfold State.edits at hed
            rw [hsel] at hed
            simp at hed
          | some x =>
            obtain ⟨id, p⟩ := x
            have hmem : ed ∈ env.fixes s.config p := by
              have := List.mem_of_getElem? hed
              unfold State.edits at this
              rwa [hsel] at this
            have hp : (id, p) ∈ live s.store := List.mem_of_getElem? hsel
            obtain ⟨s1, ids, s2, tr2, h1, h2, h3, h4⟩ :=
              accept_store env hs s.config (ed.apply s.comment e).1 h hp hmem
            exact ⟨id, p, ed, e, s2, tr2, rfl, rfl, rfl, ha, rfl, by simp [h1, h2], h3, h4⟩

/-- All results of `acceptAll`. -/
theorem acceptAll_cases (env : Env F E C) (w : Bool) (s : State F C) {tr : List Ev} (h : Run s.store tr) :
    (openFile env s.file = none ∧ acceptAll env w s = some (s, true)) ∨
    ∃ e st tr', openFile env s.file = some e ∧ Run st tr' ∧ OnlyResolved tr tr' ∧ st.aborted = s.store.aborted ∧
      ((∃ e', runAll (singles env s.config s.store) e = some e' ∧ w = true ∧
        live st = (live s.store).filter (fun x => (single env s.config x.2).isNone) ∧
        acceptAll env w s = some ({ s with store := st, file := some (env.print e') }, false)) ∨
       ((runAll (singles env s.config s.store) e = none ∨ w = false) ∧
        acceptAll env w s = some ({ s with store := st }, true))) := by
  unfold acceptAll
  cases ho : openFile env s.file with
  | none => exact Or.inl ⟨rfl, rfl⟩
  | some e =>
    right
    obtain ⟨st, tr', h1, h2, h3, h4, h5⟩ := acceptLoop_spec env s.config h e
    refine ⟨e, st, tr', rfl, h2, h3, h4, ?_⟩
    simp only [h1]
    cases hr : runAll (singles env s.config s.store) e with
    | none => exact Or.inr ⟨Or.inl rfl, rfl⟩
    | some e' =>
      rw [hr] at h5
      cases w with
      | false => exact Or.inr ⟨Or.inr rfl, rfl⟩
      | true => exact Or.inl ⟨e', rfl, rfl, h5 rfl, rfl⟩

theorem head_cons {α : Type} {l : List α} {a : α} (h : l.head? = some a) : ∃ t, l = a :: t := by
  cases l with
  | nil => cases h
  | cons x t => simp only [List.head?_cons, Option.some.injEq] at h; exact ⟨t, by rw [h]⟩

theorem handleKey_accept (env : Env F E C) (w : Bool) {s : State F C} {k : Key}
    (hm : s.modes.head? = some .selectEdit) (hk : k = .char ' ' ∨ k = .char 'f' ∨ k = .enter) :
    handleKey env w s k = acceptKey env w s := by
  obtain ⟨t, ht⟩ := head_cons hm
  unfold handleKey
  rcases hk with rfl | rfl | rfl <;> split
  all_goals first
    | (rename_i h0; rw [ht] at h0; cases h0)
    | skip
  all_goals rfl

theorem handleKey_confirm (env : Env F E C) (w : Bool) {s : State F C}
    (hm : s.modes.head? = some .promptAutoAccept) : handleKey env w s .enter = confirmKey env w s := by
  obtain ⟨t, ht⟩ := head_cons hm
  unfold handleKey
  split
  all_goals first
    | (rename_i h0; rw [ht] at h0; cases h0)
    | skip
  all_goals rfl

/-- All results of confirming auto-accept. -/
theorem confirmKey_some (env : Env F E C) (w : Bool) (s : State F C) {tr : List Ev} (h : Run s.store tr) :
    ∃ r, confirmKey env w s = some r := by
  unfold confirmKey
  rcases acceptAll_cases env w { s with acceptSingle := true } h with ⟨_, h1⟩ | ⟨e, st, tr', _, _, _, _, h2⟩
  · rw [h1]; exact ⟨_, rfl⟩
  · rcases h2 with ⟨e', _, _, _, h3⟩ | ⟨_, h3⟩
    · rw [h3]; exact ⟨_, rfl⟩
    · rw [h3]; exact ⟨_, rfl⟩

theorem acceptKey_some (env : Env F E C) (hs : env.Sane) (w : Bool) (s : State F C) {tr : List Ev} (h : Run s.store tr) :
    ∃ r, acceptKey env w s = some r := by
  unfold acceptKey
  rcases applySelected_cases env hs w s h with ⟨h1, _⟩ | ⟨_, _, h1, _⟩ | ⟨id, p, ed, e, st, tr', _, _, _, _, _, h1, _⟩
  · rw [h1]; exact ⟨_, rfl⟩
  · rw [h1]; exact ⟨_, rfl⟩
  · rw [h1]; exact ⟨_, rfl⟩

theorem edits_length (env : Env F E C) (s : State F C) (hm : s.modes.head? = some .selectEdit) :
    listLength env s = some (s.edits env).length := by
  unfold listLength State.edits State.selected
  rw [hm]
  cases (live s.store)[s.problemIndex]? <;> rfl

theorem usages_length (env : Env F E C) (s : State F C) (hm : s.modes.head? = some .selectUsage) :
    listLength env s = some s.usages := by
  unfold listLength State.usages State.selected
  rw [hm]
  cases (live s.store)[s.problemIndex]? <;> rfl

theorem handleKey_none (env : Env F E C) (hs : env.Sane) (w : Bool) {s : State F C} {k : Key} {tr : List Ev}
    (h : Run s.store tr) (hb : Bottom s.modes) :
    handleKey env w s k = none ↔ (k = .up ∨ k = .down) ∧ listLength env s = some 0 := by
  by_cases hwr : Writes s k
  · have hk : ¬ (k = .up ∨ k = .down) := by
      rcases hwr with ⟨_, rfl | rfl | rfl⟩ | ⟨_, rfl⟩ <;> simp
    have : ∃ r, handleKey env w s k = some r := by
      rcases hwr with ⟨h1, h2⟩ | ⟨h1, rfl⟩
      · rw [handleKey_accept env w h1 h2]; exact acceptKey_some env hs w s h
      · rw [handleKey_confirm env w h1]; exact confirmKey_some env w s h
    obtain ⟨r, hr⟩ := this
    rw [hr]
    simp [hk]
  · unfold handleKey
    split
    · rename_i hm
      have : listLength env s = none := by unfold listLength; rw [hm]; rfl
      rw [this]
      simp [ok]
    · rename_i m ms hm
      have hhead : s.modes.head? = some m := by rw [hm]; rfl
      have hdet : detailsKey s ≠ none := by
        unfold detailsKey
        split
        · simp
        · rcases hb with h0 | h0
          · rw [hm] at h0; cases h0
          · obtain ⟨l, h1, h2⟩ := dropToProblems_some h0
            simp [h1]
      split
      · rename_i input
        have : listLength env s = none := by unfold listLength; rw [hhead]
        rw [this]
        simp [ok]
      · split
        · rename_i hq
          subst hq
          simp [ok]
        · split
          · rw [Option.map_eq_none_iff, updateCounter_none (Or.inl rfl), storeLen_eq]
            unfold listLength; rw [hhead]; simp
          · rw [Option.map_eq_none_iff, updateCounter_none (Or.inr rfl), storeLen_eq]
            unfold listLength; rw [hhead]; simp
          · rw [Option.map_eq_none_iff, updateCounter_none (Or.inl rfl), edits_length env s hhead]; simp
          · rw [Option.map_eq_none_iff, updateCounter_none (Or.inr rfl), edits_length env s hhead]; simp
          · rw [Option.map_eq_none_iff, updateCounter_none (Or.inl rfl), usages_length env s hhead]; simp
          · rw [Option.map_eq_none_iff, updateCounter_none (Or.inr rfl), usages_length env s hhead]; simp
          · rw [Option.map_eq_none_iff, updateCounter_none (Or.inl rfl)]
            unfold listLength; rw [hhead]; simp
          · rw [Option.map_eq_none_iff, updateCounter_none (Or.inr rfl)]
            unfold listLength; rw [hhead]; simp
          all_goals first
            | (split <;> simp [ok]; done)
            | (simp [ok]; done)
            | (simp [hdet]; done)
            | (exfalso; apply hwr; left; refine ⟨hhead, ?_⟩; simp; done)
            | (exfalso; apply hwr; right; refine ⟨hhead, ?_⟩; rfl; done)
            | (have : listLength env s = none := by unfold listLength; rw [hhead]
               rw [this]
               simp [ok]
               done)
            | skip
          rename_i h1 h2 h3 h4 h5 h6 h7 h8 _ _ _ _ _ _ _ _ _ _ _ _ _ _ _ _ _ _
          simp only [ok, reduceCtorEq, false_iff, not_and]
          rintro hk hl
          unfold listLength at hl
          rw [hhead] at hl
          cases m <;> rcases hk with rfl | rfl <;> simp_all

/-! ## Executions -/

/-- The state after accepting, apart from the store and the file. -/
def afterAccept (s : State F C) : State F C :=
  { s with comment := none
           problemIndex := if s.problemIndex ≥ storeLen s.store then 0 else s.problemIndex
           modes := s.modes.tail }

theorem acceptKey_cases (env : Env F E C) (hs : env.Sane) (w : Bool) (s : State F C) {tr : List Ev}
    (h : Run s.store tr) :
    (acceptKey env w s = some (afterAccept s, false) ∧ (s.edits env)[s.editIndex]? = none) ∨
    (∃ ed, (s.edits env)[s.editIndex]? = some ed ∧ acceptKey env w s = some (s, true) ∧
      (w = false ∨ ∀ e, openFile env s.file = some e → (ed.apply s.comment e).2 = false)) ∨
    ∃ id p ed e st tr', s.selected = some (id, p) ∧ (s.edits env)[s.editIndex]? = some ed ∧
      openFile env s.file = some e ∧ (ed.apply s.comment e).2 = true ∧ w = true ∧
      acceptKey env w s = some (afterAccept
        { s with file := some (env.print (ed.apply s.comment e).1), store := st }, false) ∧
      Run st tr' ∧ Accepted env s.config (ed.apply s.comment e).1 id ed.repl s.store st := by
  unfold acceptKey
  rcases applySelected_cases env hs w s h with ⟨h1, h2⟩ | ⟨ed, h0, h1, h2⟩ |
    ⟨id, p, ed, e, st, tr', h1, h2, h3, h4, h5, h6, h7⟩
  · rw [h1]; exact Or.inl ⟨rfl, h2⟩
  · rw [h1]; exact Or.inr (Or.inl ⟨ed, h0, rfl, h2⟩)
  · rw [h6]; exact Or.inr (Or.inr ⟨id, p, ed, e, st, tr', h1, h2, h3, h4, h5, rfl, h7⟩)

/-- What holds in every state that can be reached. -/
structure Inv (x : Sys F C) (tr : List (Sys F C × Act F C)) : Prop where
  store : ∃ t, Run x.ui.store t
  bottom : Bottom x.ui.modes
  confirmed : x.ui.acceptSingle = true → Confirmed tr

theorem acceptKey_inv (env : Env F E C) (hs : env.Sane) (w : Bool) {s : State F C} {tr : List Ev}
    (h : Run s.store tr) (hb : Bottom s.modes) (hm : s.modes.head? = some .selectEdit) {r : State F C × Bool}
    (hr : acceptKey env w s = some r) :
    (∃ t, Run r.1.store t) ∧ Bottom r.1.modes ∧ r.1.acceptSingle = s.acceptSingle ∧ r.1.config = s.config := by
  obtain ⟨t, ht⟩ := head_cons hm
  have hb' : Bottom s.modes.tail := by
    rw [ht] at hb ⊢
    exact (Bottom.pop hb (Or.inl (by simp))).1
  rcases acceptKey_cases env hs w s h with ⟨h1, _⟩ | ⟨_, _, h1, _⟩ | ⟨id, p, ed, e, st, tr', _, _, _, _, _, h6, h7, _⟩
  · rw [h1] at hr; cases hr; exact ⟨⟨tr, h⟩, hb', rfl, rfl⟩
  · rw [h1] at hr; cases hr; exact ⟨⟨tr, h⟩, hb, rfl, rfl⟩
  · rw [h6] at hr; cases hr; exact ⟨⟨tr', h7⟩, hb', rfl, rfl⟩

theorem acceptAll_inv (env : Env F E C) (w : Bool) {s : State F C} {tr : List Ev} (h : Run s.store tr)
    {r : State F C × Bool} (hr : acceptAll env w s = some r) :
    (∃ t, Run r.1.store t) ∧ r.1.modes = s.modes ∧ r.1.acceptSingle = s.acceptSingle ∧ r.1.config = s.config ∧
      r.1.problemIndex = s.problemIndex ∧ r.1.comment = s.comment := by
  rcases acceptAll_cases env w s h with ⟨_, h1⟩ | ⟨e, st, tr', _, h2, _, _, h3⟩
  · rw [h1] at hr; cases hr; exact ⟨⟨tr, h⟩, rfl, rfl, rfl, rfl, rfl⟩
  · rcases h3 with ⟨e', _, _, _, h4⟩ | ⟨_, h4⟩ <;>
    · rw [h4] at hr; cases hr; exact ⟨⟨tr', h2⟩, rfl, rfl, rfl, rfl, rfl⟩

theorem confirmKey_inv (env : Env F E C) (w : Bool) {s : State F C} {tr : List Ev} (h : Run s.store tr)
    (hb : Bottom s.modes) (hm : s.modes.head? = some .promptAutoAccept)
    {r : State F C × Bool} (hr : confirmKey env w s = some r) :
    (∃ t, Run r.1.store t) ∧ Bottom r.1.modes := by
  obtain ⟨t, ht⟩ := head_cons hm
  unfold confirmKey at hr
  cases ha : acceptAll env w { s with acceptSingle := true } with
  | none => rw [ha] at hr; cases hr
  | some r' =>
    have hi := acceptAll_inv env w (s := { s with acceptSingle := true }) h ha
    obtain ⟨s', b⟩ := r'
    rw [ha] at hr
    have hm' : s'.modes = s.modes := hi.2.1
    cases b with
    | true =>
      cases hr
      exact ⟨hi.1, by rw [hm']; exact hb⟩
    | false =>
      cases hr
      refine ⟨hi.1, ?_⟩
      show Bottom s'.modes.tail
      rw [hm']
      rw [ht] at hb ⊢
      exact (Bottom.pop hb (Or.inl (by simp))).1

theorem run_abort {s : Store.State} {tr : List Ev} (h : Run s tr) : Run (abort s) (.aborted :: tr) :=
  Run.step .abort h rfl

theorem checkQuit_inv {x : Sys F C} {tr : List (Sys F C × Act F C)} (h : Inv x tr) : Inv (checkQuit x) tr := by
  unfold checkQuit
  split
  · obtain ⟨t, ht⟩ := h.store
    exact ⟨⟨_, run_abort ht⟩, h.bottom, h.confirmed⟩
  · exact h

theorem draw_ui (x : Sys F C) : (draw x).ui = x.ui := by unfold draw; split <;> rfl
theorem draw_error (x : Sys F C) : (draw x).error = x.error := by unfold draw; split <;> rfl
theorem draw_started (x : Sys F C) : (draw x).started = x.started := by unfold draw; split <;> rfl
theorem draw_ended (x : Sys F C) : (draw x).ended = x.ended := by unfold draw; split <;> rfl
theorem draw_killed (x : Sys F C) : (draw x).killed = x.killed := by unfold draw; split <;> rfl

theorem draw_inv {x : Sys F C} {tr : List (Sys F C × Act F C)} (h : Inv x tr) : Inv (draw x) tr := by
  unfold draw
  split
  · exact ⟨h.store, h.bottom, h.confirmed⟩
  · exact h

theorem Confirmed.mono {tr : List (Sys F C × Act F C)} (y) (h : Confirmed tr) : Confirmed (y :: tr) := by
  obtain ⟨x, w, h1, h2⟩ := h
  exact ⟨x, w, List.mem_cons_of_mem _ h1, h2⟩

theorem checkQuit_modes (x : Sys F C) : (checkQuit x).ui.modes = x.ui.modes := by
  unfold checkQuit; split <;> rfl

theorem checkQuit_error (x : Sys F C) : (checkQuit x).error = x.error := by
  unfold checkQuit; split <;> rfl

theorem act_inv (env : Env F E C) (hs : env.Sane) {x x' : Sys F C} {tr : List (Sys F C × Act F C)} (h : Inv x tr)
    (a : Act F C) (ha : act env x a = some x') : Inv x' ((x, a) :: tr) := by
  cases a with
  | report ps =>
    obtain ⟨t, ht⟩ := h.store
    obtain ⟨r, h1, rfl⟩ := Option.map_eq_some_iff.mp ha
    have : step x.ui.store (.add ps) = some (r.1, .added x.ui.store.nextChan r.2) := by
      simp only [step, h1, Option.map_some]
    exact ⟨⟨_, Run.step _ ht this⟩, h.bottom, fun hc => (h.confirmed hc).mono _⟩
  | reload c =>
    cases ha
    exact ⟨h.store, h.bottom, fun hc => (h.confirmed hc).mono _⟩
  | touch f =>
    cases ha
    exact ⟨h.store, h.bottom, fun hc => (h.confirmed hc).mono _⟩
  | iter w i =>
    simp only [act, iterate] at ha
    split at ha
    · cases ha
      exact ⟨h.store, h.bottom, fun hc => (h.confirmed hc).mono _⟩
    · split at ha
      · have hq := draw_inv (checkQuit_inv h)
        obtain ⟨t, ht⟩ := hq.store
        cases i with
        | nothing =>
          cases ha
          exact ⟨hq.store, hq.bottom, fun hc => (hq.confirmed hc).mono _⟩
        | shutdown =>
          cases ha
          exact ⟨hq.store, hq.bottom, fun hc => (hq.confirmed hc).mono _⟩
        | added =>
          obtain ⟨r, h1, rfl⟩ := Option.map_eq_some_iff.mp ha
          unfold problemsAdded at h1
          split at h1
          · have hi := acceptAll_inv env w ht h1
            refine ⟨hi.1, ?_, ?_⟩
            · show Bottom r.1.modes
              rw [hi.2.1]; exact hq.bottom
            · intro hc
              have hc : r.1.acceptSingle = true := hc
              rw [hi.2.2.1] at hc
              exact (hq.confirmed hc).mono _
          · cases h1
            exact ⟨hq.store, hq.bottom, fun hc => (hq.confirmed hc).mono _⟩
        | key k =>
          simp only [receive] at ha
          split at ha
          · cases ha
            have hd : (dismiss (draw (checkQuit x)) k).ui = (draw (checkQuit x)).ui ∨
                (dismiss (draw (checkQuit x)) k).ui = { (draw (checkQuit x)).ui with store := abort (draw (checkQuit x)).ui.store } := by
              unfold dismiss
              dsimp only
              split
              · exact Or.inr rfl
              · exact Or.inl rfl
            rcases hd with hd | hd
            · exact ⟨⟨t, by rw [hd]; exact ht⟩, by rw [hd]; exact hq.bottom,
                by rw [hd]; exact fun hc => (hq.confirmed hc).mono _⟩
            · exact ⟨⟨_, by rw [hd]; exact run_abort ht⟩, by rw [hd]; exact hq.bottom,
                by rw [hd]; exact fun hc => (hq.confirmed hc).mono _⟩
          · rename_i herr
            obtain ⟨r, h1, rfl⟩ := Option.map_eq_some_iff.mp ha
            by_cases hwr : Writes (draw (checkQuit x)).ui k
            · rcases hwr with ⟨hm, hk⟩ | ⟨hm, rfl⟩
              · rw [handleKey_accept env w hm hk] at h1
                have hi := acceptKey_inv env hs w ht hq.bottom hm h1
                refine ⟨hi.1, hi.2.1, fun hc => ?_⟩
                have hc : r.1.acceptSingle = true := hc
                rw [hi.2.2.1] at hc
                exact (hq.confirmed hc).mono _
              · rw [handleKey_confirm env w hm] at h1
                have hi := confirmKey_inv env w ht hq.bottom hm h1
                rw [draw_ui, checkQuit_modes] at hm
                rw [draw_error, checkQuit_error] at herr
                exact ⟨hi.1, hi.2, fun _ => ⟨x, w, List.mem_cons_self .., hm, by simpa using herr⟩⟩
            · have hqt := handleKey_quiet env w hq.bottom hwr h1
              refine ⟨⟨t, by show Run r.1.store t; rw [hqt.store]; exact ht⟩, hqt.bottom, fun hc => ?_⟩
              have hc : r.1.acceptSingle = true := hc
              rw [hqt.accept] at hc
              exact (hq.confirmed hc).mono _
      · cases ha
        cases i <;> exact ⟨h.store, h.bottom, fun hc => (h.confirmed hc).mono _⟩

theorem exec_inv {env : Env F E C} (hs : env.Sane) {x : Sys F C} {tr : List (Sys F C × Act F C)}
    (h : Exec env x tr) : Inv x tr := by
  induction h with
  | init file c => exact ⟨⟨_, .init⟩, Or.inr rfl, by simp⟩
  | step a _ _ ha ih => exact act_inv env hs ih a ha

/-- What an action did. -/
inductive Did (env : Env F E C) (x : Sys F C) : Act F C → Sys F C → Prop where
  | idle {w : Bool} {i : Input} {x' : Sys F C} :
      x'.ui = x.ui ∨ x'.ui = { x.ui with store := abort x.ui.store } → Did env x (.iter w i) x'
  | report {ps : List Problem} {ids : List Nat} {st : Store.State} :
      add x.ui.store ps = some (st, ids) → Did env x (.report ps) { x with ui := { x.ui with store := st } }
  | reload {c : C} : Did env x (.reload c) { x with ui := { x.ui with config := c } }
  | touch {f : Option F} : Did env x (.touch f) { x with ui := { x.ui with file := f } }
  | quiet {w : Bool} {k : Key} {x' : Sys F C} : x.started = true → x.ended = false → x.error = false →
      ¬ Writes x.ui k → handleKey env w (checkQuit x).ui k = some (x'.ui, x'.error) →
      Did env x (.iter w (.key k)) x'
  | accept {w : Bool} {k : Key} {x' : Sys F C} : x.started = true → x.ended = false → x.error = false →
      x.ui.modes.head? = some .selectEdit → (k = .char ' ' ∨ k = .char 'f' ∨ k = .enter) →
      acceptKey env w x.ui = some (x'.ui, x'.error) → Did env x (.iter w (.key k)) x'
  | confirm {w : Bool} {x' : Sys F C} : x.started = true → x.ended = false → x.error = false →
      x.ui.modes.head? = some .promptAutoAccept →
      confirmKey env w x.ui = some (x'.ui, x'.error) → Did env x (.iter w (.key .enter)) x'
  | added {w : Bool} {x' : Sys F C} {b : Bool} : x.started = true → x.ended = false → x.ui.acceptSingle = true →
      acceptAll env w (checkQuit x).ui = some (x'.ui, b) → Did env x (.iter w .added) x'

theorem checkQuit_ui (x : Sys F C) :
    (x.ui.modes ≠ [] ∧ checkQuit x = x) ∨
      (x.ui.modes = [] ∧ (checkQuit x).ui = { x.ui with store := abort x.ui.store }) := by
  unfold checkQuit
  cases h : x.ui.modes with
  | nil => right; exact ⟨rfl, by simp⟩
  | cons m ms => left; exact ⟨by simp, by simp⟩

theorem checkQuit_of_head {x : Sys F C} {m : Mode} (h : x.ui.modes.head? = some m) : checkQuit x = x := by
  rcases checkQuit_ui x with ⟨_, h1⟩ | ⟨h1, _⟩
  · exact h1
  · rw [h1] at h; cases h

theorem checkQuit_writes (x : Sys F C) (k : Key) : Writes (checkQuit x).ui k ↔ Writes x.ui k := by
  unfold Writes
  rw [checkQuit_modes]

theorem checkQuit_ui_or (x : Sys F C) :
    (checkQuit x).ui = x.ui ∨ (checkQuit x).ui = { x.ui with store := abort x.ui.store } := by
  rcases checkQuit_ui x with ⟨_, h⟩ | ⟨_, h⟩
  · exact Or.inl (by rw [h])
  · exact Or.inr h

theorem did {env : Env F E C} {x x' : Sys F C} {a : Act F C} (ha : act env x a = some x') : Did env x a x' := by
  cases a with
  | report ps =>
    obtain ⟨⟨st, ids⟩, h1, rfl⟩ := Option.map_eq_some_iff.mp ha
    exact .report h1
  | reload c => cases ha; exact .reload
  | touch f => cases ha; exact .touch
  | iter w i =>
    simp only [act, iterate] at ha
    split at ha
    · cases ha; exact .idle (Or.inl rfl)
    · rename_i hend
      split at ha
      · rename_i hst
        have hend : x.ended = false := by simpa using hend
        cases i with
        | nothing => cases ha; exact .idle (by rw [draw_ui]; exact checkQuit_ui_or x)
        | shutdown =>
          cases ha
          refine .idle ?_
          show (draw (checkQuit x)).ui = _ ∨ (draw (checkQuit x)).ui = _
          rw [draw_ui]; exact checkQuit_ui_or x
        | added =>
          obtain ⟨r, h1, rfl⟩ := Option.map_eq_some_iff.mp ha
          rw [draw_ui] at h1
          unfold problemsAdded at h1
          split at h1
          · rename_i hacc
            have hacc' : x.ui.acceptSingle = true := by
              rcases checkQuit_ui_or x with h | h <;> rw [h] at hacc <;> exact hacc
            exact .added (b := r.2) hst hend hacc' h1
          · cases h1; exact .idle (checkQuit_ui_or x)
        | key k =>
          simp only [receive] at ha
          split at ha
          · cases ha
            refine .idle ?_
            unfold dismiss
            dsimp only
            rw [draw_ui]
            split
            · rcases checkQuit_ui_or x with h | h
              · rw [h]; exact Or.inr rfl
              · right; rw [h]; simp [abort]
            · exact checkQuit_ui_or x
          · rename_i herr
            rw [draw_error, checkQuit_error] at herr
            have herr : x.error = false := by simpa using herr
            obtain ⟨r, h1, rfl⟩ := Option.map_eq_some_iff.mp ha
            rw [draw_ui] at h1
            by_cases hwr : Writes x.ui k
            · rcases hwr with ⟨hm, hk⟩ | ⟨hm, rfl⟩
              · rw [checkQuit_of_head hm, handleKey_accept env w hm hk] at h1
                exact .accept hst hend herr hm hk h1
              · rw [checkQuit_of_head hm, handleKey_confirm env w hm] at h1
                exact .confirm hst hend herr hm h1
            · exact .quiet hst hend herr hwr h1
      · cases ha
        refine .idle (Or.inl ?_)
        cases i <;> rfl

/-! ## The list of problems -/

theorem liveFrom_grow {ps ps' : List (Option Problem)}
    (h : ∀ (j : Nat) (o : Option Problem), ps[j]? = some o → ∃ o', ps'[j]? = some o' ∧ ∀ p, (o = some p → ∃ q, o' = some q ∧ Grown p q) ∧
      (o = none → o' = none)) :
    ∀ (n i id : Nat) (p : Problem), (liveFrom ps n)[i]? = some (id, p) → ∃ q, (liveFrom ps' n)[i]? = some (id, q) ∧ Grown p q := by
  induction ps generalizing ps' with
  | nil => intro n i id p hi; simp [liveFrom] at hi
  | cons x xs ih =>
    intro n i id p hi
    obtain ⟨o', ho, hx⟩ := h 0 x rfl
    cases ps' with
    | nil => simp at ho
    | cons y ys =>
      simp only [List.getElem?_cons_zero, Option.some.injEq] at ho
      subst ho
      have ih' := ih (ps' := ys) (fun j o hj => h (j + 1) o hj)
      cases x with
      | none =>
        have := (hx p).2 rfl
        subst this
        exact ih' (n + 1) i id p hi
      | some p0 =>
        obtain ⟨q0, rfl, hg⟩ := (hx p0).1 rfl
        cases i with
        | zero =>
          simp only [liveFrom, List.zipIdx_cons, List.filterMap_cons, Option.map_some, List.getElem?_cons_zero,
            Option.some.injEq, Prod.mk.injEq] at hi ⊢
          obtain ⟨rfl, rfl⟩ := hi
          exact ⟨q0, ⟨rfl, rfl⟩, hg⟩
        | succ i => exact ih' (n + 1) i id p hi

theorem add_live {s st : Store.State} {tr : List Ev} (h : Run s tr) {ps : List Problem} {ids : List Nat}
    (ha : add s ps = some (st, ids)) (i id : Nat) (p : Problem) (hp : (live s)[i]? = some (id, p)) :
    ∃ q, (live st)[i]? = some (id, q) ∧ Grown p q := by
  unfold add at ha
  split at ha
  · cases ha
  · split at ha
    · cases ha
    · rename_i s1 ids1 h1
      cases ha
      have he := (addProblems_spec (inv_run h).w h1).2.1
      refine liveFrom_grow (ps := s.problems) (ps' := s1.problems) ?_ 0 i id p hp
      intro j o hj
      cases o with
      | none => exact ⟨none, he.dead j hj, fun p => ⟨by simp, fun _ => rfl⟩⟩
      | some p0 =>
        obtain ⟨q, hq, hg⟩ := he.live j p0 hj
        refine ⟨some q, hq, fun p => ⟨?_, by simp⟩⟩
        intro hpp
        cases hpp
        exact ⟨q, rfl, hg⟩

theorem add_live_length {s st : Store.State} {tr : List Ev} (h : Run s tr) {ps : List Problem} {ids : List Nat}
    (ha : add s ps = some (st, ids)) : (live s).length ≤ (live st).length := by
  rcases Nat.lt_or_ge (live st).length (live s).length with hlt | hge
  · have : ∃ x, (live s)[(live st).length]? = some x := ⟨_, List.getElem?_eq_getElem hlt⟩
    obtain ⟨⟨id, p⟩, hx⟩ := this
    obtain ⟨q, hq, _⟩ := add_live h ha _ id p hx
    simp at hq
  · exact hge

theorem acceptLoop_sent (env : Env F E C) (c : C) (n : Nat) {s s' : Store.State} {tr : List Ev} (h : Run s tr) {e : E}
    {r : Option E} (ha : acceptLoop env c n s e = some (s', r)) : ∀ m ∈ s.sent, m ∈ s'.sent := by
  induction n generalizing s tr e with
  | zero => cases ha
  | succ n ih =>
    unfold acceptLoop at ha
    split at ha
    · cases ha; exact fun _ h => h
    · split at ha
      · split at ha
        · cases ha
        · rename_i id ed _ _ _ s1 ids h1
          have hst : step s (.replace id []) = some (s1, .replaced id ids) := by
            have h1 : replace s id [] = some (s1, ids) := h1
            simp only [step, h1, Option.map_some]
          exact fun m hm => ih (Run.step _ h hst) ha m (sent_mono (inv_run h).w hst m hm)
      · cases ha; exact fun _ h => h

theorem acceptAll_sent (env : Env F E C) (w : Bool) {s : State F C} {tr : List Ev} (h : Run s.store tr)
    {r : State F C × Bool} (hr : acceptAll env w s = some r) : ∀ m ∈ s.store.sent, m ∈ r.1.store.sent := by
  unfold acceptAll at hr
  split at hr
  · cases hr; exact fun _ h => h
  · split at hr
    · cases hr
    · rename_i h1
      cases hr
      exact acceptLoop_sent env _ _ h h1
    · rename_i h1
      split at hr <;> cases hr <;> exact acceptLoop_sent env _ _ h h1

theorem live_abort (s : Store.State) : live (abort s) = live s := rfl

theorem checkQuit_file (x : Sys F C) : (checkQuit x).ui.file = x.ui.file := by
  unfold checkQuit; split <;> rfl
theorem checkQuit_config (x : Sys F C) : (checkQuit x).ui.config = x.ui.config := by
  unfold checkQuit; split <;> rfl
theorem checkQuit_live (x : Sys F C) : live (checkQuit x).ui.store = live x.ui.store := by
  unfold checkQuit; split <;> rfl
theorem checkQuit_accept (x : Sys F C) : (checkQuit x).ui.acceptSingle = x.ui.acceptSingle := by
  unfold checkQuit; split <;> rfl
theorem checkQuit_index (x : Sys F C) : (checkQuit x).ui.problemIndex = x.ui.problemIndex := by
  unfold checkQuit; split <;> rfl
theorem checkQuit_comment (x : Sys F C) : (checkQuit x).ui.comment = x.ui.comment := by
  unfold checkQuit; split <;> rfl
theorem checkQuit_singles (env : Env F E C) (x : Sys F C) :
    singles env (checkQuit x).ui.config (checkQuit x).ui.store = singles env x.ui.config x.ui.store := by
  unfold singles
  rw [checkQuit_live, checkQuit_config]

theorem offered_eq (env : Env F E C) (s : State F C) : offered env s = s.edits env := by
  unfold offered State.edits State.selected
  cases (live s.store)[s.problemIndex]? <;> rfl

/-- The index of the highlighted problem is in range, or there is no problem. -/
theorem index_ok {env : Env F E C} (hs : env.Sane) {x : Sys F C} {tr : List (Sys F C × Act F C)}
    (h : Exec env x tr) (hc : ¬ Confirmed tr) : x.ui.problemIndex = 0 ∨ x.ui.problemIndex < (live x.ui.store).length := by
  induction h with
  | init file c => exact Or.inl rfl
  | @step x x' tr a h _ ha ih =>
    have hc' : ¬ Confirmed tr := fun h => hc (h.mono _)
    have ih := ih hc'
    have hi := exec_inv hs h
    have hns : x.ui.acceptSingle = false := by
      cases hx : x.ui.acceptSingle with
      | false => rfl
      | true => exact absurd (hi.confirmed hx) hc'
    obtain ⟨t, ht⟩ := hi.store
    cases did ha with
    | idle h => rcases h with h | h <;> rw [h] <;> exact ih
    | report h1 =>
      rcases ih with ih | ih
      · exact Or.inl ih
      · exact Or.inr (Nat.lt_of_lt_of_le ih (add_live_length ht h1))
    | reload => exact ih
    | touch => exact ih
    | quiet _ _ _ hw hk =>
      have hb : Bottom (checkQuit x).ui.modes := by rw [checkQuit_modes]; exact hi.bottom
      have hq := handleKey_quiet env _ hb (by rw [checkQuit_writes]; exact hw) hk
      rw [hq.store, checkQuit_live]
      rcases hq.index with h1 | h1
      · rw [h1, checkQuit_index]; exact ih
      · rw [checkQuit_live] at h1; exact Or.inr h1
    | @accept w k x' _ _ _ _ _ hk =>
      rcases acceptKey_cases env hs w x.ui ht with ⟨h1, _⟩ | ⟨_, _, h1, _⟩ | ⟨id, p, ed, e, st, tr', _, _, _, _, _, h6, h7, _⟩
      · rw [h1] at hk
        simp only [Option.some.injEq, Prod.mk.injEq] at hk
        rw [← hk.1]
        unfold afterAccept
        simp only [storeLen_eq]
        split
        · exact Or.inl rfl
        · right; omega
      · rw [h1] at hk
        simp only [Option.some.injEq, Prod.mk.injEq] at hk
        rw [← hk.1]; exact ih
      · rw [h6] at hk
        simp only [Option.some.injEq, Prod.mk.injEq] at hk
        rw [← hk.1]
        unfold afterAccept
        simp only [storeLen_eq]
        split
        · exact Or.inl rfl
        · right; omega
    | @confirm w x' _ _ herr hm _ => exact absurd ⟨x, w, List.mem_cons_self .., hm, herr⟩ hc
    | added _ _ hacc => rw [hns] at hacc; cases hacc

/-- Whether an action is possible. -/
def possible (x : Sys F C) : Act F C → Bool
  | .iter _ .added => decide (x.received < x.ui.store.events)
  | .report ps => decide (ps ≠ [])
  | _ => true

theorem possible_iff {x : Sys F C} {a : Act F C} (h : possible x a = true) : a.Possible x := by
  cases a with
  | iter w i =>
    cases i with
    | added => exact of_decide_eq_true (p := x.received < x.ui.store.events) h
    | _ => trivial
  | report ps => exact of_decide_eq_true (p := ps ≠ []) h
  | reload c => trivial
  | touch f => trivial

/-- Actions in a row, as long as they are possible. -/
def runActs (env : Env F E C) (x : Sys F C) : List (Act F C) → Option (Sys F C)
  | [] => some x
  | a :: as => if possible x a then (act env x a).bind (fun x' => runActs env x' as) else none

theorem exec_runActs {env : Env F E C} {x x' : Sys F C} {tr : List (Sys F C × Act F C)} (h : Exec env x tr)
    {as : List (Act F C)} (hr : runActs env x as = some x') : ∃ tr', Exec env x' tr' := by
  induction as generalizing x tr with
  | nil => cases hr; exact ⟨tr, h⟩
  | cons a as ih =>
    unfold runActs at hr
    split at hr
    · rename_i hp
      obtain ⟨x1, h1, h2⟩ := Option.bind_eq_some_iff.mp hr
      exact ih (Exec.step a h (possible_iff hp) h1) h2
    · cases hr

end Cackle.Ui
