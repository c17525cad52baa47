import Verif.Props.BasicTermSpec
import Verif.Lemmas.ProblemsUi
import Verif.Lemmas.EditApis

/-!
# Lemmas about the line-based user interface
-/

namespace Cackle.Basic
open Cackle Store
open Cackle.Ui (EditM Env openFile add_live)
open Cackle.NullUi (liveFrom liveFrom_set resolve_live)

variable {F E C : Type}

/-! ## Answers -/

theorem trim_eq {a s b : Str} (ha : ∀ c ∈ a, isSpace c = true) (hb : ∀ c ∈ b, isSpace c = true)
    (h1 : ∀ c, s.head? = some c → isSpace c = false) (h2 : ∀ c, s.getLast? = some c → isSpace c = false) (hs : s ≠ []) :
    trim (a ++ s ++ b) = s := by
  have drop : ∀ (a s : Str), (∀ c ∈ a, isSpace c = true) → (∀ c, s.head? = some c → isSpace c = false) →
      (a ++ s).dropWhile isSpace = s := by
    intro a s ha hs
    induction a with
    | nil =>
      cases s with
      | nil => rfl
      | cons c cs => simp [List.dropWhile, hs c rfl]
    | cons c cs ih =>
      rw [List.cons_append, List.dropWhile_cons_of_pos (ha c (by simp))]
      exact ih (fun d hd => ha d (by simp [hd]))
  unfold trim
  rw [List.append_assoc, drop a (s ++ b) ha ?_, List.reverse_append, drop b.reverse s.reverse ?_ ?_, List.reverse_reverse]
  · intro c hc; exact hb c (by simpa using hc)
  · intro c hc; exact h2 c (by simpa using hc)
  · intro c hc
    rw [List.head?_append] at hc
    cases hh : s.head? with
    | none => rw [List.head?_eq_none_iff] at hh; exact absurd hh hs
    | some d =>
      rw [hh] at hc
      simp only [Option.some_or, Option.some.injEq] at hc
      subst hc
      exact h1 _ hh

/-- Trimming removes white space at both ends only. -/
theorem trim_spec (s : Str) : ∃ a b, s = a ++ trim s ++ b ∧ (∀ c ∈ a, isSpace c = true) ∧ (∀ c ∈ b, isSpace c = true) := by
  refine ⟨s.takeWhile isSpace, ((s.dropWhile isSpace).reverse.takeWhile isSpace).reverse, ?_, ?_, ?_⟩
  · unfold trim
    rw [List.append_assoc, ← List.reverse_append, List.takeWhile_append_dropWhile, List.reverse_reverse,
      List.takeWhile_append_dropWhile]
  · intro c hc
    have := List.all_takeWhile (p := isSpace) (l := s)
    exact List.all_eq_true.mp this c hc
  · intro c hc
    have := List.all_takeWhile (p := isSpace) (l := (s.dropWhile isSpace).reverse)
    exact List.all_eq_true.mp this c (by simpa using hc)

theorem parseDigits_append (n : Nat) (a b : Str) :
    parseDigits n (a ++ b) = (parseDigits n a).bind (fun m => parseDigits m b) := by
  induction a generalizing n with
  | nil => rfl
  | cons c cs ih =>
    simp only [List.cons_append, parseDigits]
    split
    · exact ih _
    · rfl

theorem parseDigits_spec {n m : Nat} {ds : Str} (h : parseDigits n ds = some m) :
    (∀ c ∈ ds, '0' ≤ c ∧ c ≤ '9') ∧ ds.foldl (fun n c => 10 * n + (c.toNat - 48)) n = m := by
  induction ds generalizing n with
  | nil => simpa [parseDigits] using h
  | cons c cs ih =>
    simp only [parseDigits] at h
    split at h
    · rename_i hc
      obtain ⟨h1, h2⟩ := ih h
      refine ⟨?_, h2⟩
      intro d hd
      rcases List.mem_cons.mp hd with rfl | hd
      · exact hc
      · exact h1 d hd
    · cases h

theorem digit_small {d : Nat} (h : d < 10) : parseDigits n (Nat.toDigits 10 d) = some (10 * n + d) := by
  rw [Nat.toDigits_of_lt_base h]
  have : ∀ d < 10, ('0' ≤ Nat.digitChar d ∧ Nat.digitChar d ≤ '9') ∧ (Nat.digitChar d).toNat - '0'.toNat = d := by decide
  simp only [parseDigits, this d h, and_self, if_true]

theorem parseDigits_numeral (n : Nat) : parseDigits 0 (numeral n) = some n := by
  induction n using Nat.strongRecOn with
  | ind n ih =>
    unfold numeral
    by_cases hn : n < 10
    · rw [digit_small hn]; simp
    · have h1 : 0 < n / 10 := by omega
      have h2 : n % 10 < 10 := by omega
      have h3 := Nat.toDigits_append_toDigits (b := 10) (by omega) h1 h2
      have h4 : 10 * (n / 10) + n % 10 = n := Nat.div_add_mod n 10
      rw [h4] at h3
      rw [← h3, parseDigits_append]
      have h5 := ih (n / 10) (by omega)
      unfold numeral at h5
      rw [h5, Option.bind_some, digit_small h2, h4]

theorem numeral_ne (n : Nat) : numeral n ≠ [] := Nat.toDigits_ne_nil

theorem numeral_digits (n : Nat) : ∀ c ∈ numeral n, '0' ≤ c ∧ c ≤ '9' := (parseDigits_spec (parseDigits_numeral n)).1

theorem digit_char {c : Char} (h : '0' ≤ c ∧ c ≤ '9') : isSpace c = false ∧ ¬ ('A' ≤ c ∧ c ≤ 'Z') ∧ c ≠ '+' ∧ c ≠ 'd' := by
  have h1 : '0'.toNat ≤ c.toNat := h.1
  have h2 : c.toNat ≤ '9'.toNat := h.2
  have h1 : 48 ≤ c.toNat := h1
  have h2 : c.toNat ≤ 57 := h2
  have hne : ∀ d : Char, (d.toNat < 48 ∨ 57 < d.toNat) → c ≠ d := by
    intro d hd he
    rw [he] at h1 h2
    omega
  refine ⟨?_, ?_, hne _ (by decide), hne _ (by decide)⟩
  · unfold isSpace
    simp [hne ' ' (by decide), hne '\t' (by decide), hne '\n' (by decide), hne '\r' (by decide), hne '\x0b' (by decide), hne '\x0c' (by decide)]
  · intro h3
    have h4 : 'A'.toNat ≤ c.toNat := h3.1
    have h4 : 65 ≤ c.toNat := h4
    omega

theorem parseUsize_numeral {n : Nat} (h : n < 2 ^ 64) : parseUsize (numeral n) = some n := by
  have h1 := parseDigits_numeral n
  have h2 := numeral_digits n
  have h3 := numeral_ne n
  unfold parseUsize
  generalize numeral n = ds at h1 h2 h3
  cases ds with
  | nil => exact absurd rfl h3
  | cons c cs =>
    have hc := (digit_char (h2 c (by simp))).2.2.1
    have : stripPlus (c :: cs) = c :: cs := by
      unfold stripPlus
      split
      · rename_i heq; cases heq; exact absurd rfl hc
      · rfl
    simp only [this, h1, Option.bind_some, if_pos h, if_neg h3]

theorem lower_append (a b : Str) : lower (a ++ b) = lower a ++ lower b := List.map_append ..

theorem lower_digits {s : Str} (h : ∀ c ∈ s, ¬ ('A' ≤ c ∧ c ≤ 'Z')) : lower s = s := by
  unfold lower
  conv => rhs; rw [← List.map_id s]
  apply List.map_congr_left
  intro c hc
  rw [if_neg (h c hc)]; rfl

theorem isSpace_iff (c : Char) : isSpace c = true ↔ c ∈ blanks := by
  simp [isSpace, blanks, or_assoc]

theorem pad_space {a : Str} (h : ∀ c ∈ a, c ∈ blanks) : lower a = a ∧ ∀ c ∈ a, isSpace c = true := by
  refine ⟨lower_digits ?_, fun c hc => (isSpace_iff c).mpr (h c hc)⟩
  intro c hc
  have := h c hc
  simp only [blanks, List.mem_cons, List.not_mem_nil, or_false] at this
  rcases this with rfl | rfl | rfl | rfl | rfl | rfl <;> decide

theorem trim_lower {ans line : Str} (h : Padded ans line) (hne : ans ≠ [])
    (hs : ∀ c ∈ ans, isSpace c = false ∧ ¬ ('A' ≤ c ∧ c ≤ 'Z')) : trim (lower line) = ans := by
  obtain ⟨a, b, rfl, ha, hb⟩ := h
  rw [lower_append, lower_append, (pad_space ha).1, (pad_space hb).1, lower_digits (fun c hc => (hs c hc).2)]
  exact trim_eq (pad_space ha).2 (pad_space hb).2 (fun c hc => (hs c (List.mem_of_mem_head? hc)).1)
    (fun c hc => (hs c (List.mem_of_mem_getLast? hc)).1) hne

theorem fixIndex_numeral {n k : Nat} (hn : n < k) (hk : k < 2 ^ 64) : fixIndex (numeral (n + 1)) k = some n := by
  unfold fixIndex
  rw [parseUsize_numeral (by omega)]
  simp only [Option.bind_some]
  rw [if_neg (by omega)]
  rfl

theorem action_numeral {n k : Nat} {line : Str} (h : Padded (numeral (n + 1)) line) (hn : n < k) (hk : k < 2 ^ 64) :
    action line k = some (.applyFix n) := by
  have ht := trim_lower h (numeral_ne _) (fun c hc => ⟨(digit_char (numeral_digits _ c hc)).1,
    (digit_char (numeral_digits _ c hc)).2.1⟩)
  have hf := fixIndex_numeral hn hk
  have hd := numeral_digits (n + 1)
  unfold action
  rw [ht]
  generalize numeral (n + 1) = ds at hf hd
  split
  · exact absurd rfl (digit_char (hd 'd' (by simp))).2.2.2
  · rw [hf]; rfl

theorem action_diff {n k : Nat} {line : Str} (h : Padded ('d' :: numeral (n + 1)) line) (hn : n < k) (hk : k < 2 ^ 64) :
    action line k = some (.showDiff n) := by
  have ht := trim_lower h (by simp) (by
    intro c hc
    rcases List.mem_cons.mp hc with rfl | hc
    · decide
    · exact ⟨(digit_char (numeral_digits _ c hc)).1, (digit_char (numeral_digits _ c hc)).2.1⟩)
  unfold action
  rw [ht]
  simp only [fixIndex_numeral hn hk, Option.map_some]

theorem fixIndex_lt {s : Str} {n k : Nat} (h : fixIndex s k = some n) : n < k ∧ parseUsize s = some (n + 1) := by
  obtain ⟨m, h1, h2⟩ := Option.bind_eq_some_iff.mp h
  simp only [Option.ite_none_left_eq_some, Option.some.injEq] at h2
  have : m = n + 1 := by omega
  subst this
  exact ⟨by omega, h1⟩

theorem action_lt {l : Str} {n k : Nat} (h : action l k = some (.applyFix n) ∨ action l k = some (.showDiff n)) : n < k := by
  unfold action at h
  split at h
  · rcases h with h | h
    · obtain ⟨m, _, h2⟩ := Option.map_eq_some_iff.mp h
      cases h2
    · obtain ⟨m, h1, h2⟩ := Option.map_eq_some_iff.mp h
      cases h2
      exact (fixIndex_lt h1).1
  · rcases h with h | h
    · obtain ⟨m, h1, h2⟩ := Option.map_eq_some_iff.mp h
      cases h2
      exact (fixIndex_lt h1).1
    · obtain ⟨m, _, h2⟩ := Option.map_eq_some_iff.mp h
      cases h2

theorem stripPlus_spec (s : Str) : ∃ plus, s = plus ++ stripPlus s ∧ (plus = [] ∨ plus = ['+']) := by
  unfold stripPlus
  split
  · exact ⟨['+'], rfl, Or.inr rfl⟩
  · exact ⟨[], rfl, Or.inl rfl⟩

theorem parseUsize_spec {s : Str} {n : Nat} (h : parseUsize s = some n) :
    ∃ plus ds, s = plus ++ ds ∧ (plus = [] ∨ plus = ['+']) ∧ ds ≠ [] ∧ (∀ c ∈ ds, '0' ≤ c ∧ c ≤ '9') ∧ value ds = n := by
  unfold parseUsize at h
  split at h
  · cases h
  · rename_i hne
    obtain ⟨m, h1, h2⟩ := Option.bind_eq_some_iff.mp h
    simp only [Option.ite_none_right_eq_some, Option.some.injEq] at h2
    obtain ⟨_, rfl⟩ := h2
    obtain ⟨plus, hp, hq⟩ := stripPlus_spec s
    exact ⟨plus, _, hp, hq, hne, parseDigits_spec h1⟩

/-- Lower-casing is the identity on characters that it can produce from something that is not a letter. -/
theorem lower_inj {l s : Str} (h : lower l = s) (hs : ∀ c ∈ s, ¬ ('a' ≤ c ∧ c ≤ 'z')) : l = s := by
  subst h
  induction l with
  | nil => rfl
  | cons c cs ih =>
    have h1 := hs
    simp only [lower, List.map_cons, List.mem_cons, forall_eq_or_imp] at h1 ⊢
    have h2 := ih (fun d hd => h1.2 d hd)
    have : ¬ ('A' ≤ c ∧ c ≤ 'Z') := by
      intro hc
      apply h1.1
      rw [if_pos hc]
      have h3 : 'A'.toNat ≤ c.toNat := hc.1
      have h4 : c.toNat ≤ 'Z'.toNat := hc.2
      have h3 : 65 ≤ c.toNat := h3
      have h4 : c.toNat ≤ 90 := h4
      have h5 : ∀ n < 91, 65 ≤ n → 'a' ≤ Char.ofNat (n + 32) ∧ Char.ofNat (n + 32) ≤ 'z' := by decide
      exact h5 _ (by omega) h3
    rw [if_neg this]
    unfold lower at h2
    rw [← h2]

theorem not_letter {c : Char} (h : c ∈ blanks ∨ c = '+' ∨ ('0' ≤ c ∧ c ≤ '9')) : ¬ ('a' ≤ c ∧ c ≤ 'z') := by
  rcases h with h | rfl | h
  · simp only [blanks, List.mem_cons, List.not_mem_nil, or_false] at h
    rcases h with rfl | rfl | rfl | rfl | rfl | rfl <;> decide
  · decide
  · intro h1
    have h2 : c.toNat ≤ '9'.toNat := h.2
    have h3 : 'a'.toNat ≤ c.toNat := h1.1
    exact absurd (Nat.le_trans h3 h2) (by decide)

/-- Only a number chooses a fix. -/
theorem action_denotes {l : Str} {n k : Nat} (h : action l k = some (.applyFix n)) : Denotes l (n + 1) := by
  unfold action at h
  split at h
  · obtain ⟨m, _, h2⟩ := Option.map_eq_some_iff.mp h
    cases h2
  · obtain ⟨m, h1, h2⟩ := Option.map_eq_some_iff.mp h
    cases h2
    obtain ⟨plus, ds, h3, h4, h5, h6, h7⟩ := parseUsize_spec (fixIndex_lt h1).2
    obtain ⟨a, b, h8, h9, h10⟩ := trim_spec (lower l)
    rw [h3] at h8
    refine ⟨plus, ds, ⟨a, b, ?_, fun c hc => (isSpace_iff c).mp (h9 c hc), fun c hc => (isSpace_iff c).mp (h10 c hc)⟩,
      h4, h5, h6, h7⟩
    refine lower_inj h8 ?_
    intro c hc
    apply not_letter
    simp only [List.mem_append] at hc
    rcases hc with (hc | hc | hc) | hc
    · exact Or.inl ((isSpace_iff c).mp (h9 c hc))
    · rcases h4 with rfl | rfl
      · cases hc
      · exact Or.inr (Or.inl (by simpa using hc))
    · exact Or.inr (Or.inr (h6 c hc))
    · exact Or.inl ((isSpace_iff c).mp (h10 c hc))

/-! ## The store -/

theorem resolve_spec {s : Store.State} {tr : List Ev} (h : Run s tr) {id : Nat} {p : Problem} (hp : (id, p) ∈ live s) :
    ∃ s', resolve s id = some (s', []) ∧ Run s' (.replaced id [] :: tr) ∧ s'.problems = s.problems.set id none ∧
      live s' = (live s).filter (fun x => decide (x.1 ≠ id)) ∧ s'.events = s.events ∧ s'.nextChan = s.nextChan ∧ s'.aborted = s.aborted := by
  obtain ⟨s', r, h1, h2, _, h4, h5⟩ := resolve_live hp
  have hp' := mem_live.mp hp
  have hlive : live s' = (live s).filter (fun x => decide (x.1 ≠ id)) := by
    have := liveFrom_set s.problems id 0
    simp only [Nat.add_zero] at this
    show liveFrom s'.problems 0 = _
    rw [h5, this]
    rfl
  have h2' := h2
  simp only [resolve, replace, hp', addProblems, Option.some.injEq, Prod.mk.injEq] at h2'
  obtain ⟨hs, rfl⟩ := h2'
  have he : s'.events = s.events := by rw [← hs]
  have hn : s'.nextChan = s.nextChan := by rw [← hs]
  exact ⟨s', h2, Run.step _ h h1, h5, hlive, he, hn, h4⟩

theorem noConfig_grown {p q : Problem} (h : Grown p q) : NoConfig q ↔ NoConfig p := by
  have := h.1
  constructor
  · rintro ⟨path, rfl⟩
    cases p <;> simp [Problem.Same] at this
    exact ⟨_, rfl⟩
  · rintro ⟨path, rfl⟩
    cases q <;> simp [Problem.Same] at this
    exact ⟨_, rfl⟩

theorem add_run {s : Store.State} {tr : List Ev} (h : Run s tr) {ps : List Problem} {r : Store.State × List Nat}
    (ha : add s ps = some r) : ∃ t, Run r.1 t := by
  have : Store.step s (.add ps) = some (r.1, .added s.nextChan r.2) := by simp only [Store.step, ha, Option.map_some]
  exact ⟨_, Run.step _ h this⟩

theorem add_sent {s : Store.State} {tr : List Ev} (h : Run s tr) {ps : List Problem} {r : Store.State × List Nat}
    (ha : add s ps = some r) : r.1.sent = s.sent ∧ r.1.aborted = s.aborted := by
  unfold add at ha
  split at ha
  · cases ha
  · split at ha
    · cases ha
    · rename_i s1 ids1 h2
      cases ha
      have he := (addProblems_spec (inv_run h).w h2).2.1
      exact ⟨he.sent, he.aborted⟩

/-- Every channel belongs to a report. -/
theorem chan_added {s : Store.State} {tr : List Ev} (h : Run s tr) {w : Nat} (hw : w < s.nextChan) :
    ∃ ids, Ev.added w ids ∈ tr := by
  induction h with
  | init => cases hw
  | @step s0 s1 tr0 ev op hr hs ih =>
    cases op with
    | add ps =>
      obtain ⟨r, h1, h2⟩ := Option.map_eq_some_iff.mp hs
      cases h2
      have hn : r.1.nextChan = s0.nextChan + 1 := by
        unfold add at h1
        split at h1
        · cases h1
        · split at h1
          · cases h1
          · rename_i s1 ids1 h2
            cases h1
            exact congrArg (· + 1) (addProblems_spec (inv_run hr).w h2).2.1.nextChan
      rw [hn] at hw
      rcases Nat.lt_succ_iff_lt_or_eq.mp hw with hlt | rfl
      · obtain ⟨ids, hi⟩ := ih hlt
        exact ⟨ids, List.mem_cons_of_mem _ hi⟩
      · exact ⟨r.2, by simp⟩
    | replace id repl =>
      obtain ⟨r, h1, h2⟩ := Option.map_eq_some_iff.mp hs
      cases h2
      have hn : r.1.nextChan = s0.nextChan := by
        unfold replace at h1
        split at h1
        · split at h1
          · cases h1
          · rename_i s1 ids1 h2
            cases h1
            exact (addProblems_spec (W_take (inv_run hr).w id) h2).2.1.nextChan
        · cases h1
      rw [hn] at hw
      obtain ⟨ids, hi⟩ := ih hw
      exact ⟨ids, List.mem_cons_of_mem _ hi⟩
    | abort =>
      cases hs
      obtain ⟨ids, hi⟩ := ih hw
      exact ⟨ids, List.mem_cons_of_mem _ hi⟩

/-- When nothing is left to solve, everybody has been told to continue. -/
theorem all_answered {s : Store.State} {tr : List Ev} (h : Run s tr) (hl : live s = []) (ha : s.aborted = false) {w : Nat}
    (hw : w < s.nextChan) : (w, Outcome.continue_) ∈ s.sent := by
  obtain ⟨ids, hi⟩ := chan_added h hw
  have hc := C10_waiters s tr h w ids hi
  obtain ⟨o, ho⟩ := hc.2.2.2.1 (by
    intro id hid
    rcases (inv_run h).issued w id hid with ⟨p, hp⟩ | hd
    · have := mem_live.mpr hp
      rw [hl] at this; cases this
    · exact hd)
  cases o with
  | continue_ => exact ho
  | giveUp =>
    have := (inv_run h).abortedEv.mpr (hc.2.2.1 ho)
    rw [ha] at this; cases this

/-! ## Looking at the first problem -/

/-- What is known at each point of the thread. -/
def PhaseOk (env : Env F E C) (P : E → Prop) (s : State F E C) : Prop :=
  match s.phase with
  | .asking id fixes => ∃ p rest c0 p0, live s.store = (id, p) :: rest ∧ ¬ NoConfig p ∧ Grown p0 p ∧ fixes = env.fixes c0 p0
  | .choosing id e => ∃ p rest, live s.store = (id, p) :: rest ∧ NoConfig p ∧ P e
  | .confirming id e => ∃ p rest, live s.store = (id, p) :: rest ∧ NoConfig p ∧ P e
  | _ => True

theorem look_eq (env : Env F E C) (su : Setup E) (s : State F E C) :
    look env su s = { s with phase := (look env su s).phase } := by
  unfold look
  split
  · rfl
  · split <;> rfl
  · rfl

theorem look_store (env : Env F E C) (su : Setup E) (s : State F E C) : (look env su s).store = s.store := by
  rw [look_eq]
theorem look_file (env : Env F E C) (su : Setup E) (s : State F E C) : (look env su s).file = s.file := by
  rw [look_eq]
theorem look_last (env : Env F E C) (su : Setup E) (s : State F E C) : (look env su s).last = s.last := by
  rw [look_eq]
theorem look_mtime (env : Env F E C) (su : Setup E) (s : State F E C) : (look env su s).mtime = s.mtime := by
  rw [look_eq]
theorem look_clock (env : Env F E C) (su : Setup E) (s : State F E C) : (look env su s).clock = s.clock := by
  rw [look_eq]

theorem look_nil (env : Env F E C) (su : Setup E) {s : State F E C} (h : live s.store = []) :
    (look env su s).phase = .idle := by
  unfold look; rw [h]

theorem look_missing (env : Env F E C) (su : Setup E) {s : State F E C} {id : Nat} {p : Problem} {rest : List (Nat × Problem)}
    {e : E} (h : live s.store = (id, p) :: rest) (hp : NoConfig p) (hs : su.start = some e) :
    (look env su s).phase = .choosing id e := by
  obtain ⟨path, rfl⟩ := hp
  unfold look; rw [h]
  simp only [hs]

theorem look_other (env : Env F E C) (su : Setup E) {s : State F E C} {id : Nat} {p : Problem} {rest : List (Nat × Problem)}
    (h : live s.store = (id, p) :: rest) (hp : ¬ NoConfig p) :
    (look env su s).phase = .asking id (env.fixes s.config p) := by
  unfold look; rw [h]
  split
  · rename_i h1; cases h1
  · rename_i h1; cases h1; exact absurd ⟨_, rfl⟩ hp
  · rename_i h1; cases h1; rfl

theorem look_ok (env : Env F E C) (su : Setup E) {P : E → Prop} (hsu : ∃ e, su.start = some e ∧ P e) (s : State F E C) :
    PhaseOk env P (look env su s) ∧ ¬ Gone (look env su s) := by
  obtain ⟨e, he, hP⟩ := hsu
  unfold PhaseOk Gone
  rw [look_store]
  cases hl : live s.store with
  | nil => rw [look_nil env su hl]; simp
  | cons x rest =>
    obtain ⟨id, p⟩ := x
    by_cases hp : NoConfig p
    · rw [look_missing env su hl hp he]
      exact ⟨⟨p, rest, rfl, hp, hP⟩, by simp⟩
    · rw [look_other env su hl hp]
      exact ⟨⟨p, rest, s.config, p, rfl, hp, Grown.refl p, rfl⟩, by simp⟩

/-- Resolving the problem in question. -/
theorem finish_spec (env : Env F E C) (su : Setup E) (s : State F E C) {t : List Ev} (h : Run s.store t) {id : Nat} {p : Problem}
    (hp : (id, p) ∈ live s.store) :
    ∃ st, finish env su s id = look env su { s with store := st } ∧ Run st (.replaced id [] :: t) ∧
      st.problems = s.store.problems.set id none ∧ live st = (live s.store).filter (fun x => decide (x.1 ≠ id)) ∧
      st.events = s.store.events ∧ st.nextChan = s.store.nextChan ∧ st.aborted = s.store.aborted := by
  obtain ⟨st, h1, h2, h3, h4, h5, h6⟩ := resolve_spec h hp
  exact ⟨st, by simp only [finish, h1], h2, h3, h4, h5, h6⟩

/-- The problem in question is resolved, the others are not. -/
theorem dead_set {ps : List (Option Problem)} {id j : Nat} {p : Problem} (hp : ps[id]? = some (some p)) :
    (ps.set id none)[j]? = some none ↔ j = id ∨ ps[j]? = some none := by
  rw [List.getElem?_set]
  by_cases h : id = j
  · subst h
    have : id < ps.length := by
      have := List.getElem?_eq_some_iff.mp hp
      exact this.1
    simp [this]
  · simp [h, Ne.symm h]

/-! ## One step -/

/-- What a step of the thread did. -/
inductive Stepped (env : Env F E C) (su : Setup E) (w : Bool) (s : State F E C) : Input → State F E C → Prop where
  | same {i : Input} : Stepped env su w s i s
  | look {i : Input} {r : Nat} : (s.phase = .idle ∧ i = .added) ∨ (∃ id fixes, s.phase = .asking id fixes ∧ i = .eof) →
      Stepped env su w s i (look env su { s with received := r })
  | shutdown : s.phase = .idle → Stepped env su w s .shutdown { s with phase := .ended }
  | failed {id n : Nat} {fixes : List (EditM E)} {l : Str} {ed : EditM E} : s.phase = .asking id fixes →
      (action l fixes.length = some (.applyFix n) ∧ (w = false ∨ ¬ Applies env s.file ed) ∨
       action l fixes.length = some (.showDiff n) ∧ (s.file = none ∨ ¬ Applies env s.file ed)) →
      fixes[n]? = some ed → Stepped env su w s (.line l) (fail s)
  | apply {id n : Nat} {fixes : List (EditM E)} {l : Str} {ed : EditM E} {e : E} : s.phase = .asking id fixes →
      action l fixes.length = some (.applyFix n) → fixes[n]? = some ed → env.parse (s.file.getD env.blank) = some e →
      (ed.apply none e).2 = true → w = true →
      Stepped env su w s (.line l) (finish env su (written s (env.print (ed.apply none e).1)) id)
  | chosen {id : Nat} {e e' : E} {l : Str} {b : Bool} : s.phase = .choosing id e → choose su l e = some (e', b) →
      Stepped env su w s (.line l) { s with phase := if b then .confirming id e' else .choosing id e' }
  | toggleFailed {id : Nat} {e : E} {l : Str} : s.phase = .choosing id e → choose su l e = none →
      Stepped env su w s (.line l) (crash s)
  | confirmed {id : Nat} {e : E} {l : Str} : s.phase = .confirming id e → w = true →
      Stepped env su w s (.line l) (finish env su (written s (env.print e)) id)
  | writeFailed {id : Nat} {e : E} {l : Str} : s.phase = .confirming id e → w = false →
      Stepped env su w s (.line l) (crash s)
  | retry {id : Nat} {fixes : List (EditM E)} : s.phase = .asking id fixes → s.last ≠ s.mtime →
      Stepped env su w s .tick (finish env su { s with last := s.mtime } id)
  | eofCrash : (∃ id e, s.phase = .choosing id e ∨ s.phase = .confirming id e) → Stepped env su w s .eof (crash s)

theorem stepped (env : Env F E C) (su : Setup E) (w : Bool) (s : State F E C) (i : Input) :
    Stepped env su w s i (step env su w s i) := by
  cases i with
  | added =>
    simp only [step]
    split
    · rename_i h; exact .look (Or.inl ⟨h, rfl⟩)
    · exact .same
  | shutdown =>
    simp only [step]
    split
    · rename_i h; exact .shutdown h
    · exact .same
  | tick =>
    simp only [step]
    split
    · rename_i id fixes h
      split
      · rename_i h1; exact .retry h h1
      · exact .same
    · exact .same
  | eof =>
    simp only [step]
    split
    · rename_i id fixes h
      exact .look (r := s.received) (Or.inr ⟨id, fixes, h, rfl⟩)
    · rename_i id e h; exact .eofCrash ⟨id, e, Or.inl h⟩
    · rename_i id e h; exact .eofCrash ⟨id, e, Or.inr h⟩
    · exact .same
  | line l =>
    simp only [step]
    split
    · rename_i id fixes h
      split
      · exact .same
      · rename_i n ha
        have hn := action_lt (Or.inl ha)
        have hg : fixes[n]? = some fixes[n] := List.getElem?_eq_getElem hn
        unfold applyFix
        rw [hg]
        dsimp only
        split
        · rename_i ho
          refine .failed h (Or.inl ⟨ha, Or.inr ?_⟩) hg
          rintro ⟨e, he, _⟩
          rw [openFile, he] at ho; cases ho
        · rename_i e ho
          split
          · rename_i h1
            rw [Bool.and_eq_true] at h1
            exact .apply h ha hg ho h1.1 h1.2
          · rename_i h1
            rw [Bool.and_eq_true] at h1
            refine .failed h (Or.inl ⟨ha, ?_⟩) hg
            by_cases hw : w = true
            · right
              rintro ⟨e', he, h2⟩
              rw [openFile, he] at ho
              cases ho
              exact h1 ⟨h2, hw⟩
            · left; simpa using hw
      · rename_i n ha
        have hn := action_lt (Or.inr ha)
        have hg : fixes[n]? = some fixes[n] := List.getElem?_eq_getElem hn
        unfold showDiff
        rw [hg]
        dsimp only
        split
        · rename_i ho
          refine .failed h (Or.inr ⟨ha, Or.inr ?_⟩) hg
          rintro ⟨e, he, _⟩
          rw [openFile, he] at ho; cases ho
        · rename_i e ho
          split
          · exact .same
          · rename_i h1
            rw [Bool.and_eq_true] at h1
            refine .failed h (Or.inr ⟨ha, ?_⟩) hg
            by_cases hw : s.file.isSome = true
            · right
              rintro ⟨e', he, h2⟩
              rw [openFile, he] at ho
              cases ho
              exact h1 ⟨h2, hw⟩
            · left; simpa using hw
    · rename_i id e h
      split
      · rename_i hc; exact .toggleFailed h hc
      · rename_i e' hc
        exact .chosen (b := true) h hc
      · rename_i e' hc
        exact .chosen (b := false) h hc
    · rename_i id e h
      split
      · rename_i hw; exact .confirmed h hw
      · rename_i hw; exact .writeFailed h (by simpa using hw)
    · exact .same

theorem toggleAll_ok {su : Setup E} {P : E → Prop} (hP : ∀ e a, P e → su.builtIn a = true → ∃ e', su.toggle a e = some e' ∧ P e')
    (parts : List Str) {e : E} (he : P e) : ∃ e' b, toggleAll su parts e = some (e', b) ∧ P e' := by
  induction parts generalizing e with
  | nil => exact ⟨e, true, rfl, he⟩
  | cons p ps ih =>
    unfold toggleAll
    split
    · exact ih he
    · split
      · rename_i hb
        obtain ⟨e1, h1, h2⟩ := hP e _ he hb
        rw [h1]
        exact ih h2
      · obtain ⟨e1, b, h1, h2⟩ := ih he
        rw [h1]
        exact ⟨e1, false, rfl, h2⟩

/-! ## Invariants -/

/-- Why a problem counts as solved. -/
def Reason (env : Env F E C) (id : Nat) (x : State F E C) (a : Act F C) (earlier : List (State F E C × Act F C)) : Prop :=
  (∃ n ed, Chose env id n ed x a) ∨ (∃ e, ConfirmedFirst id e x a) ∨
  (Noticed id x a ∧ ∃ y f, (y, .touch f) ∈ earlier)

structure Inv (env : Env F E C) (P : E → Prop) (s : State F E C) (tr : List (State F E C × Act F C)) : Prop where
  store : ∃ t, Run s.store t
  phase : PhaseOk env P s
  touched : s.last ≠ s.mtime → ∃ y f, (y, .touch f) ∈ tr
  dead : ∀ id, Dead s.store id → ∃ later x a earlier, tr = later ++ (x, a) :: earlier ∧ Reason env id x a earlier
  clock : (∀ t, s.last = some t → t < s.clock) ∧ (∀ t, s.mtime = some t → t < s.clock)
  running : s.store.aborted = false

theorem asked_live {env : Env F E C} {P : E → Prop} {s : State F E C} (h : PhaseOk env P s) :
    (∀ id fixes, s.phase = .asking id fixes → ∃ p, (id, p) ∈ live s.store) ∧
    (∀ id e, s.phase = .choosing id e → ∃ p, (id, p) ∈ live s.store) ∧
    (∀ id e, s.phase = .confirming id e → ∃ p, (id, p) ∈ live s.store) := by
  unfold PhaseOk at h
  refine ⟨?_, ?_, ?_⟩ <;> intro id y hy <;> rw [hy] at h
  · obtain ⟨p, rest, _, _, h1, _⟩ := h; exact ⟨p, by rw [h1]; simp⟩
  · obtain ⟨p, rest, h1, _⟩ := h; exact ⟨p, by rw [h1]; simp⟩
  · obtain ⟨p, rest, h1, _⟩ := h; exact ⟨p, by rw [h1]; simp⟩

theorem Inv.weaken {env : Env F E C} {P : E → Prop} {s : State F E C} {tr : List (State F E C × Act F C)} (h : Inv env P s tr)
    (y : State F E C × Act F C) :
    (s.last ≠ s.mtime → ∃ x f, (x, .touch f) ∈ y :: tr) ∧
    (∀ id, Dead s.store id → ∃ later x a earlier, y :: tr = later ++ (x, a) :: earlier ∧ Reason env id x a earlier) := by
  refine ⟨?_, ?_⟩
  · intro hl
    obtain ⟨x, f, hx⟩ := h.touched hl
    exact ⟨x, f, List.mem_cons_of_mem _ hx⟩
  · intro id hd
    obtain ⟨later, x, a, earlier, h1, h2⟩ := h.dead id hd
    exact ⟨y :: later, x, a, earlier, by rw [h1]; rfl, h2⟩

theorem written_clock {s : State F E C} (f : F) :
    (∀ t, (written s f).last = some t → t < (written s f).clock) ∧
    (∀ t, (written s f).mtime = some t → t < (written s f).clock) := by
  constructor <;> (intro t ht; cases ht; exact Nat.lt_succ_self _)

theorem finish_inv {env : Env F E C} {su : Setup E} {P : E → Prop} (hsu : ∃ e, su.start = some e ∧ P e) {s s0 : State F E C}
    {tr : List (State F E C × Act F C)} (h : Inv env P s tr) {id : Nat} {p : Problem} {a : Act F C}
    (hp : (id, p) ∈ live s.store) (hr : Reason env id s a tr) (h0 : s0.store = s.store) (hl : s0.last = s0.mtime)
    (hc : (∀ t, s0.last = some t → t < s0.clock) ∧ (∀ t, s0.mtime = some t → t < s0.clock)) :
    Inv env P (finish env su s0 id) ((s, a) :: tr) := by
  obtain ⟨t, ht⟩ := h.store
  rw [← h0] at ht hp
  obtain ⟨st, h1, h2, h3, _, _, _, h4⟩ := finish_spec env su s0 ht hp
  rw [h1]
  refine ⟨⟨_, by rw [look_store]; exact h2⟩, (look_ok env su hsu _).1, ?_, ?_, ?_, by rw [look_store]; exact h4.trans (by rw [h0]; exact h.running)⟩
  · rw [look_last, look_mtime]; exact fun hne => absurd hl hne
  · rw [look_store]
    intro j hj
    have hj : st.problems[j]? = some none := hj
    rw [h3, dead_set (mem_live.mp hp)] at hj
    rcases hj with rfl | hj
    · exact ⟨[], s, a, tr, rfl, hr⟩
    · exact (h.weaken (s, a)).2 j (by rw [← h0]; exact hj)
  · rw [look_last, look_mtime, look_clock]; exact hc

theorem act_inv {env : Env F E C} {su : Setup E} {P : E → Prop} (hsu : ∃ e, su.start = some e ∧ P e)
    (hP : ∀ e a, P e → su.builtIn a = true → ∃ e', su.toggle a e = some e' ∧ P e') {s s' : State F E C}
    {tr : List (State F E C × Act F C)} (h : Inv env P s tr) {a : Act F C} (ha : act env su s a = some s') :
    Inv env P s' ((s, a) :: tr) := by
  obtain ⟨t, ht⟩ := h.store
  cases a with
  | report ps =>
    obtain ⟨r, h1, rfl⟩ := Option.map_eq_some_iff.mp ha
    refine ⟨add_run ht h1, ?_, (h.weaken _).1, ?_, h.clock, (add_sent ht h1).2.trans h.running⟩
    · have hg : ∀ (id : Nat) p rest, live s.store = (id, p) :: rest → ∃ q rest', live r.1 = (id, q) :: rest' ∧ Grown p q := by
        intro id p rest hl
        obtain ⟨q, hq, hpq⟩ := add_live ht h1 0 id p (by rw [hl]; rfl)
        cases hlr : live r.1 with
        | nil => rw [hlr] at hq; cases hq
        | cons y ys =>
          rw [hlr] at hq
          simp only [List.getElem?_cons_zero, Option.some.injEq] at hq
          subst hq
          exact ⟨q, ys, rfl, hpq⟩
      have hph := h.phase
      unfold PhaseOk at hph ⊢
      dsimp only
      split
      · rename_i id fixes hq
        rw [hq] at hph
        obtain ⟨p, rest, c0, p0, h2, h3, h4, h5⟩ := hph
        obtain ⟨q, rest', h6, h7⟩ := hg _ _ _ h2
        exact ⟨q, rest', c0, p0, h6, fun hn => h3 ((noConfig_grown h7).mp hn), h4.trans h7, h5⟩
      · rename_i id e hq
        rw [hq] at hph
        obtain ⟨p, rest, h2, h3, h4⟩ := hph
        obtain ⟨q, rest', h6, h7⟩ := hg _ _ _ h2
        exact ⟨q, rest', h6, (noConfig_grown h7).mpr h3, h4⟩
      · rename_i id e hq
        rw [hq] at hph
        obtain ⟨p, rest, h2, h3, h4⟩ := hph
        obtain ⟨q, rest', h6, h7⟩ := hg _ _ _ h2
        exact ⟨q, rest', h6, (noConfig_grown h7).mpr h3, h4⟩
      · trivial
    · intro id hd
      have hd : r.1.problems[id]? = some none := hd
      have hstep : Store.step s.store (.add ps) = some (r.1, .added s.store.nextChan r.2) := by
        simp only [Store.step, h1, Option.map_some]
      have hnew := (C11_add_visible _ _ _ ht ps r.2 hstep)
      refine (h.weaken _).2 id ?_
      unfold add at h1
      split at h1
      · cases h1
      · split at h1
        · cases h1
        · rename_i s1 ids1 h2
          cases h1
          have he := (addProblems_spec (inv_run ht).w h2).2.1
          cases ho : s.store.problems[id]? with
          | some o =>
            cases o with
            | none => exact ho
            | some p =>
              obtain ⟨q, hq, _⟩ := he.live id p ho
              have hq' : some (some q) = some none := by rw [← hq]; exact hd
              cases hq'
          | none =>
            have h3 : s.store.problems.length ≤ id := List.getElem?_eq_none_iff.mp ho
            have h4 : id < s1.problems.length := (List.getElem?_eq_some_iff.mp hd).1
            obtain ⟨q, hq⟩ := he.new id h3 h4
            have hq' : some (some q) = some none := by rw [← hq]; exact hd
            cases hq'
  | reload c =>
    cases ha
    exact ⟨h.store, h.phase, (h.weaken _).1, (h.weaken _).2, h.clock, h.running⟩
  | touch f =>
    cases ha
    refine ⟨h.store, h.phase, fun _ => ⟨s, f, by simp⟩, (h.weaken _).2, ⟨?_, ?_⟩, h.running⟩
    · intro t ht
      exact Nat.lt_succ_of_lt (h.clock.1 t ht)
    · intro t ht
      obtain ⟨_, _, h2⟩ := Option.map_eq_some_iff.mp ht
      subst h2
      exact Nat.lt_succ_self _
  | input w i =>
    have hst := stepped env su w s i
    simp only [act, Option.some.injEq] at ha
    rw [ha] at hst
    have hph := h.phase
    cases hst with
    | same => exact ⟨h.store, h.phase, (h.weaken _).1, (h.weaken _).2, h.clock, h.running⟩
    | look _ =>
      refine ⟨by rw [look_store]; exact h.store, (look_ok env su hsu _).1, ?_, ?_, ?_, by rw [look_store]; exact h.running⟩
      · rw [look_last, look_mtime]; exact (h.weaken _).1
      · rw [look_store]; exact (h.weaken _).2
      · rw [look_last, look_mtime, look_clock]; exact h.clock
    | shutdown _ => exact ⟨h.store, trivial, (h.weaken _).1, (h.weaken _).2, h.clock, h.running⟩
    | failed _ _ _ => exact ⟨h.store, trivial, (h.weaken _).1, (h.weaken _).2, h.clock, h.running⟩
    | toggleFailed _ _ => exact ⟨h.store, trivial, (h.weaken _).1, (h.weaken _).2, h.clock, h.running⟩
    | writeFailed _ _ => exact ⟨h.store, trivial, (h.weaken _).1, (h.weaken _).2, h.clock, h.running⟩
    | eofCrash _ => exact ⟨h.store, trivial, (h.weaken _).1, (h.weaken _).2, h.clock, h.running⟩
    | chosen h1 h2 =>
      rename_i id e e' l b
      refine ⟨h.store, ?_, (h.weaken _).1, (h.weaken _).2, h.clock, h.running⟩
      unfold PhaseOk at hph ⊢
      rw [h1] at hph
      obtain ⟨p, rest, h3, h4, h5⟩ := hph
      obtain ⟨e2, b2, h6, h7⟩ := toggleAll_ok hP (splitChar ',' (trim l)) h5
      have h2' : toggleAll su (splitChar ',' (trim l)) e = some (e', b) := h2
      rw [h6] at h2'
      cases h2'
      cases b <;> exact ⟨p, rest, h3, h4, h7⟩
    | apply h1 h2 h3 h4 h5 h6 =>
      obtain ⟨p, hp⟩ := (asked_live hph).1 _ _ h1
      subst h6
      exact finish_inv hsu h hp (Or.inl ⟨_, _, _, _, h1, rfl, h2, h3, _, h4, h5⟩) rfl rfl (written_clock _)
    | confirmed h1 h2 =>
      obtain ⟨p, hp⟩ := (asked_live hph).2.2 _ _ h1
      subst h2
      exact finish_inv hsu h hp (Or.inr (Or.inl ⟨_, _, h1, rfl⟩)) rfl rfl (written_clock _)
    | retry h1 h2 =>
      obtain ⟨p, hp⟩ := (asked_live hph).1 _ _ h1
      exact finish_inv hsu h hp (Or.inr (Or.inr ⟨⟨_, _, h1, rfl, h2⟩, h.touched h2⟩)) rfl rfl ⟨h.clock.2, h.clock.2⟩

theorem exec_inv {env : Env F E C} {su : Setup E} (hw : su.Works) {s : State F E C} {tr : List (State F E C × Act F C)}
    (h : Exec env su s tr) : ∃ P : E → Prop, (∃ e, su.start = some e ∧ P e) ∧
      (∀ e a, P e → su.builtIn a = true → ∃ e', su.toggle a e = some e' ∧ P e') ∧ Inv env P s tr := by
  obtain ⟨P, h1, h2⟩ := hw
  refine ⟨P, h1, h2, ?_⟩
  induction h with
  | init file c =>
    refine ⟨⟨_, .init⟩, trivial, fun hl => absurd rfl hl, ?_, ⟨?_, ?_⟩, rfl⟩
    · intro id hd
      simp [Dead, State.new] at hd
    · intro t ht
      obtain ⟨_, _, h3⟩ := Option.map_eq_some_iff.mp ht
      subst h3; exact Nat.zero_lt_one
    · intro t ht
      obtain ⟨_, _, h3⟩ := Option.map_eq_some_iff.mp ht
      subst h3; exact Nat.zero_lt_one
  | step a _ _ ha ih => exact act_inv h1 h2 ih ha

/-! ## Lists of names -/

theorem dropWhile_blank {a : Str} (ha : ∀ c ∈ a, isSpace c = true) (s : Str) : (a ++ s).dropWhile isSpace = s.dropWhile isSpace := by
  induction a with
  | nil => rfl
  | cons c cs ih =>
    rw [List.cons_append, List.dropWhile_cons_of_pos (ha c (by simp))]
    exact ih (fun d hd => ha d (by simp [hd]))

theorem trim_pad {a b : Str} (ha : ∀ c ∈ a, isSpace c = true) (hb : ∀ c ∈ b, isSpace c = true) (s : Str) :
    trim (a ++ s ++ b) = trim s := by
  have hb' : ∀ c ∈ b.reverse, isSpace c = true := by intro c hc; exact hb c (by simpa using hc)
  unfold trim
  rw [List.append_assoc, dropWhile_blank ha]
  congr 1
  induction s with
  | nil =>
    have := dropWhile_blank hb []
    simp only [List.append_nil, List.dropWhile_nil] at this
    simp [this]
  | cons c cs ih =>
    cases hc : isSpace c with
    | true =>
      rw [List.cons_append, List.dropWhile_cons_of_pos hc, List.dropWhile_cons_of_pos hc]
      exact ih
    | false =>
      rw [List.cons_append, List.dropWhile_cons_of_neg (by simp [hc]), List.dropWhile_cons_of_neg (by simp [hc]),
        ← List.cons_append, List.reverse_append, dropWhile_blank hb']

theorem splitChar_ne (sep : Char) (s : Str) : splitChar sep s ≠ [] := by
  cases s with
  | nil => simp [splitChar]
  | cons c cs =>
    simp only [splitChar]
    split
    · simp
    · split <;> simp

theorem splitChar_left {sep : Char} {a : Str} (ha : sep ∉ a) {s h : Str} {t : List Str} (hs : splitChar sep s = h :: t) :
    splitChar sep (a ++ s) = (a ++ h) :: t := by
  induction a with
  | nil => exact hs
  | cons c cs ih =>
    have h1 := ih (fun hm => ha (by simp [hm]))
    have h2 : c ≠ sep := fun he => ha (by simp [he])
    simp only [List.cons_append, splitChar, if_neg h2, h1]

theorem splitChar_right {sep : Char} {b : Str} (hb : sep ∉ b) (s : Str) :
    ∃ init last, splitChar sep s = init ++ [last] ∧ splitChar sep (s ++ b) = init ++ [last ++ b] := by
  induction s with
  | nil =>
    refine ⟨[], [], rfl, ?_⟩
    have := splitChar_left hb (s := []) (h := []) (t := []) rfl
    simpa using this
  | cons c cs ih =>
    obtain ⟨init, last, h1, h2⟩ := ih
    by_cases hc : c = sep
    · refine ⟨[] :: init, last, ?_, ?_⟩
      · simp only [splitChar, if_pos hc, h1, List.cons_append]
      · simp only [List.cons_append, splitChar, if_pos hc, h2]
    · cases init with
      | nil =>
        refine ⟨[], c :: last, ?_, ?_⟩
        · simp only [splitChar, if_neg hc, h1, List.nil_append]
        · simp only [List.cons_append, splitChar, if_neg hc, h2, List.nil_append]
      | cons x xs =>
        refine ⟨(c :: x) :: xs, last, ?_, ?_⟩
        · simp only [splitChar, if_neg hc, h1, List.cons_append]
        · simp only [List.cons_append, splitChar, if_neg hc, h2]

theorem blank_comma {a : Str} (ha : ∀ c ∈ a, isSpace c = true) : ',' ∉ a := by
  intro h
  have := ha ',' h
  exact absurd this (by decide)

/-- Blanks around the line do not matter. -/
theorem split_trim (l : Str) : (splitChar ',' (trim l)).map trim = (splitChar ',' l).map trim := by
  obtain ⟨a, b, h1, ha, hb⟩ := trim_spec l
  generalize trim l = s at h1
  subst h1
  have e1 : (splitChar ',' (a ++ s ++ b)).map trim = (splitChar ',' (a ++ s)).map trim := by
    obtain ⟨init, last, h2, h3⟩ := splitChar_right (blank_comma hb) (a ++ s)
    rw [h2, h3, List.map_append, List.map_append]
    congr 1
    have := trim_pad (a := []) (by simp) hb last
    simp only [List.nil_append] at this
    simp [this]
  rw [e1]
  cases hs : splitChar ',' s with
  | nil => exact absurd hs (splitChar_ne _ _)
  | cons h t =>
    rw [splitChar_left (blank_comma ha) hs]
    have := trim_pad ha (b := []) (by simp) h
    simp only [List.append_nil] at this
    simp [this]

theorem splitChar_join (parts : List Str) (hne : parts ≠ []) (h : ∀ p ∈ parts, ',' ∉ p) :
    splitChar ',' (joinWith [','] parts) = parts := by
  induction parts with
  | nil => exact absurd rfl hne
  | cons p ps ih =>
    cases ps with
    | nil =>
      have := splitChar_left (h p (by simp)) (s := []) (h := []) (t := []) rfl
      simpa [joinWith] using this
    | cons q qs =>
      have h1 := ih (by simp) (fun x hx => h x (by simp [hx]))
      have h2 : splitChar ',' (',' :: joinWith [','] (q :: qs)) = [] :: (q :: qs) := by
        simp only [splitChar, if_true, h1]
      have h3 := splitChar_left (h p (by simp)) h2
      simp only [joinWith, List.append_assoc, List.singleton_append]
      simpa using h3

theorem trim_clean {n : Str} (h : Clean n) : trim n = n := by
  by_cases hn : n = []
  · subst hn; rfl
  · have := trim_eq (a := []) (b := []) (s := n) (by simp) (by simp)
      (fun c hc => by simpa using fun h1 => h.2.1 c hc ((isSpace_iff c).mp h1))
      (fun c hc => by simpa using fun h1 => h.2.2 c hc ((isSpace_iff c).mp h1)) hn
    simpa using this

theorem toggleAll_congr (su : Setup E) {ps qs : List Str} (h : ps.map trim = qs.map trim) (e : E) :
    toggleAll su ps e = toggleAll su qs e := by
  induction ps generalizing qs e with
  | nil =>
    cases qs with
    | nil => rfl
    | cons q qs => simp at h
  | cons p ps ih =>
    cases qs with
    | nil => simp at h
    | cons q qs =>
      simp only [List.map_cons, List.cons.injEq] at h
      unfold toggleAll
      rw [h.1]
      have := ih h.2
      split
      · exact this e
      · split
        · congr 1
          funext x
          exact this x
        · rw [this e]

theorem choose_lists (su : Setup E) {l : Str} {ns : List Str} (h : Lists l ns) (e : E) : choose su l e = toggleAll su ns e := by
  obtain ⟨ps, rfl, rfl, h1⟩ := h
  unfold choose
  have hparts : (ps.map Prod.snd).map trim = (ps.map Prod.fst).map trim ∧ ∀ p ∈ ps.map Prod.snd, ',' ∉ p := by
    clear e
    induction ps with
    | nil => simp
    | cons x xs ih =>
      obtain ⟨i1, i2⟩ := ih (fun n hn => h1 n (by simp [hn]))
      obtain ⟨hc, a, b, hx, ha, hb⟩ := h1 x (by simp)
      have ha' : ∀ c ∈ a, isSpace c = true := fun c hc => (isSpace_iff c).mpr (ha c hc)
      have hb' : ∀ c ∈ b, isSpace c = true := fun c hc => (isSpace_iff c).mpr (hb c hc)
      refine ⟨by simp only [List.map_cons, i1, hx, trim_pad ha' hb'], ?_⟩
      intro p hp
      rw [List.map_cons] at hp
      rcases List.mem_cons.mp hp with rfl | hp
      · rw [hx]
        simp only [List.mem_append, not_or]
        exact ⟨⟨blank_comma ha', hc.1⟩, blank_comma hb'⟩
      · exact i2 p hp
  by_cases hne : ps = []
  · subst hne
    rfl
  · refine toggleAll_congr su ?_ e
    rw [split_trim, splitChar_join _ (by simpa using hne) hparts.2, hparts.1]

theorem lists_clean {l : Str} {ns : List Str} (h : Lists l ns) : ∀ n ∈ ns, Clean n := by
  obtain ⟨ps, rfl, _, h1⟩ := h
  intro n hn
  obtain ⟨x, hx, rfl⟩ := List.mem_map.mp hn
  exact (h1 x hx).1

/-! ## The real first config file -/

open Cackle.Toml Cackle.Editor Cackle.Config

/-- The document has a table `common` in which the built-in APIs, if listed, are a list. -/
def Shape (doc : Entries) : Prop :=
  ∃ t : Entries, doc.get? (str! "common") = some (.table t) ∧ (t.get? (str! "import_std") = none ∨ ∃ a, t.get? (str! "import_std") = some (.array a))

theorem toggle_shape {doc : Entries} (h : Shape doc) (api : Str) : ∃ doc', toggleStdImport api doc = some doc' ∧ Shape doc' := by
  obtain ⟨t, h1, h2⟩ := h
  have : ∃ a, (t.get? (str! "import_std")).getD (.array []) = .array a := by
    rcases h2 with h2 | ⟨a, h2⟩
    · exact ⟨[], by rw [h2]; rfl⟩
    · exact ⟨a, by rw [h2]; rfl⟩
  obtain ⟨a, ha⟩ := this
  refine ⟨_, by simp only [toggleStdImport, withTable, h1, Option.getD_some, ha, Option.map_some]; rfl, ?_⟩
  refine ⟨_, by rw [AMap.get?_insert, if_pos rfl], Or.inr ⟨_, by rw [AMap.get?_insert, if_pos rfl]⟩⟩

/-- The first document. -/
def firstDoc (b : Bool) : Entries :=
  [(str! "common", .table [(str! "version", .int 3)]),
   (str! "sandbox", .table [(str! "kind", .str (if b then str! "Bubblewrap" else str! "Disabled"))])]

theorem setup_start (b : Bool) : (setup b).start = some (firstDoc b) := by cases b <;> rfl

theorem firstDoc_shape (b : Bool) : Shape (firstDoc b) := by
  cases b <;> exact ⟨_, rfl, Or.inl rfl⟩

theorem setup_works (b : Bool) : (setup b).Works :=
  ⟨Shape, ⟨_, setup_start b, firstDoc_shape b⟩, fun _ a he _ => toggle_shape he a⟩

/-- The config that the first document stands for. -/
def firstRaw (b : Bool) (imports : List Str) : Raw :=
  { common := { version := 3, importStd := imports }, sandbox := { kind := some (if b then .bubblewrap else .disabled) } }

theorem firstDoc_read (b : Bool) (k : Nat) : readDoc k (firstDoc b) = some (firstRaw b []) := by
  cases b <;> rfl

/-- The names that switch something. -/
def known (a : Str) : Bool := (builtIns.get? a).isSome

theorem toggleAll_real (b : Bool) (k : Nat) (ns : List Str) (hc : ∀ n ∈ ns, Clean n) {doc : Entries} {imports : List Str}
    (hs : Shape doc) (hr : readDoc k doc = some (firstRaw b imports)) (hn : imports.Nodup) :
    ∃ doc' imports', toggleAll (setup b) ns doc = some (doc', ns.all (fun n => n.isEmpty || known n)) ∧ Shape doc' ∧
      readDoc k doc' = some (firstRaw b imports') ∧ imports'.Nodup ∧
      (∀ a, imports'.count a % 2 = (imports.count a + if known a then ns.count a else 0) % 2) ∧
      ((∀ n ∈ ns, known n = true ∧ n ∉ imports) → ns.Nodup → imports' = imports ++ ns) := by
  induction ns generalizing doc imports with
  | nil => exact ⟨doc, imports, rfl, hs, hr, hn, by simp, by simp⟩
  | cons n ns ih =>
    have hcn : trim n = n := trim_clean (hc n (by simp))
    have hc' : ∀ m ∈ ns, Clean m := fun m hm => hc m (by simp [hm])
    have hk0 : known ([] : Str) = false := by decide
    unfold toggleAll
    rw [hcn]
    by_cases hn0 : n = []
    · subst hn0
      rw [if_pos rfl]
      obtain ⟨d, i, h1, h2, h3, h4, h5, h6⟩ := ih hc' hs hr hn
      refine ⟨d, i, by simpa using h1, h2, h3, h4, ?_, ?_⟩
      · intro a
        rw [h5 a]
        by_cases ha : a = []
        · subst ha; simp [hk0]
        · rw [List.count_cons_of_ne (Ne.symm ha)]
      · intro hk _
        have := (hk [] (by simp)).1
        rw [hk0] at this; cases this
    · rw [if_neg hn0]
      cases hk : known n with
      | true =>
        have hb : (setup b).builtIn n = true := hk
        obtain ⟨d1, g1, g2⟩ := toggle_shape hs n
        have g3 : readDoc k d1 = some (firstRaw b (if n ∈ imports then imports.erase n else imports ++ [n])) :=
          readDoc_toggle hr g1
        have hn1 : (if n ∈ imports then imports.erase n else imports ++ [n]).Nodup := by
          split
          · exact hn.sublist List.erase_sublist
          · rename_i hm
            rw [List.nodup_append]
            refine ⟨hn, by simp, ?_⟩
            intro a h1 c h2 hac
            simp only [List.mem_singleton] at h2
            subst h2 hac
            exact hm h1
        obtain ⟨d, i, h1, h2, h3, h4, h5, h6⟩ := ih hc' g2 g3 hn1
        refine ⟨d, i, ?_, h2, h3, h4, ?_, ?_⟩
        · rw [if_pos hb]
          have : (setup b).toggle n doc = some d1 := g1
          rw [this, Option.bind_some, h1]
          simp [hk]
        · intro a
          rw [h5 a]
          by_cases ha : a = n
          · subst ha
            rw [hk, if_pos rfl, if_pos rfl, List.count_cons_self]
            by_cases hm : a ∈ imports
            · rw [if_pos hm, List.count_erase_self]
              have := List.count_pos_iff.mpr hm
              omega
            · rw [if_neg hm, List.count_append, List.count_singleton_self]
              omega
          · rw [List.count_cons_of_ne (Ne.symm ha)]
            by_cases hm : n ∈ imports
            · rw [if_pos hm, List.count_erase_of_ne ha]
            · rw [if_neg hm, List.count_append, List.count_singleton]
              simp [Ne.symm ha]
        · intro hall hnd
          rw [List.nodup_cons] at hnd
          have hm : n ∉ imports := (hall n (by simp)).2
          have := h6 (by
            intro m hm'
            refine ⟨(hall m (by simp [hm'])).1, ?_⟩
            rw [if_neg hm, List.mem_append, not_or]
            refine ⟨(hall m (by simp [hm'])).2, ?_⟩
            simp only [List.mem_singleton]
            rintro rfl
            exact hnd.1 hm') hnd.2
          rw [this]
          rw [if_neg hm]
          simp
      | false =>
        have hb : ¬ (setup b).builtIn n = true := by
          show ¬ known n = true
          rw [hk]; simp
        obtain ⟨d, i, h1, h2, h3, h4, h5, h6⟩ := ih hc' hs hr hn
        refine ⟨d, i, ?_, h2, h3, h4, ?_, ?_⟩
        · rw [if_neg hb, h1]
          simp [hk, hn0]
        · intro a
          rw [h5 a]
          by_cases ha : a = n
          · subst ha; simp [hk]
          · rw [List.count_cons_of_ne (Ne.symm ha)]
        · intro hall _
          have := (hall n (by simp)).1
          rw [hk] at this; cases this

end Cackle.Basic
