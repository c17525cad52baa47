import Verif.Props.UiReach

/-!
# C136: comments that were entered before can be recalled
-/

namespace Cackle.Ui
open Cackle Store Perm

variable {F E C : Type} [DecidableEq F]

/-! ## What users expect -/

/-- The comment that is entered by this: Enter is pressed in the comment input, and the text is not empty. -/
def enteredBy (y : Sys F C × Act F C) : Option Str :=
  match y.2 with
  | .iter _ (.key .enter) =>
    if y.1.started && !y.1.ended && !y.1.error then
      match y.1.ui.modes.head? with
      | some (.setComment input) => if input = [] then none else some input
      | _ => none
    else none
  | _ => none

/-- All comments that were entered so far, the latest first. -/
def entered (tr : List (Sys F C × Act F C)) : List Str := tr.filterMap enteredBy

/-! ## The history -/

theorem eraseDups_filter (p : Str → Bool) : ∀ (n : Nat) (l : List Str), l.length ≤ n → (l.filter p).eraseDups = l.eraseDups.filter p
  | _, [], _ => by simp
  | 0, a :: l, h => by simp at h
  | n + 1, a :: l, h => by
    have hlen : l.length ≤ n := by simpa using h
    have h1 := eraseDups_filter (fun b => !b == a) n l hlen
    have h2 := eraseDups_filter p n l hlen
    have hlen2 : (l.filter (fun b => !b == a)).length ≤ n := Nat.le_trans (List.length_filter_le _ _) hlen
    by_cases hp : p a = true
    · rw [List.filter_cons_of_pos hp, List.eraseDups_cons, List.eraseDups_cons, List.filter_cons_of_pos hp, List.filter_filter]
      congr 1
      rw [← eraseDups_filter p n _ hlen2, List.filter_filter]
      congr 2
      funext b
      exact Bool.and_comm _ _
    · rw [List.filter_cons_of_neg hp, List.eraseDups_cons, List.filter_cons_of_neg hp, h2,
        ← eraseDups_filter p n _ hlen2, List.filter_filter, ← h2]
      congr 1
      refine List.filter_congr ?_
      intro b _
      by_cases hb : b = a
      · subst hb
        simp [hp]
      · simp [hb]

theorem eraseDups_cons_filter (a : Str) (l : List Str) : (a :: l).eraseDups = a :: l.eraseDups.filter (fun b => b ≠ a) := by
  rw [List.eraseDups_cons, eraseDups_filter _ l.length l (Nat.le_refl _)]
  congr 2
  funext b
  by_cases h : b = a <;> simp [h]

theorem applySelected_previous (env : Env F E C) (w : Bool) (s : State F C) {r : State F C × Bool}
    (h : applySelected env w s = some r) : r.1.previous = s.previous := by
  unfold applySelected at h
  repeat' split at h
  all_goals first
    | (cases h; done)
    | (cases h; rfl)
    | (obtain ⟨st, _, rfl⟩ := Option.map_eq_some_iff.mp h; rfl)

theorem acceptAll_previous (env : Env F E C) (w : Bool) (s : State F C) {r : State F C × Bool}
    (h : acceptAll env w s = some r) : r.1.previous = s.previous := by
  unfold acceptAll at h
  repeat' split at h
  all_goals first
    | (cases h; done)
    | (cases h; rfl)

theorem acceptKey_previous (env : Env F E C) (w : Bool) (s : State F C) {r : State F C × Bool}
    (h : acceptKey env w s = some r) : r.1.previous = s.previous := by
  unfold acceptKey at h
  split at h
  · cases h
  · rename_i h1
    cases h
    have h2 := applySelected_previous env w s h1
    exact h2
  · rename_i h1
    cases h
    have h2 := applySelected_previous env w s h1
    exact h2

theorem confirmKey_previous (env : Env F E C) (w : Bool) (s : State F C) {r : State F C × Bool}
    (h : confirmKey env w s = some r) : r.1.previous = s.previous := by
  unfold confirmKey at h
  split at h
  · cases h
  · rename_i h1
    cases h
    have h2 := acceptAll_previous env w _ h1
    exact h2
  · rename_i h1
    cases h
    have h2 := acceptAll_previous env w _ h1
    exact h2

theorem detailsKey_previous (s : State F C) {r : State F C × Bool} (h : detailsKey s = some r) : r.1.previous = s.previous := by
  unfold detailsKey at h
  split at h
  · cases h; rfl
  · obtain ⟨ms, _, rfl⟩ := Option.map_eq_some_iff.mp h; rfl

theorem backtraceKey_previous (env : Env F E C) (s : State F C) : (backtraceKey env s).1.previous = s.previous := by
  unfold backtraceKey
  split
  · rfl
  · split <;> rfl

theorem generalKey_previous (s : State F C) (m : Mode) (k : Key) : (generalKey s m k).previous = s.previous := by
  unfold generalKey
  repeat' split
  all_goals rfl

/-- Which comment a key enters. -/
def enters (s : State F C) (k : Key) : Option Str :=
  match k, s.modes.head? with
  | .enter, some (.setComment input) => if input = [] then none else some input
  | _, _ => none

/-- The history after a comment. -/
def remember (l : List Str) (input : Str) : List Str :=
  if l.getLast? = some input then l else l.filter (fun p => p ≠ input) ++ [input]

/-- What the keys do to the history. -/
theorem handleKey_previous (env : Env F E C) (w : Bool) {s : State F C} {k : Key} {r : State F C × Bool}
    (h : handleKey env w s k = some r) :
    r.1.previous = match enters s k with
      | some input => remember s.previous input
      | none => s.previous := by
  by_cases hc : ∃ input ms, s.modes = .setComment input :: ms
  · obtain ⟨input, ms, hm⟩ := hc
    have hk : r = (commentKey env s input k, false) := by
      unfold handleKey at h
      rw [hm] at h
      cases h
      rfl
    subst hk
    unfold enters
    rw [hm]
    cases k with
    | enter =>
      show (setComment s input).previous = _
      unfold setComment remember
      by_cases hi : input = []
      · simp [hi]
      · dsimp only [List.head?_cons]
        rw [if_neg hi, if_neg hi]
        dsimp only
        split <;> rfl
    | _ => rfl
  · have he : enters s k = none := by
      unfold enters
      split
      · rename_i h1
        obtain ⟨t, ht⟩ := head_cons h1
        exact absurd ⟨_, t, ht⟩ hc
      · rfl
    rw [he]
    dsimp only
    unfold handleKey at h
    split at h
    · cases h; rfl
    · rename_i m ms hm
      split at h
      · exact absurd ⟨_, _, hm⟩ hc
      · split at h
        · cases h; rfl
        · split at h
          all_goals first
            | exact detailsKey_previous s h
            | exact acceptKey_previous env w s h
            | exact confirmKey_previous env w s h
            | (obtain ⟨i, _, rfl⟩ := Option.map_eq_some_iff.mp h; rfl)
            | (cases h; rfl)
            | (cases h; exact generalKey_previous s _ k)
            | (cases h; exact backtraceKey_previous env s)
            | (split at h <;> (cases h; rfl))

/-- What an action does to the history. -/
theorem act_previous (env : Env F E C) {x x' : Sys F C} {a : Act F C} (h : act env x a = some x') :
    x'.ui.previous = match enteredBy (x, a) with
      | some input => remember x.ui.previous input
      | none => x.ui.previous := by
  have hsame : ∀ y : Sys F C × Act F C, enteredBy y = none → y = (x, a) → x'.ui.previous = x.ui.previous →
      x'.ui.previous = match enteredBy (x, a) with
      | some input => remember x.ui.previous input
      | none => x.ui.previous := by
    intro y h1 h2 h3
    rw [← h2, h1]
    exact h3
  have hq : (checkQuit x).ui.previous = x.ui.previous := by
    rcases checkQuit_ui_or x with h1 | h1 <;> rw [h1]
  cases a with
  | report ps => obtain ⟨r, _, rfl⟩ := Option.map_eq_some_iff.mp h; rfl
  | reload c => cases h; rfl
  | touch f => cases h; rfl
  | iter w i =>
    simp only [act, iterate] at h
    cases hen : x.ended with
    | true =>
      rw [hen, if_pos rfl] at h
      cases h
      refine hsame _ ?_ rfl rfl
      unfold enteredBy
      dsimp only
      split
      · simp [hen]
      · rfl
    | false =>
      rw [hen, if_neg (by simp)] at h
      cases hst : x.started with
      | false =>
        rw [hst, if_neg (by simp)] at h
        cases h
        refine hsame _ ?_ rfl ?_
        · unfold enteredBy
          dsimp only
          split
          · simp [hst]
          · rfl
        · cases i <;> rfl
      | true =>
        rw [hst, if_pos rfl] at h
        cases i with
        | nothing =>
          cases h
          refine hsame _ rfl rfl ?_
          rw [draw_ui, hq]
        | shutdown =>
          cases h
          refine hsame _ rfl rfl ?_
          show (draw (checkQuit x)).ui.previous = _
          rw [draw_ui, hq]
        | added =>
          simp only [receive] at h
          obtain ⟨r, hr, rfl⟩ := Option.map_eq_some_iff.mp h
          refine hsame _ rfl rfl ?_
          rw [draw_ui] at hr
          show r.1.previous = _
          rw [← hq]
          unfold problemsAdded at hr
          split at hr
          · exact acceptAll_previous env w _ hr
          · cases hr; rfl
        | key k =>
          simp only [receive, draw_error, checkQuit_error] at h
          cases her : x.error with
          | true =>
            rw [her, if_pos rfl] at h
            cases h
            refine hsame _ ?_ rfl ?_
            · unfold enteredBy
              dsimp only
              split
              · simp [her]
              · rfl
            · unfold dismiss
              dsimp only
              split <;> (rw [draw_ui]; exact hq)
          | false =>
            rw [her, if_neg (by simp)] at h
            obtain ⟨r, hr, rfl⟩ := Option.map_eq_some_iff.mp h
            rw [draw_ui] at hr
            have h1 := handleKey_previous env w hr
            rw [hq] at h1
            show r.1.previous = _
            rw [h1]
            have : enters (checkQuit x).ui k = enteredBy (x, .iter w (.key k)) := by
              unfold enters enteredBy
              rw [checkQuit_modes]
              cases k <;> try rfl
              dsimp only
              rw [hst, hen, her]
              cases x.ui.modes.head? with
              | none => rfl
              | some m => cases m <;> rfl
            rw [this]

theorem remember_reverse (es l : List Str) (input : Str) (h : l.reverse = es.eraseDups) :
    (remember l input).reverse = (input :: es).eraseDups := by
  rw [eraseDups_cons_filter, ← h]
  unfold remember
  split
  · rename_i hl
    obtain ⟨t, ht⟩ := head_cons (l := l.reverse) (a := input) (by rw [List.head?_reverse]; exact hl)
    rw [ht, List.filter_cons_of_neg (by simp)]
    congr 1
    cases es with
    | nil => rw [ht] at h; simp at h
    | cons e es =>
      rw [ht, eraseDups_cons_filter, List.cons.injEq] at h
      obtain ⟨rfl, h⟩ := h
      rw [h, List.filter_filter]
      simp
  · rw [List.reverse_append, List.reverse_singleton, List.singleton_append, List.filter_reverse]

/-- **C136, the history.** It has every comment that was entered once, in the order of their latest use. -/
theorem C136_history (env : Env F E C) (x : Sys F C) (tr : List (Sys F C × Act F C)) (h : Exec env x tr) :
    x.ui.previous.reverse = (entered tr).eraseDups := by
  induction h with
  | init => rfl
  | @step x x' tr a _ _ ha ih =>
    rw [act_previous env ha]
    cases he : enteredBy (x, a) with
    | none =>
      dsimp only
      rw [ih]
      unfold entered
      rw [List.filterMap_cons_none he]
    | some input =>
      dsimp only
      rw [remember_reverse (entered tr) _ input ih]
      unfold entered
      rw [List.filterMap_cons_some he]

/-! ## Going back and forth -/

/-- The position of the text in the history, as the keys see it. -/
def position (l : List Str) (input : Str) : Nat := l.findIdx (fun p => decide (p = input))

theorem position_getElem {l : List Str} (hn : l.Nodup) {i : Nat} {c : Str} (h : l[i]? = some c) : position l c = i := by
  obtain ⟨hi, hc⟩ := List.getElem?_eq_some_iff.mp h
  unfold position
  rw [List.findIdx_eq hi]
  refine ⟨by simp [hc], ?_⟩
  intro j hj
  simp only [decide_eq_false_iff_not]
  intro he
  exact List.pairwise_iff_getElem.mp hn j i (by omega) hi hj (by rw [he, hc])

/-- Up goes back by one. -/
theorem recall_up (l : List Str) (input : Str) : recall l .up input = (l[position l input - 1]?).getD [] := rfl

/-- Down goes forward by one. -/
theorem recall_down (l : List Str) (input : Str) : recall l .down input = (l[position l input + 1]?).getD [] := rfl

theorem press_recall {env : Env F E C} {w : Bool} {x : Sys F C} (hl : Listening x) {input : Str} {ms : List Mode} {k : Key}
    (hm : x.ui.modes = .setComment input :: ms) (hk : k = .up ∨ k = .down) :
    ∃ y, runActs env x (pressed w [k]) = some y ∧ Listening y ∧
      y.ui = { x.ui with modes := .setComment (recall x.ui.previous k input) :: ms } := by
  have ht : x.ui.modes.tail = ms := by rw [hm]; rfl
  refine press_key (env := env) (w := w) hl (by rw [hm]; simp) ?_
  unfold handleKey
  rw [hm]
  rcases hk with rfl | rfl <;> simp [ok, commentKey, ht]

theorem reach_back (env : Env F E C) (w : Bool) : ∀ (n : Nat) (x : Sys F C) (input : Str) (ms : List Mode) (c : Str) (t : Nat), Listening x →
    x.ui.modes = .setComment input :: ms → x.ui.previous.Nodup → x.ui.previous[t]? = some c → position x.ui.previous input = t + (n + 1) →
    ∃ keys y, (∀ k ∈ keys, k = .up ∨ k = .down) ∧ runActs env x (pressed w keys) = some y ∧ Listening y ∧
      y.ui = { x.ui with modes := .setComment c :: ms }
  | n, x, input, ms, c, t, hl, hm, hn, hc, hp => by
    obtain ⟨y, h1, h2, h3⟩ := press_recall (env := env) (w := w) hl hm (.inl rfl)
    rw [recall_up, hp] at h3
    cases n with
    | zero =>
      rw [show t + (0 + 1) - 1 = t by omega, hc] at h3
      exact ⟨_, y, by simp, h1, h2, h3⟩
    | succ n =>
      have hlt : t + (n + 1) < x.ui.previous.length := by
        have : position x.ui.previous input ≤ x.ui.previous.length := List.findIdx_le_length
        omega
      rw [show t + (n + 1 + 1) - 1 = t + (n + 1) by omega, List.getElem?_eq_getElem hlt] at h3
      have hpos := position_getElem hn (List.getElem?_eq_getElem hlt)
      obtain ⟨keys, z, hks, h4, h5, h6⟩ := reach_back env w n y _ ms c t h2 (by rw [h3]) (by rw [h3]; exact hn)
        (by rw [h3]; exact hc) (by rw [h3]; exact hpos)
      refine ⟨_, z, ?_, press_then h1 h4, h5, by rw [h6, h3]⟩
      intro k hk
      rcases List.mem_append.mp hk with hk | hk
      · simp only [List.mem_singleton] at hk
        simp [hk]
      · exact hks k hk

theorem reach_forth (env : Env F E C) (w : Bool) : ∀ (n : Nat) (x : Sys F C) (input : Str) (ms : List Mode) (c : Str) (t : Nat), Listening x →
    x.ui.modes = .setComment input :: ms → x.ui.previous.Nodup → x.ui.previous[t]? = some c → position x.ui.previous input + (n + 1) = t →
    ∃ keys y, (∀ k ∈ keys, k = .up ∨ k = .down) ∧ runActs env x (pressed w keys) = some y ∧ Listening y ∧
      y.ui = { x.ui with modes := .setComment c :: ms }
  | n, x, input, ms, c, t, hl, hm, hn, hc, hp => by
    obtain ⟨y, h1, h2, h3⟩ := press_recall (env := env) (w := w) hl hm (.inr rfl)
    rw [recall_down] at h3
    cases n with
    | zero =>
      rw [show position x.ui.previous input + 1 = t by omega, hc] at h3
      exact ⟨_, y, by simp, h1, h2, h3⟩
    | succ n =>
      have hlt : position x.ui.previous input + 1 < x.ui.previous.length := by
        have := (List.getElem?_eq_some_iff.mp hc).1
        omega
      rw [List.getElem?_eq_getElem hlt] at h3
      have hpos := position_getElem hn (List.getElem?_eq_getElem hlt)
      obtain ⟨keys, z, hks, h4, h5, h6⟩ := reach_forth env w n y _ ms c t h2 (by rw [h3]) (by rw [h3]; exact hn)
        (by rw [h3]; exact hc) (by rw [h3]; show position x.ui.previous _ + _ = _; rw [show (some x.ui.previous[position x.ui.previous input + 1]).getD [] = x.ui.previous[position x.ui.previous input + 1] from rfl, hpos]; omega)
      refine ⟨_, z, ?_, press_then h1 h4, h5, by rw [h6, h3]⟩
      intro k hk
      rcases List.mem_append.mp hk with hk | hk
      · simp only [List.mem_singleton] at hk
        simp [hk]
      · exact hks k hk

theorem eraseDups_nodup : ∀ (n : Nat) (l : List Str), l.length ≤ n → l.eraseDups.Nodup
  | _, [], _ => by simp
  | 0, a :: l, h => by simp at h
  | n + 1, a :: l, h => by
    rw [eraseDups_cons_filter, List.nodup_cons]
    exact ⟨by simp, (eraseDups_nodup n l (by simpa using h)).filter _⟩

/-- **C136.** Whenever the input for a comment is open, whatever text is in it, Up and Down lead to every comment that was entered before. -/
theorem C136_recall (env : Env F E C) (x : Sys F C) (tr : List (Sys F C × Act F C)) (h : Exec env x tr) (hl : Listening x)
    (input : Str) (ms : List Mode) (hm : x.ui.modes = .setComment input :: ms) (c : Str) (hc : c ∈ entered tr) (w : Bool) :
    ∃ keys y, (∀ k ∈ keys, k = .up ∨ k = .down) ∧ runActs env x (pressed w keys) = some y ∧ Listening y ∧
      y.ui = { x.ui with modes := .setComment c :: ms } := by
  have hh := C136_history env x tr h
  have hn : x.ui.previous.Nodup := by
    have h1 : x.ui.previous.reverse.Nodup := by
      rw [hh]
      exact eraseDups_nodup _ _ (Nat.le_refl _)
    exact (List.pairwise_reverse.mp h1).imp (fun hne => fun he => hne he.symm)
  have hmem : c ∈ x.ui.previous := by
    rw [← List.mem_reverse, hh, List.mem_eraseDups]
    exact hc
  obtain ⟨t, ht⟩ := List.mem_iff_getElem?.mp hmem
  rcases Nat.lt_trichotomy (position x.ui.previous input) t with hlt | heq | hgt
  · exact reach_forth env w (t - position x.ui.previous input - 1) x input ms c t hl hm hn ht (by omega)
  · have hlt : position x.ui.previous input < x.ui.previous.length := by
      rw [heq]
      exact (List.getElem?_eq_some_iff.mp ht).1
    have hin := List.findIdx_getElem (p := fun p => decide (p = input)) (xs := x.ui.previous) (w := hlt)
    have hci : c = input := by
      have h1 := (List.getElem?_eq_some_iff.mp ht).2
      rw [← h1, ← of_decide_eq_true hin]
      congr 1
      exact heq.symm
    refine ⟨[], x, by simp, rfl, hl, ?_⟩
    rw [hci, ← hm]
  · exact reach_back env w (position x.ui.previous input - t - 1) x input ms c t hl hm hn ht (by omega)

/-- The first Up in the empty input gives the latest comment. -/
theorem C136_latest (env : Env F E C) (x : Sys F C) (tr : List (Sys F C × Act F C)) (h : Exec env x tr) (hl : Listening x)
    (ms : List Mode) (hm : x.ui.modes = .setComment [] :: ms) (c : Str) (hc : (entered tr).head? = some c) (w : Bool) :
    ∃ y, runActs env x (pressed w [.up]) = some y ∧ Listening y ∧ y.ui = { x.ui with modes := .setComment c :: ms } := by
  obtain ⟨y, h1, h2, h3⟩ := press_recall (env := env) (w := w) hl hm (.inl rfl)
  refine ⟨y, h1, h2, ?_⟩
  rw [h3]
  have hh := C136_history env x tr h
  obtain ⟨es, hes⟩ := head_cons hc
  have hlast : x.ui.previous.getLast? = some c := by
    rw [← List.head?_reverse, hh, hes, eraseDups_cons_filter]
    rfl
  have hpos : position x.ui.previous [] = x.ui.previous.length := by
    unfold position
    rw [List.findIdx_eq_length]
    intro p hp
    simp only [decide_eq_false_iff_not]
    intro he
    have hpe : p ∈ entered tr := by
      rw [← List.mem_eraseDups, ← hh, List.mem_reverse]
      exact hp
    obtain ⟨z, _, hz⟩ := List.mem_filterMap.mp hpe
    subst he
    unfold enteredBy at hz
    split at hz
    · split at hz
      · split at hz
        · split at hz
          · cases hz
          · rename_i h1
            cases hz
            exact h1 rfl
        · cases hz
      · cases hz
    · cases hz
  rw [recall_up, hpos, ← List.getLast?_eq_getElem?, hlast]
  rfl

/-! Non-vacuity: two comments are entered (letters are typed one by one), and the first is recalled. -/

example : (demoRun (reported [macroA] ++ [press (.char 'f'), press (.char 'c'), press (.char 'x'), press .enter,
    press (.char 'c'), press (.char 'y'), press .enter, press (.char 'c'), press .up])).map
    (fun x => (x.ui.previous, x.ui.modes.head?)) = some ([str! "x", str! "xy"], some (.setComment (str! "x"))) := by decide

end Cackle.Ui
