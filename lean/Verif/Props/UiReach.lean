import Verif.Model.UsageList
import Verif.Props.ProblemsUi

/-!
# C135: everything can be reached with the keys
-/

namespace Cackle.Ui
open Cackle Store Perm

variable {F E C : Type} [DecidableEq F]

/-! ## What users expect -/

/-- A problem is about this place in the source code. -/
inductive IsPlace : Problem → Place → Prop
  | usage {u : ApiUsages} {a : ApiUsage} : a ∈ u.usages → IsPlace (.disallowedApiUsage u) (.usage a)
  | offTree {u : ApiUsages} {r : PkgId} {a : ApiUsage} : a ∈ u.usages → IsPlace (.offTreeApiUsage u r) (.usage a)
  | unsafeCode {c : CrateSel} {ls : List SourceLoc} {l : SourceLoc} : l ∈ ls → IsPlace (.disallowedUnsafe c ls) (.unsafeAt l)
  | externBlock {c : CrateSel} {ls : List SourceLoc} {l : SourceLoc} : l ∈ ls → IsPlace (.disallowedExtern c ls) (.externAt l)

/-- Keys pressed one after the other, while nothing else happens. -/
def pressed (w : Bool) (keys : List Key) : List (Act F C) := keys.map (fun k => .iter w (.key k))

/-! ## Lists -/

theorem runActs_append (env : Env F E C) (x : Sys F C) (as bs : List (Act F C)) :
    runActs env x (as ++ bs) = (runActs env x as).bind (fun y => runActs env y bs) := by
  induction as generalizing x with
  | nil => rfl
  | cons a as ih =>
    simp only [List.cons_append, runActs]
    split
    · cases act env x a with
      | none => rfl
      | some y => exact ih y
    · rfl

/-- A key that the screen accepts. -/
theorem press_key {env : Env F E C} {w : Bool} {x : Sys F C} (hl : Listening x) {s : State F C} {k : Key}
    (hm : x.ui.modes ≠ []) (hk : handleKey env w x.ui k = some (s, false)) :
    ∃ y, runActs env x (pressed w [k]) = some y ∧ Listening y ∧ y.ui = s := by
  have hq : checkQuit x = x := by
    rcases checkQuit_ui x with ⟨_, h⟩ | ⟨h, _⟩
    · exact h
    · exact absurd h hm
  refine ⟨{ draw x with ui := s, error := false, redraw := true }, ?_, ?_, rfl⟩
  · simp only [pressed, List.map_cons, List.map_nil, runActs, possible, if_true, act, iterate, hl.1, hl.2.1, Bool.false_eq_true, if_false,
      hq, receive, draw_error, hl.2.2, draw_ui, hk, Option.map_some, Option.bind_some]
  · exact ⟨by show (draw x).started = true; rw [draw_started]; exact hl.1,
      by show (draw x).ended = false; rw [draw_ended]; exact hl.2.1, rfl⟩

/-- Several keys. -/
theorem press_then {env : Env F E C} {w : Bool} {x y z : Sys F C} {ks ls : List Key}
    (h1 : runActs env x (pressed w ks) = some y) (h2 : runActs env y (pressed w ls) = some z) :
    runActs env x (pressed w (ks ++ ls)) = some z := by
  unfold pressed at h1 h2 ⊢
  rw [List.map_append, runActs_append, h1]
  exact h2

/-- In a list with `n` elements, pressing Down often enough leads to every element. `S i` is the state in which element `i` is selected. -/
theorem press_down {env : Env F E C} {w : Bool} (S : Nat → State F C) (n : Nat) (hn : 0 < n) (hm : ∀ i, (S i).modes ≠ [])
    (hd : ∀ i, handleKey env w (S i) .down = some (S ((i + n + 1) % n), false)) (k : Nat) :
    ∀ (x : Sys F C) (i : Nat), Listening x → x.ui = S i →
      ∃ y, runActs env x (pressed w (List.replicate (k + 1) .down)) = some y ∧ Listening y ∧ y.ui = S ((i + (k + 1)) % n) := by
  induction k with
  | zero =>
    intro x i hl hx
    obtain ⟨y, h1, h2, h3⟩ := press_key (env := env) (w := w) hl (k := .down) (by rw [hx]; exact hm i) (by rw [hx]; exact hd i)
    refine ⟨y, h1, h2, ?_⟩
    rw [h3]
    congr 1
    rw [show i + n + 1 = i + (0 + 1) + n by omega, Nat.add_mod_right]
  | succ k ih =>
    intro x i hl hx
    obtain ⟨y, h1, h2, h3⟩ := ih x i hl hx
    obtain ⟨z, h4, h5, h6⟩ := press_key (env := env) (w := w) h2 (k := .down) (by rw [h3]; exact hm _) (by rw [h3]; exact hd _)
    refine ⟨z, ?_, h5, ?_⟩
    · rw [List.replicate_succ' (n := k + 1)]
      exact press_then h1 h4
    · rw [h6]
      congr 1
      rw [show (i + (k + 1)) % n + n + 1 = ((i + (k + 1)) % n + 1) + n by omega, Nat.add_mod_right,
        show i + (k + 1 + 1) = (i + (k + 1)) + 1 by omega]
      rw [Nat.mod_add_mod]

theorem reach_index {env : Env F E C} {w : Bool} (S : Nat → State F C) (n : Nat) (hm : ∀ i, (S i).modes ≠ [])
    (hd : ∀ i, 0 < n → handleKey env w (S i) .down = some (S ((i + n + 1) % n), false)) (x : Sys F C) (i j : Nat) (hj : j < n)
    (hl : Listening x) (hx : x.ui = S i) :
    ∃ keys y, runActs env x (pressed w keys) = some y ∧ Listening y ∧ y.ui = S j := by
  have hn : 0 < n := by omega
  have hlt := Nat.mod_lt i hn
  obtain ⟨y, h1, h2, h3⟩ := press_down (env := env) (w := w) S n hn hm (fun i => hd i hn) (n - i % n + j - 1) x i hl hx
  refine ⟨_, y, h1, h2, ?_⟩
  rw [h3]
  congr 1
  have e : i + (n - i % n + j - 1 + 1) = j + (i / n + 1) * n := by
    have := Nat.div_add_mod i n
    rw [Nat.add_mul, Nat.mul_comm (i / n) n]
    omega
  rw [e, Nat.add_mul_mod_self_right, Nat.mod_eq_of_lt hj]

/-! ## Back to the list of problems -/

/-- Esc leads from every screen to the one below. -/
theorem esc_pops (env : Env F E C) (w : Bool) (s : State F C) (m m' : Mode) (ms : List Mode) (h : s.modes = m :: m' :: ms) :
    handleKey env w s .esc = some ({ s with modes := m' :: ms }, false) := by
  unfold handleKey
  rw [h]
  cases m <;> simp [commentKey, generalKey, ok, h]

theorem esc_back (env : Env F E C) (w : Bool) : ∀ (ms : List Mode) (x : Sys F C), Listening x → x.ui.modes = ms →
    ms.getLast? = some .selectProblem →
    ∃ y, runActs env x (pressed w (List.replicate (ms.length - 1) .esc)) = some y ∧ Listening y ∧
      y.ui = { x.ui with modes := [.selectProblem] }
  | [], _, _, _, hb => by cases hb
  | [m], x, hl, hm, hb => by
    simp only [List.getLast?_singleton, Option.some.injEq] at hb
    subst hb
    refine ⟨x, rfl, hl, ?_⟩
    rw [← hm]
  | m :: m' :: ms, x, hl, hm, hb => by
    obtain ⟨y, h1, h2, h3⟩ := press_key (env := env) (w := w) hl (by rw [hm]; simp) (esc_pops env w x.ui m m' ms hm)
    obtain ⟨z, h4, h5, h6⟩ := esc_back env w (m' :: ms) y h2 (by rw [h3]) (by rw [← hb]; simp)
    refine ⟨z, ?_, h5, ?_⟩
    · have := press_then h1 h4
      simpa [List.replicate_succ] using this
    · rw [h6, h3]

/-- A message about an error goes away with a key. -/
theorem error_gone (env : Env F E C) (w : Bool) (x : Sys F C) (hs : x.started = true) (he : x.ended = false) (hm : x.ui.modes ≠ []) :
    ∃ keys y, runActs env x (pressed w keys) = some y ∧ Listening y ∧ y.ui = x.ui := by
  cases herr : x.error with
  | false => exact ⟨[], x, rfl, ⟨hs, he, herr⟩, rfl⟩
  | true =>
    have hq : checkQuit x = x := by
      rcases checkQuit_ui x with ⟨_, h⟩ | ⟨h, _⟩
      · exact h
      · exact absurd h hm
    refine ⟨[.esc], dismiss (draw x) .esc, ?_, ⟨?_, ?_, rfl⟩, ?_⟩
    · simp only [pressed, List.map_cons, List.map_nil, runActs, possible, if_true, act, iterate, hs, he, Bool.false_eq_true, if_false,
        hq, receive, draw_error, herr, Option.bind_some]
    · show (draw x).started = true
      rw [draw_started, hs]
    · show (draw x).ended = false
      rw [draw_ended, he]
    · unfold dismiss
      dsimp only
      rw [if_neg (by decide), draw_ui]

/-- **C92, keys while an error is shown.** Every key removes the message and does nothing else, except that `q` makes everybody who is
waiting give up; cargo is not stopped, and the screen stays. -/
theorem C92_error_key (env : Env F E C) (x : Sys F C) (hs : x.started = true) (he : x.ended = false) (herr : x.error = true)
    (hm : x.ui.modes ≠ []) (w : Bool) (k : Key) :
    ∃ y, act env x (.iter w (.key k)) = some y ∧ y.error = false ∧ y.killed = x.killed ∧ y.ended = false ∧
      (k ≠ .char 'q' → y.ui = x.ui) ∧ (k = .char 'q' → y.ui = { x.ui with store := abort x.ui.store } ∧ y.ui.store.aborted = true) := by
  have hq : checkQuit x = x := by
    rcases checkQuit_ui x with ⟨_, h⟩ | ⟨h, _⟩
    · exact h
    · exact absurd h hm
  refine ⟨dismiss (draw x) k, ?_, rfl, ?_, ?_, ?_, ?_⟩
  · simp only [act, iterate, hs, he, Bool.false_eq_true, if_false, if_true, hq, receive, draw_error, herr]
  · show (draw x).killed = x.killed
    rw [draw_killed]
  · show (draw x).ended = false
    rw [draw_ended, he]
  · intro hk
    unfold dismiss
    dsimp only
    rw [if_neg hk, draw_ui]
  · intro hk
    unfold dismiss
    dsimp only
    rw [if_pos hk, draw_ui]
    exact ⟨rfl, rfl⟩

example : (demoRun errorShown).map (fun x => (x.started, x.ended, x.error, x.ui.modes)) =
    some (true, false, true, [.selectEdit, .selectProblem]) := by decide

/-- From every screen, every problem in the list can be selected. -/
theorem C135_problem (env : Env F E C) (hs : env.Sane) (x : Sys F C) (tr : List (Sys F C × Act F C)) (h : Exec env x tr)
    (hst : x.started = true) (hen : x.ended = false) (hm : x.ui.modes ≠ []) (w : Bool) (i : Nat) (id : Nat) (p : Problem)
    (hp : (live x.ui.store)[i]? = some (id, p)) :
    ∃ keys y, runActs env x (pressed w keys) = some y ∧ Listening y ∧
      y.ui = { x.ui with modes := [.selectProblem], problemIndex := i } := by
  have hbot : x.ui.modes.getLast? = some .selectProblem := by
    rcases (exec_inv hs h).bottom with h1 | h1
    · exact absurd h1 hm
    · exact h1
  obtain ⟨k1, y1, h1, l1, u1⟩ := error_gone env w x hst hen hm
  obtain ⟨y2, h2, l2, u2⟩ := esc_back env w x.ui.modes y1 l1 (by rw [u1]) hbot
  have hi : i < (live x.ui.store).length := (List.getElem?_eq_some_iff.mp hp).1
  obtain ⟨k3, y3, h3, l3, u3⟩ := reach_index (env := env) (w := w)
    (fun i => { x.ui with modes := [.selectProblem], problemIndex := i }) (live x.ui.store).length (fun _ => by simp)
    (by
      intro i hn
      show (updateCounter _ _ (storeLen x.ui.store)).map _ = _
      rw [storeLen_eq]
      simp only [updateCounter]
      rw [if_neg (show ¬ (live x.ui.store).length = 0 by omega)]
      rfl) y2 x.ui.problemIndex i hi l2 (by rw [u2, u1])
  exact ⟨_, y3, press_then h1 (press_then h2 h3), l3, u3⟩

theorem numUsages_eq (le : SourceLoc → SourceLoc → Bool) (p : Problem) : numUsages p = (usageList le p).length := by
  unfold usageList
  rw [List.length_mergeSort]
  cases p <;> simp [numUsages, unsortedPlaces]

theorem mem_usageList (le : SourceLoc → SourceLoc → Bool) (p : Problem) (q : Place) : q ∈ usageList le p ↔ IsPlace p q := by
  unfold usageList
  rw [List.mem_mergeSort]
  constructor
  · intro h
    cases p <;> simp only [unsortedPlaces, List.mem_map, List.not_mem_nil] at h
    all_goals
      obtain ⟨a, ha, rfl⟩ := h
      constructor
      exact ha
  · intro h
    cases h <;> simpa [unsortedPlaces]

/-- **C135, places.** Whatever has happened: as long as the user has not quit, there are keys that lead to the source code of every place
that a problem in the list is about. Nothing else changes; in particular no edit is applied. -/
theorem C135_place (le : SourceLoc → SourceLoc → Bool) (env : Env F E C) (hs : env.Sane) (x : Sys F C)
    (tr : List (Sys F C × Act F C)) (h : Exec env x tr) (hst : x.started = true) (hen : x.ended = false)
    (hm : x.ui.modes ≠ []) (w : Bool) (i : Nat) (id : Nat) (p : Problem) (hp : (live x.ui.store)[i]? = some (id, p))
    (q : Place) (hq : IsPlace p q) :
    ∃ keys y j, runActs env x (pressed w keys) = some y ∧ Listening y ∧
      y.ui = { x.ui with modes := [.selectUsage, .selectProblem], problemIndex := i, usageIndex := j } ∧ y.ui.place le = some q := by
  obtain ⟨k1, y1, h1, l1, u1⟩ := C135_problem env hs x tr h hst hen hm w i id p hp
  obtain ⟨j, hj⟩ := List.mem_iff_getElem?.mp ((mem_usageList le p q).mpr hq)
  have hlen : j < numUsages p := by
    rw [numUsages_eq le]
    exact (List.getElem?_eq_some_iff.mp hj).1
  have hsel : ∀ (m : List Mode) (j : Nat),
      State.selected { x.ui with modes := m, problemIndex := i, usageIndex := j } = some (id, p) := fun _ _ => hp
  have huse : ∀ (m : List Mode) (j : Nat),
      State.usages { x.ui with modes := m, problemIndex := i, usageIndex := j } = numUsages p := by
    intro m j
    unfold State.usages
    rw [hsel m j]
  obtain ⟨y2, h2, l2, u2⟩ := press_key (env := env) (w := w) l1 (k := .char 'd')
    (s := { x.ui with modes := [.selectUsage, .selectProblem], problemIndex := i, usageIndex := 0 })
    (by rw [u1]; simp) (by
      rw [u1]
      show detailsKey _ = _
      unfold detailsKey
      rw [huse [.selectProblem] x.ui.usageIndex, if_neg (by omega)]
      rfl)
  obtain ⟨k3, y3, h3, l3, u3⟩ := reach_index (env := env) (w := w)
    (fun j => { x.ui with modes := [.selectUsage, .selectProblem], problemIndex := i, usageIndex := j }) (numUsages p)
    (fun _ => by simp)
    (by
      intro j' hn
      show (updateCounter _ _ (State.usages _)).map _ = _
      rw [huse [.selectUsage, .selectProblem] j']
      simp only [updateCounter]
      rw [if_neg (by omega)]
      rfl) y2 0 j hlen l2 u2
  refine ⟨_, y3, j, press_then h1 (press_then h2 h3), l3, u3, ?_⟩
  rw [u3]
  unfold State.place
  rw [hsel]
  exact hj

/-- **C135, frames.** In the same way there are keys that lead to every frame of the backtrace of every place that has one. -/
theorem C135_frame (env : Env F E C) (hs : env.Sane) (x : Sys F C)
    (tr : List (Sys F C × Act F C)) (h : Exec env x tr) (hst : x.started = true) (hen : x.ended = false)
    (hm : x.ui.modes ≠ []) (w : Bool) (i : Nat) (id : Nat) (p : Problem) (hp : (live x.ui.store)[i]? = some (id, p))
    (j : Nat) (hlen : j < numUsages p) (n : Nat) (hfr : env.frames p j = some n) (f : Nat) (hf : f < n) :
    ∃ keys y, runActs env x (pressed w keys) = some y ∧ Listening y ∧
      y.ui = { x.ui with modes := [.backtrace n, .selectUsage, .selectProblem], problemIndex := i, usageIndex := j,
                          backtraceIndex := f } := by
  obtain ⟨k1, y1, h1, l1, u1⟩ := C135_problem env hs x tr h hst hen hm w i id p hp
  have hsel : ∀ (m : List Mode) (j : Nat),
      State.selected { x.ui with modes := m, problemIndex := i, usageIndex := j } = some (id, p) := fun _ _ => hp
  have huse : ∀ (m : List Mode) (j : Nat),
      State.usages { x.ui with modes := m, problemIndex := i, usageIndex := j } = numUsages p := by
    intro m j
    unfold State.usages
    rw [hsel m j]
  obtain ⟨y2, h2, l2, u2⟩ := press_key (env := env) (w := w) l1 (k := .char 'd')
    (s := { x.ui with modes := [.selectUsage, .selectProblem], problemIndex := i, usageIndex := 0 })
    (by rw [u1]; simp) (by
      rw [u1]
      show detailsKey _ = _
      unfold detailsKey
      rw [huse [.selectProblem] x.ui.usageIndex, if_neg (by omega)]
      rfl)
  obtain ⟨k3, y3, h3, l3, u3⟩ := reach_index (env := env) (w := w)
    (fun j => { x.ui with modes := [.selectUsage, .selectProblem], problemIndex := i, usageIndex := j }) (numUsages p)
    (fun _ => by simp)
    (by
      intro j' hn
      show (updateCounter _ _ (State.usages _)).map _ = _
      rw [huse [.selectUsage, .selectProblem] j']
      simp only [updateCounter]
      rw [if_neg (by omega)]
      rfl) y2 0 j hlen l2 u2
  obtain ⟨y4, h4, l4, u4⟩ := press_key (env := env) (w := w) l3 (k := .char 'b')
    (s := { x.ui with modes := [.backtrace n, .selectUsage, .selectProblem], problemIndex := i, usageIndex := j,
                       backtraceIndex := 0 })
    (by rw [u3]; simp) (by
      rw [u3]
      show some (backtraceKey env _) = _
      unfold backtraceKey
      rw [hsel [.selectUsage, .selectProblem] j]
      simp only [hlen, if_true, hfr])
  obtain ⟨k5, y5, h5, l5, u5⟩ := reach_index (env := env) (w := w)
    (fun f => { x.ui with modes := [.backtrace n, .selectUsage, .selectProblem], problemIndex := i, usageIndex := j,
                           backtraceIndex := f }) n
    (fun _ => by simp)
    (by
      intro f' hn
      show (updateCounter _ _ n).map _ = _
      simp only [updateCounter]
      rw [if_neg (by omega)]
      rfl) y4 0 f hf l4 u4
  exact ⟨_, y5, press_then h1 (press_then h2 (press_then h3 (press_then h4 h5))), l5, u5⟩

/-- **C135, edits.** The same for every edit that is offered for a problem in the list. -/
theorem C135_edit (env : Env F E C) (hs : env.Sane) (x : Sys F C) (tr : List (Sys F C × Act F C)) (h : Exec env x tr)
    (hst : x.started = true) (hen : x.ended = false) (hm : x.ui.modes ≠ []) (w : Bool) (i : Nat) (id : Nat) (p : Problem)
    (hp : (live x.ui.store)[i]? = some (id, p)) (ed : EditM E) (hed : ed ∈ env.fixes x.ui.config p) :
    ∃ keys y j, runActs env x (pressed w keys) = some y ∧ Listening y ∧
      y.ui = { x.ui with modes := [.selectEdit, .selectProblem], problemIndex := i, editIndex := j } ∧
      (offered env y.ui)[y.ui.editIndex]? = some ed := by
  obtain ⟨k1, y1, h1, l1, u1⟩ := C135_problem env hs x tr h hst hen hm w i id p hp
  obtain ⟨j, hj⟩ := List.mem_iff_getElem?.mp hed
  have hlen : j < (env.fixes x.ui.config p).length := (List.getElem?_eq_some_iff.mp hj).1
  have hsel : ∀ (m : List Mode) (j : Nat),
      State.edits env { x.ui with modes := m, problemIndex := i, editIndex := j } = env.fixes x.ui.config p := by
    intro m j
    unfold State.edits
    rw [show State.selected { x.ui with modes := m, problemIndex := i, editIndex := j } = some (id, p) from hp]
  obtain ⟨y2, h2, l2, u2⟩ := press_key (env := env) (w := w) l1 (k := .char 'f')
    (s := { x.ui with modes := [.selectEdit, .selectProblem], problemIndex := i, editIndex := 0 })
    (by rw [u1]; simp) (by
      rw [u1]
      show (if (State.edits env _).length = 0 then _ else _) = _
      rw [hsel [.selectProblem] x.ui.editIndex, if_neg (by omega)]
      rfl)
  obtain ⟨k3, y3, h3, l3, u3⟩ := reach_index (env := env) (w := w)
    (fun j => { x.ui with modes := [.selectEdit, .selectProblem], problemIndex := i, editIndex := j })
    (env.fixes x.ui.config p).length (fun _ => by simp)
    (by
      intro j' hn
      show (updateCounter _ _ (State.edits env _).length).map _ = _
      rw [hsel [.selectEdit, .selectProblem] j']
      simp only [updateCounter]
      rw [if_neg (by omega)]
      rfl) y2 0 j hlen l2 u2
  refine ⟨_, y3, j, press_then h1 (press_then h2 h3), l3, u3, ?_⟩
  rw [u3, offered_eq, hsel]
  exact hj

/-! Non-vacuity: a problem with two places, while an edit of another problem is selected and an error is shown. -/

def aUsage (n : Nat) : SourceLoc := { file := str! "a.rs", line := n, column := none }

example : (demoRun (reported [macroA, .disallowedUnsafe ⟨⟨str! "a", str! "1.0.0", true⟩, .primary⟩ [aUsage 1, aUsage 2]] ++
    [press (.char 'f'), .iter false (.key .enter)])).map
    (fun x => (x.started, x.ended, x.error, x.ui.modes, ((live x.ui.store)[1]?).map (fun y => numUsages y.2))) =
    some (true, false, true, [.selectEdit, .selectProblem], some 2) := by decide

example : IsPlace (.disallowedUnsafe ⟨⟨str! "a", str! "1.0.0", true⟩, .primary⟩ [aUsage 1, aUsage 2]) (.unsafeAt (aUsage 2)) :=
  .unsafeCode (by simp)

end Cackle.Ui
