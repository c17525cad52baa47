import Verif.Model.Screen
import Verif.Props.ProblemsUi
import Verif.Props.Diff

/-!
# C125 to C127: what is on the screen
-/

namespace Cackle.Ui
open Cackle Store

variable {F E C : Type} [DecidableEq F]

/-! ## C125: the highlighted row is what the keys act on -/

/-- What the keys act on: the selected problem, edit, use or frame, depending on the topmost screen. -/
def target (env : Env F E C) (s : State F C) : Option Row :=
  match s.modes.head?, (live s.store)[s.problemIndex]? with
  | some .selectProblem, some _ => some (.problem s.problemIndex)
  | some .selectEdit, some (_, p) => if s.editIndex < (env.fixes s.config p).length then some (.edit s.editIndex) else none
  | some .selectUsage, some (_, p) => if s.usageIndex < numUsages p then some (.usage s.usageIndex) else none
  | some (.backtrace n), some (_, p) =>
    if s.usageIndex < numUsages p ∧ s.backtraceIndex < n then some (.frame s.backtraceIndex) else none
  | _, _ => none

/-- A screen in which rows of the list are selected. -/
def Selects : Mode → Prop
  | .selectProblem | .selectEdit | .selectUsage | .backtrace _ => True
  | _ => False

/-- **C125 (the claim).** While there are problems and rows of the list are selected, the row that is highlighted is the
one that the keys act on. -/
def C125_Claim : Prop :=
  ∀ (F E C : Type) [DecidableEq F] (env : Env F E C), env.Sane → ∀ x tr, Exec env x tr →
    (live x.ui.store) ≠ [] → (∃ m, x.ui.modes.head? = some m ∧ Selects m) → highlighted env x.ui = target env x.ui

/-- The second edit is selected when another thread reloads the config, whereupon there is only one edit. -/
def fewerEdits : List (Act (List Str) Bool) :=
  reported [usesFs, macroA] ++ [press (.char 'f'), press .down, .reload true]

/-- **C125 is false.** Another problem is highlighted in the list of edits, and accepting does nothing. -/
theorem C125_another_problem : ¬ C125_Claim := by
  intro h
  have h1 : (demoRun fewerEdits).isSome = true := by decide
  obtain ⟨x, hx⟩ := some_of_isSome h1
  obtain ⟨tr, he⟩ := demo_exec hx
  have h2 : (demoRun fewerEdits).map (fun x => (x.ui.modes.head?, highlighted demo x.ui, target demo x.ui,
      (live x.ui.store).length)) = some (some .selectEdit, some (.problem 1), none, 2) := by decide
  rw [hx] at h2
  simp only [Option.map_some, Option.some.injEq, Prod.mk.injEq] at h2
  have := h _ _ _ demo demo_sane x tr he (by intro h3; rw [h3] at h2; exact absurd h2.2.2.2 (by decide))
    ⟨_, h2.1, trivial⟩
  rw [h2.2.1, h2.2.2.1] at this
  cases this

/-- A screen on top of the others. -/
def Overlay : Mode → Prop
  | .setComment _ | .promptAutoAccept | .packageTree | .internalDiagnostics | .help => True
  | _ => False

/-- The stacks of screens that are possible. -/
inductive Shape : List Mode → Prop where
  | quit : Shape []
  | problems : Shape [.selectProblem]
  | edits : Shape [.selectEdit, .selectProblem]
  | usages : Shape [.selectUsage, .selectProblem]
  | frames (n : Nat) : Shape [.backtrace n, .selectUsage, .selectProblem]
  | over {m : Mode} {ms : List Mode} : Overlay m → ms ≠ [] → Shape ms → Shape (m :: ms)

theorem Shape.pop {m : Mode} {ms : List Mode} (h : Shape (m :: ms)) : Shape ms := by
  cases h with
  | problems => exact .quit
  | edits => exact .problems
  | usages => exact .problems
  | frames n => exact .usages
  | over _ _ h => exact h

theorem Shape.drop {ms : List Mode} (h : Shape ms) : ∀ l, dropToProblems ms = some l → l = [.selectProblem] := by
  induction h with
  | quit => intro l h; cases h
  | problems => intro l h; cases h; rfl
  | edits => intro l h; cases h; rfl
  | usages => intro l h; cases h; rfl
  | frames n => intro l h; cases h; rfl
  | @over m ms hm _ _ ih =>
    intro l h
    have : dropToProblems (m :: ms) = dropToProblems ms := by cases m <;> first | rfl | exact hm.elim
    exact ih l (this ▸ h)

theorem Shape.ne {m : Mode} {ms : List Mode} (h : Shape (m :: ms)) (hm : m ≠ .selectProblem) : ms ≠ [] := by
  cases h with
  | problems => exact absurd rfl hm
  | over _ h _ => exact h
  | _ => simp

theorem general_shape {s : State F C} {m : Mode} {ms : List Mode} (hm : s.modes = m :: ms) (hb : Shape s.modes) (k : Key) :
    Shape (generalKey s m k).modes := by
  have ht : Shape s.modes.tail := by rw [hm] at hb ⊢; exact hb.pop
  unfold generalKey
  split
  · exact hb
  · split
    · split
      · exact ht
      · exact .over trivial (by rw [hm]; simp) hb
    · split
      · split
        · exact ht
        · exact hb
      · exact hb

theorem comment_shape (env : Env F E C) {s : State F C} {input : Str} {ms : List Mode}
    (hm : s.modes = .setComment input :: ms) (hb : Shape s.modes) (k : Key) :
    Shape (commentKey env s input k).modes := by
  have ht : Shape s.modes.tail := by rw [hm] at hb ⊢; exact hb.pop
  have hne : s.modes.tail ≠ [] := by rw [hm] at hb ⊢; exact hb.ne (by simp)
  have hp : ∀ t, Shape (.setComment t :: s.modes.tail) := fun t => .over trivial hne ht
  unfold commentKey
  cases k <;> simp only
  · exact hp _
  · exact hp _
  · exact ht
  · unfold setComment
    simp only
    split
    · exact ht
    · split <;> exact ht
  · exact hp _
  · exact hp _

theorem handle_shape (env : Env F E C) (w : Bool) {s : State F C} {k : Key} (hb : Shape s.modes)
    (hw : ¬ Writes s k) {r : State F C × Bool} (h : handleKey env w s k = some r) : Shape r.1.modes := by
  unfold handleKey at h
  split at h
  · simp only [ok, Option.some.injEq] at h
    subst h
    exact hb
  · rename_i m ms hm
    have hb' := hb
    rw [hm] at hb'
    have ht : s.modes.tail = ms := by rw [hm]; rfl
    have hne : s.modes ≠ [] := by rw [hm]; simp
    have hpop : Shape ms := hb'.pop
    have hdet : ∀ r, detailsKey s = some r → Shape r.1.modes := by
      intro r hr
      unfold detailsKey at hr
      split at hr
      · cases hr; exact hb
      · obtain ⟨l, h1, rfl⟩ := Option.map_eq_some_iff.mp hr
        show Shape (.selectUsage :: l)
        rw [hb.drop l h1]
        exact .usages
    have hprob : m = .selectProblem → s.modes = [.selectProblem] := by
      intro h1
      subst h1
      rw [hm]
      cases hb' with
      | problems => rfl
      | over h _ _ => exact h.elim
    have huse : m = .selectUsage → ms = [.selectProblem] := by
      intro h1
      subst h1
      cases hb' with
      | usages => rfl
      | over h _ _ => exact h.elim
    split at h
    · simp only [ok, Option.some.injEq] at h
      subst h
      exact comment_shape env hm hb k
    · split at h
      · cases h
        exact .quit
      · split at h
        all_goals first
          | exact hdet _ h
          | (simp only [Option.map_eq_some_iff] at h
             obtain ⟨i, hi, rfl⟩ := h
             exact hb)
          | (simp only [ok, Option.some.injEq, ht] at h
             subst h
             first
               | exact hpop
               | exact .over trivial hne hb
               | (show Shape (.selectEdit :: ms); rw [huse rfl]; exact .edits)
               | exact general_shape hm hb k)
          | (split at h
             · cases h
               first
                 | exact hb
                 | exact .over trivial hne hb
             · cases h
               first
                 | exact hb
                 | exact .over trivial hne hb
                 | (show Shape (.selectEdit :: s.modes); rw [hprob rfl]; exact .edits))
          | exact absurd (Or.inl ⟨by rw [hm]; rfl, by simp⟩) hw
          | exact absurd (Or.inr ⟨by rw [hm]; rfl, rfl⟩) hw
          | (simp only [Option.some.injEq] at h
             subst h
             unfold backtraceKey
             split
             · exact hb
             · split
               · exact hb
               · show Shape (.backtrace _ :: s.modes)
                 rw [hm, huse rfl]
                 exact .frames _)

/-- Every stack of screens that can be reached is possible. -/
theorem exec_shape {env : Env F E C} (hs : env.Sane) {x : Sys F C} {tr : List (Sys F C × Act F C)} (h : Exec env x tr) :
    Shape x.ui.modes := by
  induction h with
  | init file c => exact .problems
  | @step x x' tr a hx _ ha ih =>
    obtain ⟨t, ht⟩ := (exec_inv hs hx).store
    obtain ⟨t2, ht2⟩ := (checkQuit_inv (exec_inv hs hx)).store
    have hcut : ∀ m, x.ui.modes.head? = some m → Shape x.ui.modes.tail := by
      intro m hm
      obtain ⟨l, hl⟩ := head_cons hm
      rw [hl] at ih ⊢
      exact ih.pop
    cases did ha with
    | idle h => rcases h with h | h <;> rw [h] <;> exact ih
    | report _ => exact ih
    | reload => exact ih
    | touch => exact ih
    | quiet _ _ _ hw hk =>
      exact handle_shape env _ (by rw [checkQuit_modes]; exact ih) (by rw [checkQuit_writes]; exact hw) hk
    | accept _ _ _ hm _ hk =>
      rcases acceptKey_cases env hs _ _ ht with ⟨h1, _⟩ | ⟨_, _, h1, _⟩ | ⟨id, p, ed, e, st, tr', _, _, _, _, _, h1, _, _⟩
      · rw [h1] at hk
        have : x'.ui = afterAccept x.ui := by cases x'; simp_all
        rw [this]; exact hcut _ hm
      · rw [h1] at hk
        have : x'.ui = x.ui := by cases x'; simp_all
        rw [this]; exact ih
      · rw [h1] at hk
        have := congrArg (fun o => o.map Prod.fst) hk
        simp only [Option.map_some, Option.some.injEq] at this
        rw [← this]; exact hcut _ hm
    | confirm _ _ _ hm hk =>
      unfold confirmKey at hk
      split at hk
      · cases hk
      · rename_i s' h1
        have h2 := (acceptAll_inv env _ (s := { x.ui with acceptSingle := true }) ht h1).2.1
        have := congrArg (fun o => o.map Prod.fst) hk
        simp only [Option.map_some, Option.some.injEq] at this
        rw [← this, h2]; exact ih
      · rename_i s' h1
        have h2 := (acceptAll_inv env _ (s := { x.ui with acceptSingle := true }) ht h1).2.1
        have := congrArg (fun o => o.map Prod.fst) hk
        simp only [ok, Option.map_some, Option.some.injEq] at this
        rw [← this]
        show Shape s'.modes.tail
        simp only at h2
        rw [h2]; exact hcut _ hm
    | added _ _ _ hk =>
      have := (acceptAll_inv env _ ht2 hk).2.1
      simp only at this
      rw [this, checkQuit_modes]; exact ih

/-! ### Rows -/

theorem flatMap_other (f : Nat → Row) (i : Nat) (ins : List Row) : ∀ l : List Nat, i ∉ l →
    l.flatMap (fun k => f k :: if k = i then ins else []) = l.map f
  | [], _ => rfl
  | a :: l, h => by
    simp only [List.mem_cons, not_or] at h
    simp only [List.flatMap_cons, if_neg (Ne.symm h.1), List.map_cons]
    rw [flatMap_other f i ins l h.2]
    rfl

theorem rows_split (f : Nat → Row) (i n : Nat) (ins : List Row) (h : i < n) : ∃ l : List Nat,
    (List.range n).flatMap (fun k => f k :: if k = i then ins else []) =
      (List.range i).map f ++ (f i :: ins ++ l.map f) := by
  obtain ⟨k, rfl⟩ : ∃ k, n = i + 1 + k := ⟨n - (i + 1), by omega⟩
  refine ⟨(List.range k).map (i + 1 + ·), ?_⟩
  rw [List.range_add, List.range_succ, List.flatMap_append, List.flatMap_append,
    flatMap_other f i ins (List.range i) (by simp), flatMap_other f i ins ((List.range k).map (i + 1 + ·)) (by
      intro hm
      obtain ⟨x, _, hx⟩ := List.mem_map.mp hm
      omega)]
  simp

theorem rows_get (f : Nat → Row) (i n j : Nat) (ins : List Row) (h : i < n) (hj : j < ins.length + 1) :
    ((List.range n).flatMap (fun k => f k :: if k = i then ins else []))[i + j]? = (f i :: ins)[j]? := by
  obtain ⟨l, hl⟩ := rows_split f i n ins h
  rw [hl, List.getElem?_append_right (by simp)]
  simp only [List.length_map, List.length_range, Nat.add_sub_cancel_left]
  exact List.getElem?_append_left (by simpa using hj)

theorem row_of (env : Env F E C) (s : State F C) {y : Nat × Problem} (hp : (live s.store)[s.problemIndex]? = some y) (j : Nat)
    (hj : j < (insertedRows env s).length + 1) :
    (rows env s)[s.problemIndex + j]? = (Row.problem s.problemIndex :: insertedRows env s)[j]? := by
  obtain ⟨h, _⟩ := List.getElem?_eq_some_iff.mp hp
  exact rows_get Row.problem _ _ _ _ h hj

theorem usages_of (s : State F C) {id : Nat} {p : Problem} (hp : (live s.store)[s.problemIndex]? = some (id, p)) :
    s.usages = numUsages p := by
  unfold State.usages State.selected
  rw [hp]

theorem edits_of (env : Env F E C) (s : State F C) {id : Nat} {p : Problem}
    (hp : (live s.store)[s.problemIndex]? = some (id, p)) : s.edits env = env.fixes s.config p := by
  unfold State.edits State.selected
  rw [hp]

/-- **C125 (partial).** For all executions: whenever the keys act on something, exactly this is highlighted; and if an
edit is highlighted when the user accepts, then it is the edit that is applied.

What is missing: when the keys act on nothing, another row may be highlighted, see `C125_another_problem`. -/
theorem C125_highlighted_partial (env : Env F E C) (hs : env.Sane) (x : Sys F C) (tr : List (Sys F C × Act F C))
    (h : Exec env x tr) :
    (∀ r, target env x.ui = some r → highlighted env x.ui = some r) ∧
    (x.ui.modes.head? = some .selectEdit → ∀ i, highlighted env x.ui = some (.edit i) →
      i = x.ui.editIndex ∧ i < (offered env x.ui).length) := by
  have hsh := exec_shape hs h
  generalize x.ui = s at hsh
  constructor
  · intro r hr
    unfold target at hr
    unfold highlighted rowIndex
    cases hp : (live s.store)[s.problemIndex]? with
    | none =>
      rw [hp] at hr
      split at hr <;> simp_all
    | some y =>
      obtain ⟨id, p⟩ := y
      rw [hp] at hr
      have hr0 := row_of env s hp
      unfold insertedRows at hr0
      rw [usages_of s hp, edits_of env s hp] at hr0
      generalize hm : s.modes = ms at hsh hr hr0
      cases hsh with
      | quit => cases hr
      | problems =>
        cases hr
        exact hr0 0 (by simp)
      | edits =>
        simp only [List.head?_cons] at hr
        split at hr
        · rename_i he
          cases hr
          simp only [editMode, List.any_cons, List.any_nil, decide_true, Bool.true_or, if_true] at hr0 ⊢
          rw [hr0 _ (by simpa using he)]
          simp [he]
        · cases hr
      | usages =>
        simp only [List.head?_cons] at hr
        split at hr
        · rename_i he
          cases hr
          have hu : (List.range (numUsages p)).flatMap (usageRows s) = (List.range (numUsages p)).map Row.usage := by
            rw [List.map_eq_flatMap]
            congr
            funext j
            simp [usageRows, hm, backtraceFrames]
          have e1 : editMode [.selectUsage, .selectProblem] = false := rfl
          have e2 : usageMode [.selectUsage, .selectProblem] = true := rfl
          simp only [e1, e2, if_true, Bool.false_eq_true, if_false, backtraceFrames, hu] at hr0 ⊢
          rw [hr0 _ (by simpa using he)]
          simp [he]
        · cases hr
      | frames n =>
        simp only [List.head?_cons] at hr
        split at hr
        · rename_i he
          cases hr
          have hu : (List.range (numUsages p)).flatMap (usageRows s) = (List.range (numUsages p)).flatMap
              (fun k => Row.usage k :: if k = s.usageIndex then (List.range n).map Row.frame else []) := by
            congr
            funext j
            simp [usageRows, hm, backtraceFrames]
          have e1 : editMode [.backtrace n, .selectUsage, .selectProblem] = false := rfl
          have e2 : usageMode [.backtrace n, .selectUsage, .selectProblem] = true := rfl
          simp only [e1, e2, if_true, Bool.false_eq_true, if_false, backtraceFrames, hu] at hr0 ⊢
          have hg := rows_get Row.usage s.usageIndex (numUsages p) (s.backtraceIndex + 1) ((List.range n).map Row.frame)
            he.1 (by simpa using he.2)
          obtain ⟨hlt, _⟩ := List.getElem?_eq_some_iff.mp (hg.trans (by simp [he.2]; rfl))
          have := hr0 (s.usageIndex + (s.backtraceIndex + 1) + 1) (by omega)
          rw [List.getElem?_cons_succ, hg] at this
          rw [show s.problemIndex + (s.usageIndex + 1) + (s.backtraceIndex + 1) =
            s.problemIndex + (s.usageIndex + (s.backtraceIndex + 1) + 1) by omega, this]
          simp [he.2]
        · cases hr
      | @over m ms hov _ _ =>
        cases m <;> first | exact hov.elim | cases hr
  · intro hm i hi
    have hms : editMode s.modes = true := by
      obtain ⟨l, hl⟩ := head_cons hm
      rw [hl]
      simp [editMode]
    unfold highlighted rowIndex at hi
    unfold rows insertedRows at hi
    simp only [hms, if_true] at hi
    rw [offered_eq]
    by_cases hp : s.problemIndex < (live s.store).length
    · obtain ⟨l, hl⟩ := rows_split Row.problem s.problemIndex (live s.store).length
        ((List.range (s.edits env).length).map Row.edit) hp
      rw [hl, List.getElem?_append_right (by simp)] at hi
      simp only [List.length_map, List.length_range, Nat.add_sub_cancel_left, List.cons_append,
        List.getElem?_cons_succ] at hi
      by_cases he : s.editIndex < (s.edits env).length
      · rw [List.getElem?_append_left (by simpa using he)] at hi
        simp [he] at hi
        exact ⟨hi.symm, by omega⟩
      · rw [List.getElem?_append_right (by simpa using he)] at hi
        simp at hi
    · rw [flatMap_other _ _ _ _ (by simpa using hp)] at hi
      simp at hi

/-- Non-vacuity: the second edit of the first of two problems is highlighted. -/
example : (demoRun (reported [.selectSandbox, macroA] ++ [press (.char 'f'), press .down])).map
    (fun x => (rows demo x.ui, rowIndex x.ui, target demo x.ui)) =
      some ([.problem 0, .edit 0, .edit 1, .problem 1], 2, some (.edit 1)) := by decide

/-! ## C126: the line of a use is shown and marked -/

/-- A line of a paragraph takes at least as many rows as its characters need. -/
def Wraps (width : Nat) (rowsOf : Str → Nat) : Prop :=
  ∀ l, 1 ≤ rowsOf l ∧ l.length ≤ width * rowsOf l ∧ (l.length ≤ width → rowsOf l = 1)

/-- The line is marked. -/
def Marked (l : Str) : Prop := (str! "> ").isPrefixOf l = true

/-- **C126 (the claim).** When a use is selected whose line exists in the file, that line, and no other, is marked on the
screen, however small the screen is. -/
def C126_Claim : Prop :=
  ∀ (width : Nat) (rowsOf : Str → Nat), 0 < width → Wraps width rowsOf → ∀ (source : List Str) (n : Nat) (text : Str)
    (height : Nat), 0 < height → 1 ≤ n → source[n - 1]? = some text →
    ∃ l, l ∈ visible rowsOf height ((sourceLines source n height).map Prod.snd) ∧ Marked l ∧ text <:+ l

theorem sourceLines_get (source : List Str) (n height j : Nat) :
    (sourceLines source n height)[j]? = if j < height then
      (source[startLine n height - 1 + j]?).map (fun t => (startLine n height + j, gutter n height (startLine n height + j) ++ t))
    else none := by
  unfold sourceLines
  rw [List.getElem?_map, List.getElem?_zipIdx]
  by_cases h : j < height
  · rw [List.getElem?_take_of_lt h, if_pos h, List.getElem?_drop]
    cases source[startLine n height - 1 + j]? <;> simp
  · rw [if_neg h, List.getElem?_eq_none (by simp; omega)]
    rfl

theorem startLine_pos (n height : Nat) : 1 ≤ startLine n height := Nat.le_max_right ..

theorem marked_iff (n height k : Nat) (t : Str) : Marked (gutter n height k ++ t) ↔ k = n := by
  unfold Marked gutter
  split
  · rename_i h
    simp only [h, iff_true]
    rfl
  · rename_i h
    simp only [h, iff_false]
    exact fun h => by cases h

theorem visible_all {rowsOf : Str → Nat} : ∀ {ls : List Str}, (∀ l ∈ ls, rowsOf l = 1) → ∀ h : Nat, ls.length ≤ h →
    visible rowsOf h ls = ls
  | [], _, h, _ => by cases h <;> rfl
  | a :: ls, _, 0, hl => by simp at hl
  | a :: ls, h1, h + 1, hl => by
    unfold visible
    rw [h1 a (List.mem_cons_self ..), Nat.add_sub_cancel,
      visible_all (fun l hl => h1 l (List.mem_cons_of_mem _ hl)) h (by simpa using hl)]

theorem mem_visible {rowsOf : Str → Nat} {ls : List Str} (h1 : ∀ l ∈ ls, rowsOf l = 1) (h j : Nat) (l : Str)
    (hj : j < h) (hl : ls[j]? = some l) : l ∈ visible rowsOf h ls := by
  induction ls generalizing h j with
  | nil => simp at hl
  | cons a ls ih =>
    cases h with
    | zero => omega
    | succ h =>
      unfold visible
      cases j with
      | zero =>
        simp only [List.getElem?_cons_zero, Option.some.injEq] at hl
        subst hl
        simp
      | succ j =>
        rw [h1 a (List.mem_cons_self ..)]
        exact List.mem_cons_of_mem _ (ih (fun l hl => h1 l (List.mem_cons_of_mem _ hl)) h j (by omega) (by simpa using hl))

/-- **C126.** For all files, lines and sizes: the lines that are given to the screen are consecutive lines of the file with their
numbers; the line of the use is among them, and it is the only marked one. -/
theorem C126_lines (source : List Str) (n height : Nat) (text : Str) (hh : 0 < height) (hn : 1 ≤ n)
    (ht : source[n - 1]? = some text) :
    (∃ l, (n, l) ∈ sourceLines source n height ∧ Marked l) ∧
    (sourceLines source n height).length ≤ height ∧
    (∃ a : Nat, ∀ (j : Nat) (x : Nat × Str), (sourceLines source n height)[j]? = some x → x.1 = a + j) ∧
    ∀ k l, (k, l) ∈ sourceLines source n height → (Marked l ↔ k = n) ∧ ∃ t gap, source[k - 1]? = some t ∧
      l = gap ++ Wire.decimal k ++ str! ": " ++ t := by
  have hs := startLine_pos n height
  refine ⟨?_, ?_, ⟨startLine n height, ?_⟩, ?_⟩
  · have hle : startLine n height ≤ n := by
      unfold startLine
      exact Nat.max_le.mpr ⟨Nat.sub_le .., hn⟩
    have hlt : n - startLine n height < height := by
      unfold startLine
      have : n - height / 2 ≤ Nat.max (n - height / 2) 1 := Nat.le_max_left ..
      omega
    refine ⟨_, List.mem_of_getElem? (i := n - startLine n height) ?_, (marked_iff n height n text).mpr rfl⟩
    rw [sourceLines_get, if_pos hlt, show startLine n height - 1 + (n - startLine n height) = n - 1 by omega, ht,
      show startLine n height + (n - startLine n height) = n by omega]
    rfl
  · unfold sourceLines
    simp only [List.length_map, List.length_zipIdx, List.length_take]
    omega
  · intro j x hx
    rw [sourceLines_get] at hx
    split at hx
    · obtain ⟨t, _, rfl⟩ := Option.map_eq_some_iff.mp hx
      rfl
    · cases hx
  · intro k l hk
    obtain ⟨j, hj⟩ := List.getElem?_of_mem hk
    rw [sourceLines_get] at hj
    split at hj
    · obtain ⟨t, h1, h2⟩ := Option.map_eq_some_iff.mp hj
      cases h2
      refine ⟨marked_iff _ _ _ _, t, (if startLine n height + j = n then str! "> " else str! "  ") ++
        List.replicate (digits (startLine n height + height) - digits (startLine n height + j)) ' ', ?_, rfl⟩
      rw [← h1]
      congr 1
      omega
    · cases hj

/-- Non-vacuity: the third of five lines on a screen with three rows. -/
example : sourceLines [str! "a", str! "b", str! "c", str! "d", str! "e"] 3 3 =
    [(2, str! "  2: b"), (3, str! "> 3: c"), (4, str! "  4: d")] := by decide +kernel

/-- **C126 (partial).** For all files, lines and sizes: if the lines fit into the width of the screen, then the line of the use is
on the screen and marked.

What is missing: long lines, see `C126_pushed_out`. -/
theorem C126_visible_partial (width : Nat) (rowsOf : Str → Nat) (hw : Wraps width rowsOf) (source : List Str) (n : Nat)
    (text : Str) (height : Nat) (hh : 0 < height) (hn : 1 ≤ n) (ht : source[n - 1]? = some text)
    (hfit : ∀ x ∈ sourceLines source n height, x.2.length ≤ width) :
    ∃ l, l ∈ visible rowsOf height ((sourceLines source n height).map Prod.snd) ∧ Marked l ∧ text <:+ l := by
  obtain ⟨⟨l, hl, hm⟩, hlen, _, hk⟩ := C126_lines source n height text hh hn ht
  obtain ⟨_, t, gap, h1, h2⟩ := hk n l hl
  rw [ht] at h1
  cases h1
  refine ⟨l, ?_, hm, _, h2.symm⟩
  obtain ⟨j, hj⟩ := List.getElem?_of_mem hl
  have hjl : j < height := by
    obtain ⟨h3, _⟩ := List.getElem?_eq_some_iff.mp hj
    omega
  exact mem_visible (fun x hx => by
    obtain ⟨y, hy, rfl⟩ := List.mem_map.mp hx
    exact (hw y.2).2.2 (hfit y hy)) height j l hjl (by rw [List.getElem?_map, hj]; rfl)

/-- **C126 is false.** A long line above the use pushes it out of the screen. -/
theorem C126_pushed_out : ¬ C126_Claim := by
  intro h
  obtain ⟨l, hl, hm, _⟩ := h 10 (fun l => Nat.max 1 ((l.length + 9) / 10)) (by decide) (fun l => by
      refine ⟨Nat.le_max_left .., ?_, fun h => ?_⟩
      · show l.length ≤ 10 * Nat.max 1 ((l.length + 9) / 10)
        have : (l.length + 9) / 10 ≤ Nat.max 1 ((l.length + 9) / 10) := Nat.le_max_right ..
        omega
      · have : (l.length + 9) / 10 ≤ 1 := by omega
        exact Nat.max_eq_left this)
    [List.replicate 40 'x', str! "use"] 2 (str! "use") 3 (by decide) (by decide) rfl
  have hv : visible (fun l => Nat.max 1 ((l.length + 9) / 10)) 3
      ((sourceLines [List.replicate 40 'x', str! "use"] 2 3).map Prod.snd) = [str! "  1: " ++ List.replicate 40 'x'] := by
    decide +kernel
  rw [hv] at hl
  simp only [List.mem_singleton] at hl
  subst hl
  exact absurd hm (by unfold Marked; decide)

/-! ### The highlighted token -/

theorem formatLine_text {α : Type} (column : Option Nat) : ∀ (lens : List Nat) (offset : Nat) (line : List α),
    lens.sum = line.length → (formatLine column offset line lens).flatMap Prod.fst = line
  | [], _, line, h => by
    have : line = [] := List.length_eq_zero_iff.mp (by simpa using h.symm)
    subst this; rfl
  | len :: lens, offset, line, h => by
    simp only [formatLine, List.flatMap_cons]
    rw [formatLine_text column lens (offset + len) (line.drop len) (by
      simp only [List.sum_cons, List.length_drop] at h ⊢; omega)]
    exact List.take_append_drop ..

theorem formatLine_before {α : Type} (c : Nat) : ∀ (lens : List Nat) (offset : Nat) (line : List α), c < offset →
    ∀ x ∈ formatLine (some c) offset line lens, x.2 = false
  | [], _, _, _, x, hx => by cases hx
  | len :: lens, offset, line, h, x, hx => by
    rcases List.mem_cons.mp hx with rfl | hx
    · simp; omega
    · exact formatLine_before c lens (offset + len) _ (by omega) x hx

theorem formatLine_one {α : Type} (c : Nat) : ∀ (lens : List Nat) (offset : Nat) (line : List α),
    lens.sum = line.length → offset ≤ c → c < offset + line.length →
    ∃ a t b, formatLine (some c) offset line lens = a ++ (t, true) :: b ∧ (∀ x ∈ a, x.2 = false) ∧ (∀ x ∈ b, x.2 = false) ∧
      offset + (a.flatMap Prod.fst).length ≤ c ∧ c < offset + (a.flatMap Prod.fst).length + t.length
  | [], _, line, h, h1, h2 => by simp only [List.sum_nil] at h; omega
  | len :: lens, offset, line, h, h1, h2 => by
    simp only [List.sum_cons] at h
    by_cases hc : c < offset + len
    · refine ⟨[], line.take len, formatLine (some c) (offset + len) (line.drop len) lens, ?_, (fun x hx => by cases hx),
        formatLine_before c lens _ _ hc, by simpa using h1, ?_⟩
      · simp [formatLine, h1, hc]
      · simp only [List.flatMap_nil, List.length_nil, List.length_take]; omega
    · obtain ⟨a, t, b, h3, h4, h5, h6, h7⟩ := formatLine_one c lens (offset + len) (line.drop len)
        (by simp only [List.length_drop]; omega) (by omega) (by simp only [List.length_drop]; omega)
      have hl : (line.take len).length = len := by simp only [List.length_take]; omega
      refine ⟨(line.take len, false) :: a, t, b, ?_, ?_, h5, ?_, ?_⟩
      · simp [formatLine, h3, hc]
      · intro x hx
        rcases List.mem_cons.mp hx with rfl | hx
        · rfl
        · exact h4 x hx
      · simp only [List.flatMap_cons, List.length_append, hl]; omega
      · simp only [List.flatMap_cons, List.length_append, hl]; omega

/-- **C126: the token.** For all lines, however they are divided into tokens: the text of the line is unchanged; if the use has
a column within the line, then exactly one token is highlighted, namely the one that contains this column (counted from 1);
without a column, none is. -/
theorem C126_token {α : Type} (line : List α) (lens : List Nat) (h : lens.sum = line.length) :
    (∀ column, (format column line lens).flatMap Prod.fst = line) ∧
    (∀ x ∈ format none line lens, x.2 = false) ∧
    ∀ c, 1 ≤ c → c ≤ line.length → ∃ a t b, format (some c) line lens = a ++ (t, true) :: b ∧ (∀ x ∈ a, x.2 = false) ∧
      (∀ x ∈ b, x.2 = false) ∧ (a.flatMap Prod.fst).length < c ∧ c ≤ (a.flatMap Prod.fst).length + t.length := by
  refine ⟨fun column => formatLine_text _ lens 0 line h, ?_, ?_⟩
  · unfold format
    have : ∀ (lens : List Nat) (o : Nat) (line : List α), ∀ x ∈ formatLine none o line lens, x.2 = false := by
      intro lens
      induction lens with
      | nil => intro o line x hx; cases hx
      | cons a l ih =>
        intro o line x hx
        rcases List.mem_cons.mp hx with rfl | hx
        · rfl
        · exact ih _ _ x hx
    exact this lens 0 line
  · intro c h1 h2
    obtain ⟨a, t, b, h3, h4, h5, h6, h7⟩ := formatLine_one (c - 1) lens 0 line h (by omega) (by omega)
    exact ⟨a, t, b, h3, h4, h5, by omega, by omega⟩

/-- Non-vacuity: column 9 of a line with five tokens. -/
example : format (some 9) (str! "unsafe { f() }") [6, 1, 1, 1, 5] =
    [(str! "unsafe", false), (str! " ", false), (str! "{", false), (str! " ", true), (str! "f() }", false)] := by decide

/-! ## C127: an edit is shown before it is accepted -/

/-- **C127 (the claim).** The details of an edit show every line of the config file that it adds or removes, however small
the screen is. -/
def C127_Claim : Prop :=
  ∀ (width : Nat) (rowsOf : Str → Nat), 0 < width → Wraps width rowsOf → ∀ (help : Str) (items : List Diff.Item)
    (height fuel : Nat) (lines : List Str), editDetails fuel help none items height = some lines →
    ∀ c ∈ items, c.isChange = true → c.shown ∈ visible rowsOf (height - 2) lines

/-- Ten lines are added. -/
def tenLines : List Diff.Item := (List.range 10).map (fun i => .right (Wire.decimal i))

/-- **C127 is false.** On a screen whose details have twelve rows, three of the ten lines that the edit adds are cut off;
nothing indicates this. -/
theorem C127_cut_off : ¬ C127_Claim := by
  intro h
  have h1 : editDetails 50 (str! "help") none tenLines 12 = some ([str! "help", [], str! "=== Diff of cackle.toml ==="] ++
      (List.range 10).map (fun i => '+' :: Wire.decimal i)) := by decide +kernel
  have := h 80 (fun l => if l.length ≤ 80 then 1 else l.length) (by decide) (fun l => by
      dsimp only
      refine ⟨by split <;> omega, by split <;> omega, fun h => if_pos h⟩)
    (str! "help") tenLines 12 50 _ h1 (.right (str! "9")) (by decide +kernel) rfl
  revert this
  decide +kernel

/-- **C127 (partial).** For all edits and sizes: the lines that are computed contain every added and removed line, in order; if
they fit into the width of the screen, then all of them are on the screen, or nothing but changes is left of the diff.

What is missing: changes that take more rows than there are, see `C127_cut_off`. -/
theorem C127_shown_partial (width : Nat) (rowsOf : Str → Nat) (hw : Wraps width rowsOf) (help : Str) (error : Option Str)
    (items : List Diff.Item) (height : Nat) : ∃ n head out,
    (∀ fuel, n ≤ fuel → editDetails fuel help error items height = some (head ++ out)) ∧
    out.filter (fun l => decide (Diff.IsChange l)) = (items.filter Diff.Item.isChange).map Diff.Item.shown ∧
    ((∀ l ∈ head ++ out, l.length ≤ width) →
      visible rowsOf (height - 2) (head ++ out) = head ++ out ∨ ∀ l ∈ out, ¬ Diff.IsContext l) := by
  obtain ⟨n, out, h1, _, h3, h4, _⟩ := Diff.C41_trim
    (((height - 4 : Nat) : Int) - (detailHead help error (Diff.diffLines items)).length) (Diff.diffLines items)
  refine ⟨n, detailHead help error (Diff.diffLines items), out, ?_, ?_, ?_⟩
  · intro fuel hf
    unfold editDetails configDiffLines
    simp only [h1 fuel hf, Option.map_some]
  · rw [← h3]
    exact (Diff.C42_changes items).1
  · intro hfit
    rcases h4 with h4 | h4
    · left
      have hl : (detailHead help error (Diff.diffLines items) ++ out).length ≤ height - 2 := by
        rw [List.length_append]
        omega
      exact visible_all (fun l hl => (hw l).2.2 (hfit l hl)) _ hl
    · exact Or.inr h4

/-- Non-vacuity: enough room, and a screen that is too small for the context. -/
example : editDetails 50 (str! "help") none [.both (str! "[a]"), .both (str! "x"), .both (str! "y"), .right (str! "z")] 11 =
      some [str! "help", [], str! "=== Diff of cackle.toml ===", str! " [a]", str! " x", str! " y", str! "+z"] ∧
    editDetails 50 (str! "help") none [.both (str! "[a]"), .both (str! "x"), .both (str! "y"), .right (str! "z")] 6 =
      some [str! "help", [], str! "=== Diff of cackle.toml ===", str! "...", str! "+z"] := by decide +kernel

end Cackle.Ui
