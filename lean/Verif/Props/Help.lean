import Verif.Model.Help
import Verif.Props.UiReach
import Verif.Props.Screen

/-!
# C148 and C149: the help, the parts of the screen and the details

C148: the help tells what the keys do. C149: what the report of a problem says can be seen on the screen.
-/

namespace Cackle.Ui
open Cackle Store

variable {F E C : Type} [DecidableEq F]

/-! ## Specification -/

/-- The keys that a name in the help stands for. -/
def keyNamed (n : Str) : Option Key :=
  if n = str! "up" then some .up
  else if n = str! "down" then some .down
  else if n = str! "esc" then some .esc
  else if n = str! "enter" then some .enter
  else if n = str! "space" then some (.char ' ')
  else match n with
    | [c] => some (.char c)
    | _ => none

def keysNamed (names : Str) : List Key := (splitChar '/' names).filterMap keyNamed

/-- What the keys are said to do. -/
inductive Meaning where
  | fixes | usages | tree | previousProblem | nextProblem | autoApply
  | apply | comment | previousEdit | nextEdit | back
  | previousUsage | nextUsage | backtrace | jumpToEdits | internal
  | packageDetails | quit | help

/-- The meaning of the descriptions in the help. -/
def meanings : List (Str × Meaning) :=
  [(str! "Show available automatic fixes for this problem", .fixes),
    (str! "Select and show details of each usage (API/unsafe/extern only)", .usages),
    (str! "Show tree of crate dependencies to this crate", .tree),
    (str! "Select previous problem", .previousProblem),
    (str! "Select next problem", .nextProblem),
    (str! "Enable auto-apply for problems with only one edit", .autoApply),
    (str! "Apply this edit", .apply),
    (str! "Jump to usage details (API/unsafe/extern only)", .usages),
    (str! "Add comment to edit (supported edits only)", .comment),
    (str! "Select previous edit", .previousEdit),
    (str! "Select next edit", .nextEdit),
    (str! "Return to problem list", .back),
    (str! "Select previous usage", .previousUsage),
    (str! "Select next usage", .nextUsage),
    (str! "Show backtrace for this usage (API only)", .backtrace),
    (str! "Jump to edits for the current problem", .jumpToEdits),
    (str! "Show internal diagnostics (requires --debug)", .internal),
    (str! "Toggle display of package details", .packageDetails),
    (str! "Quit", .quit),
    (str! "Show mode-specific help", .help)]

def meaningOf (text : Str) : Option Meaning := (meanings.find? (fun x => decide (x.1 = text))).map Prod.snd

/-- `j` comes before `i` in a list of `n` rows; before the first comes the last. -/
def Before (n j i : Nat) : Prop := j < n ∧ (j + 1 = i ∨ (i = 0 ∧ j + 1 = n))

/-- `j` comes after `i` in a list of `n` rows; after the last comes the first. -/
def After (n j i : Nat) : Prop := j < n ∧ (j = i + 1 ∨ (i + 1 = n ∧ j = 0))

/-- The selected edit supports comments: with a comment, the comment is in the file that it gives. -/
def Supported (env : Env F E C) (s : State F C) : Prop :=
  ∃ ed e, (offered env s)[s.editIndex]? = some ed ∧ env.parse (s.file.getD env.blank) = some e ∧
    env.mentions (env.print (ed.apply (some (str! "CACKLE PLACEHOLDER COMMENT")) e).1) (str! "CACKLE PLACEHOLDER COMMENT") = true

/-- The state before a key, the state after it, and whether an error is shown. -/
def Meaning.Holds (env : Env F E C) (s s' : State F C) (err : Bool) : Meaning → Prop
  | .fixes => (offered env s = [] ∧ err = true ∧ s' = s) ∨
      (offered env s ≠ [] ∧ err = false ∧ s' = { s with modes := [.selectEdit, .selectProblem], editIndex := 0 })
  | .usages => (s.usages = 0 ∧ err = true ∧ s' = s) ∨
      (s.usages ≠ 0 ∧ err = false ∧ s' = { s with modes := [.selectUsage, .selectProblem], usageIndex := 0 })
  | .tree => err = false ∧ s' = { s with modes := .packageTree :: s.modes }
  | .previousProblem => s.problemIndex < (live s.store).length →
      err = false ∧ ∃ i, Before (live s.store).length i s.problemIndex ∧ s' = { s with problemIndex := i }
  | .nextProblem => s.problemIndex < (live s.store).length →
      err = false ∧ ∃ i, After (live s.store).length i s.problemIndex ∧ s' = { s with problemIndex := i }
  | .autoApply => err = false ∧ ((s.acceptSingle = true ∧ s' = s) ∨
      (s.acceptSingle = false ∧ s' = { s with modes := .promptAutoAccept :: s.modes }))
  | .apply => ∀ ed, (offered env s)[s.editIndex]? = some ed →
      (err = true ∧ s' = s) ∨ (err = false ∧ s'.modes = [.selectProblem] ∧
        ∃ e, env.parse (s.file.getD env.blank) = some e ∧ s'.file = some (env.print (ed.apply s.comment e).1))
  | .comment => (¬ Supported env s ∧ err = true ∧ s' = s) ∨
      (Supported env s ∧ err = false ∧ s' = { s with modes := .setComment (s.comment.getD []) :: s.modes })
  | .previousEdit => s.editIndex < (offered env s).length →
      err = false ∧ ∃ i, Before (offered env s).length i s.editIndex ∧ s' = { s with editIndex := i }
  | .nextEdit => s.editIndex < (offered env s).length →
      err = false ∧ ∃ i, After (offered env s).length i s.editIndex ∧ s' = { s with editIndex := i }
  | .back => err = false ∧ s' = { s with modes := [.selectProblem] }
  | .previousUsage => s.usageIndex < s.usages →
      err = false ∧ ∃ i, Before s.usages i s.usageIndex ∧ s' = { s with usageIndex := i }
  | .nextUsage => s.usageIndex < s.usages →
      err = false ∧ ∃ i, After s.usages i s.usageIndex ∧ s' = { s with usageIndex := i }
  | .backtrace => (err = true ∧ s' = { s with backtraceIndex := 0 } ∧ ∀ id p n, (live s.store)[s.problemIndex]? = some (id, p) →
        s.usageIndex < s.usages → env.frames p s.usageIndex ≠ some n) ∨
      (err = false ∧ ∃ id p n, (live s.store)[s.problemIndex]? = some (id, p) ∧ env.frames p s.usageIndex = some n ∧
        s' = { s with backtraceIndex := 0, modes := .backtrace n :: s.modes })
  | .jumpToEdits => err = false ∧ s' = { s with modes := [.selectEdit, .selectProblem], editIndex := 0 }
  | .internal => err = false ∧ s' = { s with modes := .internalDiagnostics :: s.modes }
  | .packageDetails => err = false ∧ s' = { s with showDetails := !s.showDetails }
  | .quit => err = false ∧ s' = { s with modes := [] }
  | .help => err = false ∧ s' = { s with modes := .help :: s.modes }

/-- The screens for which there is help. -/
def Helped : Mode → Prop
  | .selectProblem | .selectEdit | .selectUsage => True
  | _ => False

/-- **C148 (the claim).** Whatever has happened: a key that does something on a screen is listed in the help for this screen. -/
def C148_Claim : Prop :=
  ∀ (F E C : Type) [DecidableEq F] (env : Env F E C), env.Sane → ∀ x tr, Exec env x tr → Listening x →
    ∀ m, x.ui.modes.head? = some m → m ≠ .help → ∀ k w x', act env x (.iter w (.key k)) = some x' →
      (x'.ui ≠ x.ui ∨ x'.error = true) → ∃ kt ∈ helpKeys (some m), k ∈ keysNamed kt.1

/-! ## Lemmas -/

theorem supports_iff {env : Env F E C} {s : State F C} : supportsComments env s = true ↔ Supported env s := by
  unfold supportsComments Supported openFile placeholder
  rw [offered_eq]
  cases h1 : (s.edits env)[s.editIndex]? with
  | none => simp
  | some ed =>
    cases h2 : env.parse (s.file.getD env.blank) with
    | none => simp
    | some e => simp

theorem problem_help : (helpKeys (some .selectProblem)).map (fun kt => (keysNamed kt.1, meaningOf kt.2)) =
    [([.char 'f'], some .fixes), ([.char 'd'], some .usages), ([.char 't'], some .tree), ([.up], some .previousProblem),
      ([.down], some .nextProblem), ([.char 'a'], some .autoApply), ([.char 'p'], some .packageDetails),
      ([.char 'q'], some .quit), ([.char 'h', .char '?'], some .help)] := by rfl

theorem edit_help : (helpKeys (some .selectEdit)).map (fun kt => (keysNamed kt.1, meaningOf kt.2)) =
    [([.char ' ', .enter, .char 'f'], some .apply), ([.char 'd'], some .usages), ([.char 'c'], some .comment),
      ([.up], some .previousEdit), ([.down], some .nextEdit), ([.esc], some .back), ([.char 'p'], some .packageDetails),
      ([.char 'q'], some .quit), ([.char 'h', .char '?'], some .help)] := by rfl

theorem usage_help : (helpKeys (some .selectUsage)).map (fun kt => (keysNamed kt.1, meaningOf kt.2)) =
    [([.up], some .previousUsage), ([.down], some .nextUsage), ([.char 'b'], some .backtrace),
      ([.char 'f'], some .jumpToEdits), ([.char 'd', .esc], some .back), ([.char 'i'], some .internal),
      ([.char 'p'], some .packageDetails), ([.char 'q'], some .quit), ([.char 'h', .char '?'], some .help)] := by rfl

theorem counter_up {i n j : Nat} (hi : i < n) (h : updateCounter i .up n = some j) : Before n j i := by
  unfold updateCounter at h
  rw [if_neg (by omega)] at h
  simp only [Option.some.injEq] at h
  subst h
  unfold Before
  refine ⟨Nat.mod_lt _ (by omega), ?_⟩
  cases i with
  | zero =>
    right
    refine ⟨rfl, ?_⟩
    rw [Nat.zero_add, Nat.mod_eq_of_lt (by omega)]
    omega
  | succ i =>
    left
    rw [show i + 1 + n - 1 = i + n by omega, Nat.add_mod_right, Nat.mod_eq_of_lt (by omega)]

theorem counter_down {i n j : Nat} (hi : i < n) (h : updateCounter i .down n = some j) : After n j i := by
  unfold updateCounter at h
  rw [if_neg (by omega)] at h
  simp only [Option.some.injEq] at h
  subst h
  unfold After
  refine ⟨Nat.mod_lt _ (by omega), ?_⟩
  by_cases hl : i + 1 = n
  · right
    refine ⟨hl, ?_⟩
    rw [show i + n + 1 = 2 * n by omega, Nat.mul_mod_left]
  · left
    rw [show i + n + 1 = (i + 1) + n by omega, Nat.add_mod_right, Nat.mod_eq_of_lt (by omega)]

/-- What a key does, in terms of `handleKey`. -/
theorem key_act {env : Env F E C} {x x' : Sys F C} {m : Mode} (hl : Listening x) (hm : x.ui.modes.head? = some m) {w : Bool}
    {k : Key} (h : act env x (.iter w (.key k)) = some x') : handleKey env w x.ui k = some (x'.ui, x'.error) := by
  simp only [act, iterate, hl.1, hl.2.1, Bool.false_eq_true, if_false, if_true, checkQuit_of_head hm, receive, draw_error, hl.2.2,
    draw_ui] at h
  obtain ⟨r, hr, rfl⟩ := Option.map_eq_some_iff.mp h
  rw [hr]

/-- Help for a mode is right if it is right for each entry of the table. -/
theorem help_of_table {env : Env F E C} {x : Sys F C} {m : Mode} {table : List (List Key × Option Meaning)}
    (ht : (helpKeys (some m)).map (fun kt => (keysNamed kt.1, meaningOf kt.2)) = table)
    (h : ∀ e ∈ table, ∃ me, e.2 = some me ∧ e.1 ≠ [] ∧ ∀ k ∈ e.1, ∀ (w : Bool) (s' : State F C) (err : Bool),
      handleKey env w x.ui k = some (s', err) → me.Holds env x.ui s' err)
    (hl : Listening x) (hm : x.ui.modes.head? = some m) (kt : Str × Str) (hkt : kt ∈ helpKeys (some m)) :
    ∃ me, meaningOf kt.2 = some me ∧ keysNamed kt.1 ≠ [] ∧ ∀ k ∈ keysNamed kt.1, ∀ w x', act env x (.iter w (.key k)) = some x' →
      me.Holds env x.ui x'.ui x'.error := by
  have := List.mem_map_of_mem (f := fun kt : Str × Str => (keysNamed kt.1, meaningOf kt.2)) hkt
  rw [ht] at this
  obtain ⟨me, h1, h0, h2⟩ := h _ this
  exact ⟨me, h1, h0, fun k hk w x' ha => h2 k hk w _ _ (key_act hl hm ha)⟩

theorem keys_of_table {m : Mode} {table : List (List Key × Option Meaning)}
    (ht : (helpKeys (some m)).map (fun kt => (keysNamed kt.1, meaningOf kt.2)) = table) {k : Key}
    (h : ∀ kt ∈ helpKeys (some m), k ∉ keysNamed kt.1) : ∀ e ∈ table, k ∉ e.1 := by
  intro e he
  rw [← ht] at he
  obtain ⟨kt, h1, rfl⟩ := List.mem_map.mp he
  exact h kt h1

theorem details_holds {env : Env F E C} {s s' : State F C} {err : Bool} (hs : Shape s.modes)
    (h : detailsKey s = some (s', err)) : Meaning.Holds env s s' err .usages := by
  unfold detailsKey at h
  split at h
  · next h0 => cases h; exact Or.inl ⟨h0, rfl, rfl⟩
  · next h0 =>
    obtain ⟨ms, h1, h2⟩ := Option.map_eq_some_iff.mp h
    rw [hs.drop ms h1] at h2
    cases h2
    exact Or.inr ⟨h0, rfl, rfl⟩

theorem accept_holds {env : Env F E C} (hs : env.Sane) {s s' : State F C} {err w : Bool} {tr : List Ev} (hr : Run s.store tr)
    (hm : s.modes = [.selectEdit, .selectProblem]) (h : acceptKey env w s = some (s', err)) :
    Meaning.Holds env s s' err .apply := by
  intro ed hed
  rw [offered_eq] at hed
  rcases acceptKey_cases env hs w s hr with ⟨_, h2⟩ | ⟨_, _, h1, _⟩ | ⟨id, p, ed', e, st, tr', _, h2, h3, _, _, h1, _⟩
  · rw [h2] at hed; cases hed
  · rw [h1] at h; cases h; exact Or.inl ⟨rfl, rfl⟩
  · rw [hed] at h2
    cases h2
    rw [h1] at h
    cases h
    refine Or.inr ⟨rfl, ?_, e, h3, rfl⟩
    show s.modes.tail = _
    rw [hm]; rfl

theorem backtrace_holds {env : Env F E C} {s s' : State F C} {err : Bool} (h : some (backtraceKey env s) = some (s', err)) :
    Meaning.Holds env s s' err .backtrace := by
  unfold backtraceKey at h
  split at h
  · next hsel =>
    cases h
    refine Or.inl ⟨rfl, rfl, fun id p n hp => ?_⟩
    rw [show s.selected = (live s.store)[s.problemIndex]? from rfl, hp] at hsel
    cases hsel
  · next id p hsel =>
    split at h
    · next hn =>
      cases h
      refine Or.inl ⟨rfl, rfl, fun id' p' n hp hu hf => ?_⟩
      have hu' : s.usages = numUsages p := by unfold State.usages; rw [hsel]
      rw [show s.selected = (live s.store)[s.problemIndex]? from rfl, hp] at hsel
      cases hsel
      rw [if_pos (by rw [← hu']; exact hu), hf] at hn
      cases hn
    · next n hn =>
      cases h
      refine Or.inr ⟨rfl, id, p, n, hsel, ?_, rfl⟩
      split at hn
      · exact hn
      · cases hn

/-! ## C148 -/

/-- **C148 (partial).** Whatever has happened: on the list of problems, of edits and of usages, each entry of the help has one of the
meanings above, and each key that it names does this. -/
theorem C148_keys_partial (env : Env F E C) (hs : env.Sane) (x : Sys F C) (tr : List (Sys F C × Act F C)) (h : Exec env x tr)
    (hl : Listening x) (m : Mode) (hm : x.ui.modes.head? = some m) (hh : Helped m) (kt : Str × Str)
    (hkt : kt ∈ helpKeys (some m)) :
    ∃ me, meaningOf kt.2 = some me ∧ keysNamed kt.1 ≠ [] ∧ ∀ k ∈ keysNamed kt.1, ∀ w x', act env x (.iter w (.key k)) = some x' →
      me.Holds env x.ui x'.ui x'.error := by
  have hshape := exec_shape hs h
  obtain ⟨t, ht⟩ := (exec_inv hs h).store
  obtain ⟨ms, hms⟩ := head_cons hm
  cases m <;> first | exact hh.elim | skip
  · -- the list of problems
    have hone : x.ui.modes = [.selectProblem] := by
      rw [hms] at hshape ⊢
      cases hshape with
      | problems => rfl
      | over h _ _ => exact h.elim
    refine help_of_table problem_help ?_ hl hm kt hkt
    intro e he
    simp only [List.mem_cons, List.not_mem_nil, or_false] at he
    rcases he with rfl | rfl | rfl | rfl | rfl | rfl | rfl | rfl | rfl <;>
      refine ⟨_, rfl, by simp, ?_⟩ <;> intro k hk w s' err ha <;>
      simp only [List.mem_cons, List.not_mem_nil, or_false] at hk
    · subst hk
      rw [handleKey, hone] at ha
      simp only [if_false, Key.char.injEq, show ('f' = 'q') = False by decide] at ha
      unfold Meaning.Holds
      rw [offered_eq]
      split at ha
      · next h0 => cases ha; exact Or.inl ⟨List.length_eq_zero_iff.mp h0, rfl, rfl⟩
      · next h0 =>
        cases ha
        refine Or.inr ⟨fun h => h0 (by rw [h]; rfl), rfl, ?_⟩
        simp only [enterEdit, hone]
    · subst hk
      rw [handleKey, hone] at ha
      simp only [Key.char.injEq, show ('d' = 'q') = False by decide, if_false] at ha
      exact details_holds hshape ha
    · subst hk
      rw [handleKey, hone] at ha
      simp only [Key.char.injEq, show ('t' = 'q') = False by decide, if_false] at ha
      cases ha
      exact ⟨rfl, by rw [hone]⟩
    · subst hk
      rw [handleKey, hone] at ha
      simp only [reduceCtorEq, if_false] at ha
      obtain ⟨i, h1, h2⟩ := Option.map_eq_some_iff.mp ha
      cases h2
      intro hi
      rw [storeLen_eq] at h1
      exact ⟨rfl, i, counter_up hi h1, by rw [hone]⟩
    · subst hk
      rw [handleKey, hone] at ha
      simp only [reduceCtorEq, if_false] at ha
      obtain ⟨i, h1, h2⟩ := Option.map_eq_some_iff.mp ha
      cases h2
      intro hi
      rw [storeLen_eq] at h1
      exact ⟨rfl, i, counter_down hi h1, by rw [hone]⟩
    · subst hk
      rw [handleKey, hone] at ha
      simp only [Key.char.injEq, show ('a' = 'q') = False by decide, if_false] at ha
      split at ha
      · next h0 => cases ha; exact ⟨rfl, Or.inl ⟨h0, rfl⟩⟩
      · next h0 =>
        cases ha
        exact ⟨rfl, Or.inr ⟨by simpa using h0, by rw [hone]⟩⟩
    · subst hk
      rw [handleKey, hone] at ha
      cases ha
      exact ⟨rfl, rfl⟩
    · subst hk
      rw [handleKey, hone] at ha
      cases ha
      exact ⟨rfl, rfl⟩
    · rw [handleKey, hone] at ha
      rcases hk with rfl | rfl <;>
      · simp only [generalKey, ok] at ha
        cases ha
        exact ⟨rfl, by rw [hone]; rfl⟩
  · -- the list of edits
    have htwo : x.ui.modes = [.selectEdit, .selectProblem] := by
      rw [hms] at hshape ⊢
      cases hshape with
      | edits => rfl
      | over h _ _ => exact h.elim
    refine help_of_table edit_help ?_ hl hm kt hkt
    intro e he
    simp only [List.mem_cons, List.not_mem_nil, or_false] at he
    rcases he with rfl | rfl | rfl | rfl | rfl | rfl | rfl | rfl | rfl <;>
      refine ⟨_, rfl, by simp, ?_⟩ <;> intro k hk w s' err ha <;>
      simp only [List.mem_cons, List.not_mem_nil, or_false] at hk
    · rw [handleKey, htwo] at ha
      rcases hk with rfl | rfl | rfl
      · simp only [Key.char.injEq, show (' ' = 'q') = False by decide, if_false] at ha
        exact accept_holds hs ht htwo ha
      · simp only [reduceCtorEq, if_false] at ha
        exact accept_holds hs ht htwo ha
      · simp only [Key.char.injEq, show ('f' = 'q') = False by decide, if_false] at ha
        exact accept_holds hs ht htwo ha
    · subst hk
      rw [handleKey, htwo] at ha
      simp only [Key.char.injEq, show ('d' = 'q') = False by decide, if_false] at ha
      exact details_holds hshape ha
    · subst hk
      rw [handleKey, htwo] at ha
      simp only [Key.char.injEq, show ('c' = 'q') = False by decide, if_false] at ha
      split at ha
      · rename_i hsup
        cases ha
        exact Or.inr ⟨supports_iff.mp hsup, rfl, by rw [htwo]⟩
      · rename_i hsup
        cases ha
        exact Or.inl ⟨fun h => hsup (supports_iff.mpr h), rfl, rfl⟩
    · subst hk
      rw [handleKey, htwo] at ha
      simp only [reduceCtorEq, if_false] at ha
      obtain ⟨i, h1, h2⟩ := Option.map_eq_some_iff.mp ha
      cases h2
      unfold Meaning.Holds
      rw [offered_eq]
      intro hi
      exact ⟨rfl, i, counter_up hi h1, by rw [htwo]⟩
    · subst hk
      rw [handleKey, htwo] at ha
      simp only [reduceCtorEq, if_false] at ha
      obtain ⟨i, h1, h2⟩ := Option.map_eq_some_iff.mp ha
      cases h2
      unfold Meaning.Holds
      rw [offered_eq]
      intro hi
      exact ⟨rfl, i, counter_down hi h1, by rw [htwo]⟩
    · subst hk
      rw [handleKey, htwo] at ha
      simp only [generalKey, ok, reduceCtorEq, if_false, htwo, if_true, or_self, List.length_cons, List.length_nil, ge_iff_le,
        Nat.le_refl, Nat.zero_add, Nat.reduceAdd] at ha
      cases ha
      exact ⟨rfl, rfl⟩
    · subst hk
      rw [handleKey, htwo] at ha
      cases ha
      exact ⟨rfl, rfl⟩
    · subst hk
      rw [handleKey, htwo] at ha
      cases ha
      exact ⟨rfl, rfl⟩
    · rw [handleKey, htwo] at ha
      rcases hk with rfl | rfl <;>
      · simp only [generalKey, ok] at ha
        cases ha
        exact ⟨rfl, by rw [htwo]; rfl⟩
  · -- the list of usages
    have htwo : x.ui.modes = [.selectUsage, .selectProblem] := by
      rw [hms] at hshape ⊢
      cases hshape with
      | usages => rfl
      | over h _ _ => exact h.elim
    refine help_of_table usage_help ?_ hl hm kt hkt
    intro e he
    simp only [List.mem_cons, List.not_mem_nil, or_false] at he
    rcases he with rfl | rfl | rfl | rfl | rfl | rfl | rfl | rfl | rfl <;>
      refine ⟨_, rfl, by simp, ?_⟩ <;> intro k hk w s' err ha <;>
      simp only [List.mem_cons, List.not_mem_nil, or_false] at hk
    · subst hk
      rw [handleKey, htwo] at ha
      simp only [reduceCtorEq, if_false] at ha
      obtain ⟨i, h1, h2⟩ := Option.map_eq_some_iff.mp ha
      cases h2
      intro hi
      exact ⟨rfl, i, counter_up hi h1, by rw [htwo]⟩
    · subst hk
      rw [handleKey, htwo] at ha
      simp only [reduceCtorEq, if_false] at ha
      obtain ⟨i, h1, h2⟩ := Option.map_eq_some_iff.mp ha
      cases h2
      intro hi
      exact ⟨rfl, i, counter_down hi h1, by rw [htwo]⟩
    · subst hk
      rw [handleKey, htwo] at ha
      simp only [Key.char.injEq, show ('b' = 'q') = False by decide, if_false] at ha
      exact backtrace_holds ha
    · subst hk
      rw [handleKey, htwo] at ha
      simp only [Key.char.injEq, show ('f' = 'q') = False by decide, if_false] at ha
      cases ha
      exact ⟨rfl, by simp only [enterEdit, htwo, List.tail_cons]⟩
    · rw [handleKey, htwo] at ha
      rcases hk with rfl | rfl
      · simp only [Key.char.injEq, show ('d' = 'q') = False by decide, if_false] at ha
        cases ha
        exact ⟨rfl, rfl⟩
      · simp only [generalKey, ok, reduceCtorEq, if_false, htwo, if_true, or_self, List.length_cons, List.length_nil, ge_iff_le,
          Nat.le_refl, Nat.zero_add, Nat.reduceAdd] at ha
        cases ha
        exact ⟨rfl, rfl⟩
    · subst hk
      rw [handleKey, htwo] at ha
      simp only [Key.char.injEq, show ('i' = 'q') = False by decide, if_false] at ha
      cases ha
      exact ⟨rfl, by rw [htwo]⟩
    · subst hk
      rw [handleKey, htwo] at ha
      cases ha
      exact ⟨rfl, rfl⟩
    · subst hk
      rw [handleKey, htwo] at ha
      cases ha
      exact ⟨rfl, rfl⟩
    · rw [handleKey, htwo] at ha
      rcases hk with rfl | rfl <;>
      · simp only [generalKey, ok] at ha
        cases ha
        exact ⟨rfl, by rw [htwo]; rfl⟩

/-- **C148 (partial).** On these screens a key that the help does not name does nothing. -/
theorem C148_others_partial (env : Env F E C) (hs : env.Sane) (x : Sys F C) (tr : List (Sys F C × Act F C)) (h : Exec env x tr)
    (hl : Listening x) (m : Mode) (hm : x.ui.modes.head? = some m) (hh : Helped m) (k : Key)
    (hk : ∀ kt ∈ helpKeys (some m), k ∉ keysNamed kt.1) (w : Bool) (x' : Sys F C)
    (ha : act env x (.iter w (.key k)) = some x') : x'.ui = x.ui ∧ x'.error = false := by
  have hshape := exec_shape hs h
  obtain ⟨ms, hms⟩ := head_cons hm
  have ha' := key_act hl hm ha
  generalize x'.ui = s' at *
  generalize x'.error = err at *
  cases m <;> first | exact hh.elim | skip
  · have hone : x.ui.modes = [.selectProblem] := by
      rw [hms] at hshape ⊢
      cases hshape with
      | problems => rfl
      | over h _ _ => exact h.elim
    have hk := keys_of_table problem_help hk
    simp only [List.mem_cons, List.not_mem_nil, or_false, forall_eq_or_imp, forall_eq, not_or] at hk
    rw [handleKey, hone] at ha'
    simp only at ha'
    rw [if_neg hk.2.2.2.2.2.2.2.1] at ha'
    split at ha' <;> simp_all [generalKey, ok]
  · have htwo : x.ui.modes = [.selectEdit, .selectProblem] := by
      rw [hms] at hshape ⊢
      cases hshape with
      | edits => rfl
      | over h _ _ => exact h.elim
    have hk := keys_of_table edit_help hk
    simp only [List.mem_cons, List.not_mem_nil, or_false, forall_eq_or_imp, forall_eq, not_or] at hk
    rw [handleKey, htwo] at ha'
    simp only at ha'
    rw [if_neg hk.2.2.2.2.2.2.2.1] at ha'
    split at ha' <;> simp_all [generalKey, ok]
  · have htwo : x.ui.modes = [.selectUsage, .selectProblem] := by
      rw [hms] at hshape ⊢
      cases hshape with
      | usages => rfl
      | over h _ _ => exact h.elim
    have hk := keys_of_table usage_help hk
    simp only [List.mem_cons, List.not_mem_nil, or_false, forall_eq_or_imp, forall_eq, not_or] at hk
    rw [handleKey, htwo] at ha'
    simp only at ha'
    rw [if_neg hk.2.2.2.2.2.2.2.1] at ha'
    split at ha' <;> simp_all [generalKey, ok]

/-- Looking at the backtrace of a use. -/
def inBacktrace : List (Act (List Str) Bool) :=
  reported [.disallowedUnsafe ⟨⟨str! "a", str! "1.0.0", true⟩, .primary⟩ [aUsage 1, aUsage 2]] ++ [press (.char 'd'), press (.char 'b')]

/-- Concrete cases: on the list of usages `b` shows the backtrace; `x` does nothing. -/
example : ((demoRun inBacktrace).map (fun x => x.ui.modes)) = some [.backtrace 2, .selectUsage, .selectProblem] := by decide

example : (keysNamed (str! "space/enter/f"), keysNamed (str! "h/?")) = ([.char ' ', .enter, .char 'f'], [.char 'h', .char '?']) := by
  rfl

/-- **C148 (refuted).** In the backtrace, the keys that select a frame and that lead back are not in the help. -/
theorem C148_backtrace_keys : ¬ C148_Claim := by
  intro h
  have h1 : (demoRun inBacktrace).isSome = true := by decide
  obtain ⟨x, hx⟩ := Option.isSome_iff_exists.mp h1
  obtain ⟨tr, he⟩ := demo_exec hx
  have h2 : (demoRun inBacktrace).map (fun x => (x.ui.modes.head?, x.started, x.ended, x.error, x.ui.backtraceIndex)) =
      some (some (.backtrace 2), true, false, false, 0) := by decide
  have h3 : ((demoRun inBacktrace).bind (fun x => act demo x (press .down))).isSome = true := by decide
  have h4 : ((demoRun inBacktrace).bind (fun x => act demo x (press .down))).map (fun x => x.ui.backtraceIndex) = some 1 := by decide
  rw [hx] at h2 h3 h4
  simp only [Option.map_some, Option.some.injEq, Prod.mk.injEq, Option.bind_some] at h2 h3 h4
  obtain ⟨x', hx'⟩ := Option.isSome_iff_exists.mp h3
  rw [hx'] at h4
  simp only [Option.map_some, Option.some.injEq] at h4
  obtain ⟨kt, hkt, hk⟩ := h _ _ _ demo demo_sane x tr he ⟨h2.2.1, h2.2.2.1, h2.2.2.2.1⟩ _ h2.1 (by simp) .down true x' hx'
    (Or.inl (fun h5 => by rw [h5, h2.2.2.2.2] at h4; cases h4))
  have h6 : (helpKeys (some (.backtrace 2))).map (fun kt => keysNamed kt.1) = [[.char 'p'], [.char 'q'], [.char 'h', .char '?']] := by
    rfl
  have h7 := List.mem_map_of_mem (f := fun kt : Str × Str => keysNamed kt.1) hkt
  rw [h6] at h7
  simp only [List.mem_cons, List.not_mem_nil, or_false] at h7
  rcases h7 with h7 | h7 | h7 <;> rw [h7] at hk <;> simp at hk

/-! ## The parts of the screen -/

/-- The part of the screen that a mode shows; `below` is the mode under it. -/
def paneOf (below : Option Mode) : Mode → Pane
  | .selectProblem => .details
  | .selectEdit => .editDetails
  | .selectUsage => .usageSource
  | .backtrace _ => .backtraceSource
  | .promptAutoAccept => .autoAccept
  | .packageTree => .packageTree
  | .internalDiagnostics => .internalDiagnostics
  | .setComment _ => .commentInput
  | .help => .help (helpKeys below)

/-- The parts in the middle of the screen. -/
def Pane.middle : Pane → Bool
  | .details | .editDetails | .usageSource | .backtraceSource => true
  | _ => false

/-- The parts at the bottom of the screen. -/
def Pane.bottom : Pane → Bool
  | .packageDetails | .usageDetails => true
  | _ => false

theorem drawModes_append (all : List Mode) (b : Bool) : ∀ (l : List Mode) (prev : Option Mode) (m : Mode),
    drawModes all b prev (l ++ [m]) = drawModes all b prev l ++ drawMode all b ((l.getLast?).or prev) m
  | [], prev, m => by simp [drawModes]
  | a :: l, prev, m => by
    rw [List.cons_append, drawModes, drawModes_append all b l, drawModes, List.append_assoc]
    cases l with
    | nil => rfl
    | cons c l => simp [List.getLast?_cons]

theorem drawMode_over {m : Mode} (hm : Overlay m) (all : List Mode) (b : Bool) (prev : Option Mode) (k : Mode) :
    drawMode (m :: all) b prev k = drawMode all b prev k := by
  cases k <;> cases m <;> first | exact hm.elim | simp [drawMode]

theorem drawModes_over {m : Mode} (hm : Overlay m) (all : List Mode) (b : Bool) : ∀ (l : List Mode) (prev : Option Mode),
    drawModes (m :: all) b prev l = drawModes all b prev l
  | [], _ => rfl
  | a :: l, prev => by rw [drawModes, drawModes, drawMode_over hm, drawModes_over hm all b l]

theorem overlay_pane {m : Mode} (hm : Overlay m) (all : List Mode) (b : Bool) (prev : Option Mode) :
    drawMode all b prev m = [paneOf prev m] ∧ (paneOf prev m).middle = false ∧ (paneOf prev m).bottom = false := by
  cases m <;> first | exact hm.elim | exact ⟨rfl, rfl, rfl⟩

theorem shape_panes {ms : List Mode} (h : Shape ms) (b : Bool) : ms ≠ [] →
    ((drawModes ms b none ms.reverse).filter (fun p => !p.bottom)).getLast? = (ms.head?).map (paneOf ms.tail.head?) ∧
    ((drawModes ms b none ms.reverse).filter Pane.middle).length = 1 ∧
    ((drawModes ms b none ms.reverse).filter Pane.bottom).length ≤ (if b then 1 else 0) := by
  induction h with
  | quit => intro h; exact absurd rfl h
  | problems => intro _; cases b <;> exact ⟨rfl, rfl, by decide⟩
  | edits => intro _; cases b <;> exact ⟨rfl, rfl, by decide⟩
  | usages => intro _; cases b <;> exact ⟨rfl, rfl, by decide⟩
  | frames n => intro _; cases b <;> exact ⟨rfl, rfl, Nat.zero_le _⟩
  | @over m ms hm hne _ ih =>
    intro _
    obtain ⟨_, h2, h3⟩ := ih hne
    rw [List.reverse_cons, drawModes_append, drawModes_over hm]
    have hl : (ms.reverse.getLast?).or none = ms.head? := by simp
    rw [hl]
    obtain ⟨h4, h5, h6⟩ := overlay_pane hm (m :: ms) b ms.head?
    rw [h4]
    refine ⟨?_, ?_, ?_⟩
    · simp [List.filter_append, h6]
    · simp only [List.filter_append, List.filter_cons, h5, List.filter_nil, List.append_nil, Bool.false_eq_true, if_false]
      exact h2
    · simp only [List.filter_append, List.filter_cons, h6, List.filter_nil, List.append_nil, Bool.false_eq_true, if_false]
      exact h3

/-- **C125 (part).** Whatever has happened, as long as the user has not quit: what was drawn last (apart from the bottom of the
screen) is the part of the screen whose keys are active, with the help for the screen below if it is the help; there is exactly one part
in the middle of the screen; and something at the bottom at most if the user wants it. -/
theorem C125_panes (env : Env F E C) (hs : env.Sane) (x : Sys F C) (tr : List (Sys F C × Act F C)) (h : Exec env x tr) (m : Mode)
    (ms : List Mode) (hm : x.ui.modes = m :: ms) :
    ((panes x.ui).filter (fun p => !p.bottom)).getLast? = some (paneOf ms.head? m) ∧
    ((panes x.ui).filter Pane.middle).length = 1 ∧
    ((panes x.ui).filter Pane.bottom).length ≤ (if x.ui.showDetails then 1 else 0) := by
  obtain ⟨h1, h2, h3⟩ := shape_panes (exec_shape hs h) x.ui.showDetails (by rw [hm]; simp)
  rw [hm, List.head?_cons, List.tail_cons, Option.map_some, ← hm] at h1
  unfold panes
  refine ⟨?_, ?_, ?_⟩
  · rw [List.filter_cons, if_pos (show (!Pane.problems.bottom) = true from rfl), List.getLast?_cons, h1]
    rfl
  · rw [List.filter_cons, if_neg (by simp [Pane.middle])]; exact h2
  · rw [List.filter_cons, if_neg (by simp [Pane.bottom])]; exact h3

/-- A concrete case: the help over the backtrace. -/
example : (demoRun (inBacktrace ++ [press (.char 'h')])).map (fun x => panes x.ui) =
    some [.problems, .backtraceSource, .help (helpKeys (some (.backtrace 2)))] := by decide

/-! ## C149 -/

/-- Problems that are about places in the source. -/
def AtPlaces : Problem → Prop
  | .disallowedUnsafe _ _ | .disallowedExtern _ _ | .disallowedApiUsage _ | .offTreeApiUsage _ _ => True
  | _ => False

/-- `t` says `part`. -/
def Says (t part : Str) : Prop := ∃ pre post, t = pre ++ part ++ post

/-- **C149.** What the report says about a problem that is not about places in the source is what the row of the problem says, or it is
shown as its details. -/
theorem C149_details (names : Report.Names) (p : Problem) (hp : ¬ AtPlaces p) :
    Report.longText names p = Report.shortText p ∨ shownDetails names p = Report.longText names p := by
  unfold shownDetails
  cases p <;> first | exact absurd trivial hp | exact Or.inl rfl | skip
  all_goals
    split
    · next h => exact Or.inl h.symm
    · exact Or.inr rfl

/-- **C149.** For a new version of the config, the details say what it changes. -/
theorem C149_notes (names : Report.Names) :
    Says (shownDetails names (.newConfigVersionAvailable 2)) (str! "updating to version 2 or higher will mean that rustc will now be sandboxed") ∧
    Says (shownDetails names (.newConfigVersionAvailable 3)) (str! "Added field allow_extern") ∧
    ∀ v, Says (shownDetails names (.newConfigVersionAvailable v)) (str! "version " ++ Json.showInt v ++ str! " is available") := by
  have h : ∀ v, shownDetails names (.newConfigVersionAvailable v) =
      str! "A newer config " ++ (str! "version " ++ Json.showInt v ++ str! " is available") ++ (str! "\n\n" ++ changeNotes v) := by
    intro v
    unfold shownDetails
    rw [if_neg (by
      intro h
      have := congrArg List.head? h
      simp [Report.shortText, problemDetails] at this)]
    simp only [problemDetails, List.append_assoc]
    rfl
  refine ⟨?_, ?_, fun v => ⟨_, _, h v⟩⟩
  · exact ⟨str! "A newer config version 2 is available\n\nrustc.sandbox.kind now inherits from sandbox.kind. So if you have a default sandbox configured, ", str! ".", by rw [h 2]; decide +kernel⟩
  · exact ⟨str! "A newer config version 3 is available\n\n", [], by rw [h 3]; decide +kernel⟩

theorem quoted_three (l0 l1 l2 l3 post a b c : Str) :
    l0 ++ Report.quote a ++ l1 ++ Report.quote b ++ l2 ++ Report.quote c ++ (l3 ++ post) =
      l0 ++ (['`'] ++ a ++ ('`' :: l1 ++ ['`']) ++ b ++ ('`' :: l2 ++ ['`']) ++ c ++ ('`' :: l3)) ++ post := by
  simp [Report.quote]

/-- **C149.** The details of API use of a package that is not a dependency name both packages and the API. -/
theorem C149_off_tree (names : Report.Names) (u : ApiUsages) (r : Perm.PkgId) :
    Says (shownDetails names (.offTreeApiUsage u r)) (str! "`" ++ Report.pkgText u.pkg ++ str! "` doesn't depend on `" ++ Report.pkgText r ++
      str! "`, we found code that used the `" ++ u.api ++ str! "` API") := by
  have hne : Report.shortText (.offTreeApiUsage u r) ≠ problemDetails names (.offTreeApiUsage u r) := by
    intro h
    have : some '`' = some 'A' := congrArg List.head? h
    exact absurd this (by decide)
  refine ⟨str! "Although ", str! ". Most likely there's a generic parameter being used that allows access to this API, but which hasn't been declared as belonging to this API. It can also be due to a false-positive when a macro defines a symbol, then an inlined function references that symbol.", ?_⟩
  unfold shownDetails
  rw [if_neg hne]
  exact quoted_three (str! "Although ") (str! " doesn't depend on ") (str! ", we found code that used the ") (str! " API") _ _ _ _

/-- **C149.** For the other problems about places, the details name the key that leads to the list of the places; it does, and the list has
all the places. -/
theorem C149_places (le : SourceLoc → SourceLoc → Bool) (names : Report.Names) (env : Env F E C) (hs : env.Sane) (x : Sys F C)
    (tr : List (Sys F C × Act F C)) (h : Exec env x tr) (hl : Listening x) (hm : x.ui.modes.head? = some .selectProblem) (id : Nat)
    (p : Problem) (hp : (live x.ui.store)[x.ui.problemIndex]? = some (id, p)) (q : Place) (hq : IsPlace p q) (w : Bool) (x' : Sys F C)
    (ha : act env x (.iter w (.key (.char 'd'))) = some x') :
    (Says (shownDetails names p) (str! "Press 'd' to see details of each usage") ∨ ∃ u r, p = .offTreeApiUsage u r) ∧
    x'.error = false ∧ x'.ui.modes.head? = some .selectUsage ∧ (live x'.ui.store)[x'.ui.problemIndex]? = some (id, p) ∧
    q ∈ usageList le p := by
  have hmem := (mem_usageList le p q).mpr hq
  have hnum : x.ui.usages ≠ 0 := by
    rw [usages_of x.ui hp, numUsages_eq le]
    intro h0
    rw [List.length_eq_zero_iff.mp h0] at hmem
    cases hmem
  refine ⟨?_, ?_⟩
  · cases hq <;> first | exact Or.inr ⟨_, _, rfl⟩ | skip
    all_goals
      left
      refine ⟨[], [], ?_⟩
      unfold shownDetails
      rw [if_neg]
      · rfl
      · intro h
        have : some '`' = some 'P' := congrArg List.head? h
        exact absurd this (by decide)
  · obtain ⟨me, h1, _, h3⟩ := C148_keys_partial env hs x tr h hl _ hm trivial
      (str! "d", str! "Select and show details of each usage (API/unsafe/extern only)") (by decide)
    have hme : me = .usages := by
      have : meaningOf (str! "Select and show details of each usage (API/unsafe/extern only)") = some .usages := by rfl
      rw [this] at h1
      exact (Option.some.inj h1).symm
    subst hme
    rcases h3 (.char 'd') (by decide) w x' ha with ⟨h0, _⟩ | ⟨_, h4, h5⟩
    · exact absurd h0 hnum
    · refine ⟨h4, ?_, ?_, hmem⟩
      · rw [h5]; rfl
      · rw [h5]; exact hp

/-- Concrete cases. -/
example : ¬ AtPlaces (.unusedAllowApi ⟨str! "a", .all⟩ [str! "fs"]) ∧
    shownDetails ⟨id, id⟩ (.unusedAllowApi ⟨str! "a", .all⟩ [str! "fs"]) = str! "`pkg.a` allows APIs that aren't used:\n    fs\n" :=
  ⟨fun h => h, by decide⟩

example : IsPlace (.disallowedUnsafe ⟨⟨str! "a", str! "1.0.0", true⟩, .primary⟩ [aUsage 1, aUsage 2]) (.unsafeAt (aUsage 2)) :=
  .unsafeCode (by simp)

end Cackle.Ui
