import Verif.Model.Fs

/-!
# C26: config writes are atomic
-/

namespace Cackle.Fs
open Cackle

/-- No two names share a file, and fresh inodes are fresh. -/
def Ok (s : State) : Prop :=
  (∀ p q i, s.names p = some i → s.names q = some i → p = q) ∧ ∀ p i, s.names p = some i → i < s.next

/-- The English claim C26: whenever the writer stops (after the operations `done`) and whenever a reader
opened the file before that (after the operations `before`), the reader sees the complete old contents (or
no file, if there was none) or the complete new contents. -/
def C26_Claim : Prop :=
  ∀ (s : State) (path : PathC) (chunks : List (List Char)) (before mid after : List Op),
    Ok s → before ++ mid ++ after = writeAtomic path chunks →
    readVia (exec s before) (exec s (before ++ mid)) path = readVia s s path ∨
    readVia (exec s before) (exec s (before ++ mid)) path = some chunks.flatten

/-- **C26, disagreement.** If the file's extension is already `tmp` (`--config-path=c.tmp`), the file itself
is truncated first. -/
theorem C26_tmp_extension : ¬ C26_Claim := by
  intro h
  have := h ⟨fun p => if p = [str! "c.tmp"] then some 0 else none, fun _ => ['o'], 1⟩ [str! "c.tmp"] [['n']]
    [.create [str! "c.tmp"]] [] [.append [str! "c.tmp"] ['n'], .rename [str! "c.tmp"] [str! "c.tmp"]]
    ⟨by
      intro p q i h1 h2
      simp only [Option.ite_none_right_eq_some] at h1 h2
      rw [h1.1, h2.1], by
      intro p i h1
      simp only [Option.ite_none_right_eq_some, Option.some.injEq] at h1
      show i < 1
      omega⟩ rfl
  revert this
  decide

theorem exec_append (s : State) (a b : List Op) : exec s (a ++ b) = exec (exec s a) b := by
  simp [exec, List.foldl_append]

/-- The state while the temporary file is being written. -/
structure Mid (s : State) (path tmp : PathC) (t : State) (written : List Char) : Prop where
  same : t.names path = s.names path
  old : ∀ i, s.names path = some i → t.files i = s.files i
  ofTmp : ∃ j, t.names tmp = some j ∧ t.files j = written ∧ s.names path ≠ some j

theorem mid_create {s : State} {path tmp : PathC} (ok : Ok s) (hne : tmp ≠ path) :
    Mid s path tmp (Op.apply s (.create tmp)) [] := by
  simp only [Op.apply]
  cases ht : s.names tmp with
  | some i =>
    have hp : s.names path ≠ some i := fun e => hne (ok.1 _ _ i ht e)
    exact ⟨rfl, by
      intro k hk
      have : k ≠ i := by rintro rfl; exact hp hk
      simp [this], i, ht, by simp, hp⟩
  | none =>
    refine ⟨by simp [Ne.symm hne], ?_, s.next, by simp, by simp, ?_⟩
    · intro k hk
      have : k ≠ s.next := by
        have := ok.2 _ _ hk
        omega
      simp [this]
    · intro e
      have := ok.2 _ _ e
      omega

theorem mid_append {s t : State} {path tmp : PathC} {w : List Char} (h : Mid s path tmp t w)
    (c : List Char) : Mid s path tmp (Op.apply t (.append tmp c)) (w ++ c) := by
  obtain ⟨h1, h2, j, h3, h4, h5⟩ := h
  simp only [Op.apply, h3]
  refine ⟨h1, ?_, j, h3, by simp [h4], h5⟩
  intro k hk
  have : k ≠ j := by rintro rfl; exact h5 hk
  simp [this, h2 k hk]

theorem mid_appends {s : State} {path tmp : PathC} : ∀ {cs : List (List Char)} {t : State} {w : List Char},
    Mid s path tmp t w → Mid s path tmp (exec t (cs.map (.append tmp))) (w ++ cs.flatten)
  | [], t, w, h => by simpa [exec] using h
  | c :: cs, t, w, h => by
    have := mid_appends (cs := cs) (mid_append h c)
    simpa [exec] using this

/-- Before the rename: after any proper prefix of the operations. -/
theorem mid_prefix {s : State} {path tmp : PathC} (ok : Ok s) (hne : tmp ≠ path) (cs : List (List Char))
    (ops rest : List Op) (h : ops ++ rest = .create tmp :: cs.map (.append tmp)) (h0 : ops ≠ []) :
    ∃ w, Mid s path tmp (exec s ops) w := by
  cases ops with
  | nil => exact absurd rfl h0
  | cons o ops =>
    simp only [List.cons_append, List.cons.injEq] at h
    obtain ⟨rfl, h⟩ := h
    obtain ⟨l1, l2, rfl, rfl, -⟩ := List.map_eq_append_iff.mp h.symm
    exact ⟨_, mid_appends (mid_create ok hne)⟩

theorem readVia_mid {s t : State} {path tmp : PathC} {w : List Char} (h : Mid s path tmp t w)
    {opened : State} (ho : opened.names path = s.names path) : readVia opened t path = readVia s s path := by
  unfold readVia
  rw [ho]
  cases hs : s.names path with
  | none => rfl
  | some i => simp [h.old i hs]

/-- **C26 (partial).** The claim for every file whose name with the extension `tmp` is another name (all
configuration files other than `*.tmp`): at every point at which the writer may stop, and for a reader that
opened the file at any earlier point, the contents seen are completely the old or completely the new. After
all operations a new reader sees the new contents. -/
theorem C26_atomic_partial (s : State) (path : PathC) (chunks : List (List Char))
    (before mid after : List Op) (ok : Ok s) (hne : withExtension path (str! "tmp") ≠ path)
    (h : before ++ mid ++ after = writeAtomic path chunks) :
    (readVia (exec s before) (exec s (before ++ mid)) path = readVia s s path ∨
     readVia (exec s before) (exec s (before ++ mid)) path = some chunks.flatten) ∧
    (mid = [] → after = [] →
      readVia (exec s before) (exec s (before ++ mid)) path = some chunks.flatten) := by
  generalize htmp : withExtension path (str! "tmp") = tmp at hne
  have hw : writeAtomic path chunks =
      (.create tmp :: chunks.map (.append tmp)) ++ [.rename tmp path] := by
    simp [writeAtomic, htmp]
  rw [hw] at h
  -- states before the rename
  have key : ∀ ops rest, rest ≠ [] →
      ops ++ rest = (.create tmp :: chunks.map (.append tmp)) ++ [Op.rename tmp path] →
      ops = [] ∨ ∃ w, Mid s path tmp (exec s ops) w := by
    intro ops rest hr e
    by_cases h0 : ops = []
    · exact .inl h0
    · refine .inr (mid_prefix ok hne chunks ops rest.dropLast ?_ h0)
      have := congrArg List.dropLast e
      rw [List.dropLast_append_of_ne_nil hr, List.dropLast_append_of_ne_nil (by simp)] at this
      simpa using this
  -- the final state
  have hfull : Mid s path tmp (exec s (.create tmp :: chunks.map (.append tmp))) chunks.flatten := by
    have := mid_appends (cs := chunks) (mid_create ok hne)
    simpa [exec] using this
  obtain ⟨f1, f2, j, f3, f4, f5⟩ := hfull
  have hfin : exec s ((.create tmp :: chunks.map (.append tmp)) ++ [Op.rename tmp path]) =
      { exec s (.create tmp :: chunks.map (.append tmp)) with
        names := fun q => if q = path then some j else if q = tmp then none else
          (exec s (.create tmp :: chunks.map (.append tmp))).names q } := by
    rw [exec_append]
    simp only [exec, List.foldl_cons, List.foldl_nil, Op.apply] at f3 ⊢
    rw [f3]
  by_cases ha : after = []
  · subst ha
    rw [List.append_nil] at h
    by_cases hm : mid = []
    · subst hm
      simp only [List.append_nil] at h ⊢
      have : readVia (exec s before) (exec s before) path = some chunks.flatten := by
        rw [h, hfin]
        simp [readVia, f4]
      exact ⟨.inr this, fun _ _ => this⟩
    · refine ⟨.inl ?_, fun e => absurd e hm⟩
      have hopen : (exec s before).names path = s.names path := by
        rcases key before mid hm h with rfl | ⟨w, hw⟩
        · rfl
        · exact hw.same
      rw [h, hfin]
      unfold readVia
      rw [hopen]
      cases hs : s.names path with
      | none => rfl
      | some i => simp [f2 i hs]
  · refine ⟨.inl ?_, fun _ e => absurd e ha⟩
    have hopen : (exec s before).names path = s.names path := by
      rcases key before (mid ++ after) (by simp [ha]) (by simpa using h) with rfl | ⟨w, hw⟩
      · rfl
      · exact hw.same
    rcases key (before ++ mid) after ha h with e | ⟨w, hw⟩
    · obtain ⟨rfl, rfl⟩ := List.append_eq_nil_iff.mp e
      rfl
    · exact readVia_mid hw hopen

/-- The condition holds of every file name whose extension is not `tmp`. -/
theorem withExtension_ne {dir : PathC} {name : Str} (h : ¬ ∃ t, name = t ++ str! ".tmp")
    (h1 : name ≠ str! "..") (h2 : name ≠ str! "/") :
    withExtension (dir ++ [name]) (str! "tmp") ≠ dir ++ [name] := by
  intro e
  simp only [withExtension, List.getLast?_append, List.getLast?_singleton, Option.some_or] at e
  rw [if_neg (by simp [h1, h2])] at e
  simp only [List.dropLast_concat, List.append_cancel_left_eq, List.cons.injEq, and_true] at e
  exact h ⟨stem name, by simpa using e.symm⟩

/-! Non-vacuity: `ws/cackle.toml`, opened by a reader in the middle of the write. -/
example : withExtension [str! "ws", str! "cackle.toml"] (str! "tmp") = [str! "ws", str! "cackle.tmp"] := by
  decide
example : withExtension [str! "ws", str! "cackle.toml"] (str! "tmp") ≠ [str! "ws", str! "cackle.toml"] :=
  withExtension_ne (dir := [str! "ws"]) (by
    rintro ⟨t, h⟩
    have := congrArg List.getLast? h
    simp at this) (by decide) (by decide)
private def exState : State :=
  ⟨fun p => if p = [str! "ws", str! "cackle.toml"] then some 0 else none, fun _ => str! "old", 1⟩
example : Ok exState := by
  refine ⟨?_, ?_⟩
  · intro p q i h1 h2
    simp only [exState, Option.ite_none_right_eq_some] at h1 h2
    rw [h1.1, h2.1]
  · intro p i h1
    simp only [exState, Option.ite_none_right_eq_some, Option.some.injEq] at h1 ⊢
    omega

end Cackle.Fs
