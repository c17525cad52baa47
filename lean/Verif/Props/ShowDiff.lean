import Verif.Model.ShowDiff

/-!
# C152 and C154: the diff of the line-based user interface, and the sandbox of the first configuration
-/

namespace Cackle.ShowDiff
open Cackle
open Cackle.Diff (Item)

/-! ## Specification -/

/-- The entry is a change. -/
def Changed : Item → Bool
  | .both _ => false
  | .left _ => true
  | .right _ => true

/-- How a line is printed: with a space, a minus sign or a plus sign in front. -/
def printed : Item → Str
  | .both s => ' ' :: s
  | .left s => '-' :: s
  | .right s => '+' :: s

/-- Exactly the changes and the lines at most two lines from a change, in order. `before` are the entries before, the nearest
first. -/
def expected (before : List Item) : List Item → List Str
  | [] => []
  | d :: rest =>
    (if Changed d || (before.take 2).any Changed || (rest.take 2).any Changed then [printed d] else []) ++
      expected (d :: before) rest

/-- The file before. -/
def original : List Item → List Str
  | [] => []
  | .both s :: rest => s :: original rest
  | .left s :: rest => s :: original rest
  | .right _ :: rest => original rest

/-- The file after. -/
def updated : List Item → List Str
  | [] => []
  | .both s :: rest => s :: updated rest
  | .left _ :: rest => updated rest
  | .right s :: rest => s :: updated rest

/-! ## Lemmas -/

/-- How many lines after a change are still to be printed. -/
def left (before : List Item) : Nat :=
  match before with
  | [] => 0
  | a :: bs => if Changed a then 2 else match bs with
    | [] => 0
    | b :: _ => if Changed b then 1 else 0

theorem left_pos (before : List Item) : 0 < left before ↔ (before.take 2).any Changed = true := by
  match before with
  | [] => simp [left]
  | [a] => cases h : Changed a <;> simp [left, h]
  | a :: b :: _ => cases h : Changed a <;> cases h' : Changed b <;> simp [left, h, h']

theorem left_both (s : Str) (before : List Item) : left (.both s :: before) = left before - 1 := by
  match before with
  | [] => rfl
  | [a] => cases a <;> rfl
  | a :: b :: _ => cases a <;> cases b <;> rfl

/-- The lines kept for later that are going to be printed. -/
def keep (common : List Str) (rest : List Item) : List Str :=
  match common with
  | [] => []
  | [b] => if (rest.take 2).any Changed then [' ' :: b] else []
  | a :: b :: _ => (if (rest.take 1).any Changed then [' ' :: a] else []) ++ (if (rest.take 2).any Changed then [' ' :: b] else [])

theorem run_eq (items : List Item) : ∀ (before : List Item) (st : St), st.afterContext = left before →
    (0 < left before → st.common = []) → st.common.length ≤ 2 →
    (items.foldl step st).out = st.out ++ keep st.common items ++ expected before items := by
  induction items with
  | nil =>
    intro before st _ _ hl
    have : keep st.common [] = [] := by
      match st.common, hl with
      | [], _ => rfl
      | [_], _ => rfl
      | [_, _], _ => rfl
    simp [this, expected]
  | cons d rest ih =>
    intro before st ha hc hl
    have hchange : ∀ line, Changed d = true → printed d = line → step st d = change st line →
        ((d :: rest).foldl step st).out = st.out ++ keep st.common (d :: rest) ++ expected before (d :: rest) := by
      intro line hd hp hs
      rw [List.foldl_cons, hs, ih (d :: before) (change st line) (by simp [change, left, hd]) (fun _ => rfl) (by simp [change])]
      have hk : keep st.common (d :: rest) = st.common.map (' ' :: ·) := by
        match st.common, hl with
        | [], _ => rfl
        | [_], _ => simp [keep, hd]
        | [_, _], _ => simp [keep, hd]
      rw [hk]
      simp [change, keep, expected, hd, hp]
    match d with
    | .left s => exact hchange _ rfl rfl rfl
    | .right s => exact hchange _ rfl rfl rfl
    | .both s =>
      rw [List.foldl_cons]
      by_cases h0 : 0 < left before
      · have hcm := hc h0
        have hb := (left_pos before).mp h0
        have hs : step st (.both s) = { st with afterContext := st.afterContext - 1, out := st.out ++ [' ' :: s] } := by
          simp [step, ha, h0]
        rw [hs, ih (.both s :: before) { st with afterContext := st.afterContext - 1, out := st.out ++ [' ' :: s] }
          (by simp [left_both, ha]) (fun _ => hcm) hl]
        simp [hcm, keep, expected, Changed, hb, printed]
      · have hz : left before = 0 := by omega
        have hb : (before.take 2).any Changed = false := by
          rw [Bool.eq_false_iff]
          exact fun h => h0 ((left_pos before).mpr h)
        have hs : step st (.both s) = { st with common := if (st.common ++ [s]).length > 2 then (st.common ++ [s]).tail
            else st.common ++ [s] } := by
          simp [step, ha, h0]
        have hlen : (if (st.common ++ [s]).length > 2 then (st.common ++ [s]).tail else st.common ++ [s]).length ≤ 2 := by
          split <;> simp at * <;> omega
        rw [hs, ih (.both s :: before) { st with common := if (st.common ++ [s]).length > 2 then (st.common ++ [s]).tail
            else st.common ++ [s] } (by simp [left_both, ha, hz]) (by simp [left_both, hz]) hlen]
        simp only [expected, Changed, hb, Bool.false_or, printed, List.append_assoc]
        congr 1
        rw [← List.append_assoc]
        congr 1
        match hm : st.common, hl with
        | [], _ => simp [keep]
        | [a], _ => 
          cases rest with
          | nil => simp [keep, Changed]
          | cons r rs => simp [keep, Changed]
        | [a, b], _ =>
          cases rest with
          | nil => simp [keep, Changed]
          | cons r rs => simp [keep, Changed]

/-- **C152 (partial).** For every diff: the line-based user interface prints exactly the changed lines, with their signs, and
the unchanged lines at most two lines from a change, each once and in order. Missing: where in the file the changes are (see
`C152_refuted`). -/
theorem C152_shown_partial (items : List Item) : showDiff items = expected [] items := by
  have := run_eq items [] {} rfl (fun h => absurd h (by decide)) (by decide)
  simpa [showDiff, keep] using this

theorem expected_changes (p : Char) (sel : Item → Option Str)
    (h : ∀ d, (printed d).head? = some p ↔ (sel d).isSome) (hs : ∀ d s, sel d = some s → printed d = p :: s)
    (hp : p ≠ ' ') (items : List Item) : ∀ before, (expected before items).filter (fun l => l.head? == some p) =
      (items.filterMap sel).map (p :: ·) := by
  induction items with
  | nil => intro _; rfl
  | cons d rest ih =>
    intro before
    simp only [expected, List.filter_append, ih]
    cases hd : sel d with
    | some s =>
      have hpr := hs d s hd
      have hc : Changed d = true := by
        cases d with
        | both t =>
          simp only [printed, List.cons.injEq] at hpr
          exact absurd hpr.1.symm hp
        | left t => rfl
        | right t => rfl
      simp [hc, hpr, hd, List.filter]
    | none =>
      have hn : ¬ (printed d).head? = some p := by
        rw [h d, hd]
        simp
      have : ∀ c : Bool, (if c = true then [printed d] else []).filter (fun l => l.head? == some p) = [] := by
        intro c
        cases c <;> simp [hn]
      rw [this, List.filterMap_cons, hd, List.nil_append]

/-- **C152, no change is hidden.** The lines printed with a minus sign are exactly the removed lines, and those with a plus sign
exactly the added lines, in order. -/
theorem C152_changes (items : List Item) :
    (showDiff items).filter (fun l => l.head? == some '-') =
      (items.filterMap (fun d => match d with | .left s => some s | _ => none)).map ('-' :: ·) ∧
    (showDiff items).filter (fun l => l.head? == some '+') =
      (items.filterMap (fun d => match d with | .right s => some s | _ => none)).map ('+' :: ·) := by
  rw [C152_shown_partial]
  constructor
  · refine expected_changes '-' _ ?_ ?_ (by decide) items []
    · intro d; cases d <;> simp [printed]
    · intro d s h; cases d <;> simp_all [printed]
  · refine expected_changes '+' _ ?_ ?_ (by decide) items []
    · intro d; cases d <;> simp [printed]
    · intro d s h; cases d <;> simp_all [printed]

/-- The English claim C152: what is shown says what the file is going to be, given what it is now. -/
def C152_Claim : Prop :=
  ∀ a b : List Item, original a = original b → showDiff a = showDiff b → updated a = updated b

private def before1 : List Item := [.both (str! "    \"fs\","), .both (str! "    \"net\",")]
private def after1 : List Item := [.both (str! "    \"rand\","), .both (str! "]")]
private def add1 : Item := .right (str! "    \"process\",")
private def secA : List Item := [.both (str! "[pkg.a]"), .both (str! "allow_apis = [")]
private def secB : List Item := [.both (str! "[pkg.b]"), .both (str! "allow_apis = [")]

/-- **C152, disagreement.** Two packages with the same long list of permissions: whether the permission is added for the one or
for the other, the same lines are shown, because the name of the section is too far away. -/
theorem C152_refuted : ¬ C152_Claim := by
  intro h
  have := h (secA ++ before1 ++ [add1] ++ after1 ++ secB ++ before1 ++ after1)
    (secA ++ before1 ++ after1 ++ secB ++ before1 ++ [add1] ++ after1) rfl rfl
  revert this
  decide

/-! Non-vacuity. -/
example : showDiff (secA ++ before1 ++ [add1] ++ after1 ++ secB) =
    [str! "     \"fs\",", str! "     \"net\",", str! "+    \"process\",", str! "     \"rand\",", str! " ]"] := rfl
example : showDiff [.both (str! "a"), .left (str! "b"), .right (str! "c"), .both (str! "d"), .both (str! "e"), .both (str! "f"),
    .both (str! "g"), .both (str! "h"), .left (str! "i")] =
    [str! " a", str! "-b", str! "+c", str! " d", str! " e", str! " g", str! " h", str! "-i"] := rfl

/-! ## C154 -/

/-- `bwrap` works. -/
def Works : Bwrap → Prop
  | .notStarted => False
  | .ended success => success = true

/-- **C154 (partial).** When the line-based user interface creates the first configuration: it selects bubblewrap if `bwrap`
works, and otherwise disables the sandbox and says so; an error happens only if `bwrap` vanishes in between. Missing: a `bwrap` that
fails is not noticed by the second check (see `C154_refuted`). -/
theorem C154_initial_partial (first second : Bwrap) :
    (Works first → second ≠ .notStarted → initialDoc first second = some
      ([(str! "common", .table [(str! "version", .int 3)]),
        (str! "sandbox", .table [(str! "kind", .str (str! "Bubblewrap"))])], false)) ∧
    (¬ Works first → initialDoc first second = some
      ([(str! "common", .table [(str! "version", .int 3)]),
        (str! "sandbox", .table [(str! "kind", .str (str! "Disabled"))])], true)) ∧
    (initialDoc first second = none ↔ Works first ∧ second = .notStarted) := by
  cases first with
  | notStarted =>
    refine ⟨fun h => absurd h id, fun _ => rfl, ⟨fun h => ?_, fun h => absurd h.1 id⟩⟩
    cases h
  | ended s =>
    cases s with
    | false =>
      refine ⟨fun h => absurd h (by simp [Works]), fun _ => rfl, ⟨fun h => ?_, fun h => absurd h.1 (by simp [Works])⟩⟩
      cases h
    | true =>
      cases second with
      | notStarted => exact ⟨fun _ h => absurd rfl h, fun h => absurd rfl h, ⟨fun _ => ⟨rfl, rfl⟩, fun _ => rfl⟩⟩
      | ended s =>
        refine ⟨fun _ _ => rfl, fun h => absurd rfl h, ⟨fun h => ?_, fun h => by cases h.2⟩⟩
        cases h

/-- The English claim C154: bubblewrap is only accepted as the sandbox if it works. -/
def C154_Claim : Prop := ∀ b : Bwrap, verifyKind b .bubblewrap = true → Works b

/-- **C154, disagreement.** A `bwrap` that can be started but fails is accepted. -/
theorem C154_refuted : ¬ C154_Claim := fun h => absurd (h (.ended false) rfl) (by simp [Works])

/-- **C154, the check.** Choosing bubblewrap is refused if and only if `bwrap` cannot be started, disabling the sandbox never;
what is found to be available is never refused. -/
theorem C154_verify (b : Bwrap) :
    (verifyKind b .bubblewrap = false ↔ b = .notStarted) ∧ verifyKind b .disabled = true ∧
    verifyKind b (availableKind b) = true := by
  cases b with
  | notStarted => decide
  | ended s => cases s <;> decide

end Cackle.ShowDiff
