import Verif.Model.Popup
import Verif.Props.Screen
import Verif.Props.Help

/-!
# C157: what pop-ups show
-/

namespace Cackle.Ui
open Cackle

theorem centreArea_fits (tw th w h : Nat) (hw : w ≤ tw) (hh : h ≤ th) :
    (centreArea tw th w h).width = w ∧ (centreArea tw th w h).height = h := by
  simp [centreArea, centre, Nat.min_eq_left hw, Nat.min_eq_left hh]

theorem centreArea_inside (tw th w h : Nat) :
    (centreArea tw th w h).x + (centreArea tw th w h).width ≤ tw ∧
    (centreArea tw th w h).y + (centreArea tw th w h).height ≤ th := by
  have h1 : Nat.min w tw ≤ tw := Nat.min_le_right ..
  have h2 : Nat.min h th ≤ th := Nat.min_le_right ..
  simp only [centreArea, centre]
  omega

theorem length_le_byteLen (s : Str) : s.length ≤ byteLen s := by
  induction s with
  | nil => simp
  | cons c s ih =>
    have : 1 ≤ c.utf8Size := Char.utf8Size_pos c
    simp only [byteLen, List.map_cons, List.sum_cons, List.length_cons] at ih ⊢
    omega

theorem foldl_max (l : List Nat) (a : Nat) : a ≤ l.foldl Nat.max a ∧ ∀ x ∈ l, x ≤ l.foldl Nat.max a := by
  induction l generalizing a with
  | nil => simp
  | cons y ys ih =>
    obtain ⟨h1, h2⟩ := ih (Nat.max a y)
    simp only [List.foldl_cons]
    have h3 : a ≤ Nat.max a y := Nat.le_max_left ..
    have h4 : y ≤ Nat.max a y := Nat.le_max_right ..
    refine ⟨Nat.le_trans h3 h1, fun x hx => ?_⟩
    rcases List.mem_cons.mp hx with rfl | hx
    · exact Nat.le_trans h4 h1
    · exact h2 x hx

theorem length_le_maxLen {lines : List Str} {l : Str} (h : l ∈ lines) : l.length ≤ maxLen lines :=
  Nat.le_trans (length_le_byteLen l) ((foldl_max _ 0).2 _ (List.mem_map_of_mem h))

/-- How many rows a line takes with a given number of columns: see `Wraps`. -/
def WrapsAll (rowsOf : Nat → Str → Nat) : Prop := ∀ w, 0 < w → Wraps w (rowsOf w)

/-- The English claim C157: on a terminal of the usual size or more, every line of the pop-up that asks for
confirmation is visible. -/
def C157_Claim : Prop :=
  ∀ (rowsOf : Nat → Str → Nat), WrapsAll rowsOf → ∀ tw th : Nat, 80 ≤ tw → 24 ≤ th →
    ∀ l ∈ autoAcceptText, l ∈ messageLines rowsOf tw th autoAcceptText

/-- **C157 (partial).** If the terminal is large enough for the lines (at least 20 columns), all of a message is visible, one row for
each line, and the pop-up is on the screen. -/
theorem C157_message_partial (rowsOf : Nat → Str → Nat) (hr : WrapsAll rowsOf) (tw th : Nat) (lines : List Str)
    (h1 : maxLen lines + 2 ≤ tw) (h2 : lines.length + 2 ≤ th) (h3 : 20 ≤ tw) (h4 : 5 ≤ th) (hw : tw < 65536)
    (hh : th < 65536) :
    messageLines rowsOf tw th lines = lines ∧
    (∀ l ∈ lines, rowsOf ((messageArea tw th lines).width - 2) l = 1) ∧
    (messageArea tw th lines).x + (messageArea tw th lines).width ≤ tw ∧
    (messageArea tw th lines).y + (messageArea tw th lines).height ≤ th := by
  have m1 : (maxLen lines + 2) % 65536 = maxLen lines + 2 := Nat.mod_eq_of_lt (by omega)
  have m2 : (lines.length + 2) % 65536 = lines.length + 2 := Nat.mod_eq_of_lt (by omega)
  have g1 : Nat.max (maxLen lines + 2) 20 ≤ tw := Nat.max_le.mpr ⟨h1, h3⟩
  have g2 : Nat.max (lines.length + 2) 5 ≤ th := Nat.max_le.mpr ⟨h2, h4⟩
  have g3 : maxLen lines + 2 ≤ Nat.max (maxLen lines + 2) 20 := Nat.le_max_left ..
  have g4 : lines.length + 2 ≤ Nat.max (lines.length + 2) 5 := Nat.le_max_left ..
  have ha : (messageArea tw th lines).width = Nat.max (maxLen lines + 2) 20 ∧
      (messageArea tw th lines).height = Nat.max (lines.length + 2) 5 := by
    unfold messageArea
    rw [m1, m2]
    exact centreArea_fits _ _ _ _ g1 g2
  have hrows : ∀ l ∈ lines, rowsOf ((messageArea tw th lines).width - 2) l = 1 := by
    intro l hl
    have hpos : 20 ≤ Nat.max (maxLen lines + 2) 20 := Nat.le_max_right ..
    refine (hr _ (by rw [ha.1]; omega) l).2.2 ?_
    have := length_le_maxLen hl
    rw [ha.1]
    omega
  refine ⟨?_, hrows, ?_⟩
  · exact visible_all hrows _ (by rw [ha.2]; omega)
  · exact centreArea_inside ..

/-- Breaking lines after as many characters as fit. -/
def breakLines (w : Nat) (l : Str) : Nat := Nat.max 1 ((l.length + w - 1) / w)

theorem wraps_breakLines : WrapsAll breakLines := by
  intro w hw l
  refine ⟨Nat.le_max_left .., ?_, ?_⟩
  · have h1 : (l.length + w - 1) / w ≤ breakLines w l := Nat.le_max_right ..
    have h2 : l.length ≤ w * ((l.length + w - 1) / w) := by
      have := Nat.div_add_mod (l.length + w - 1) w
      have := Nat.mod_lt (l.length + w - 1) hw
      omega
    exact Nat.le_trans h2 (Nat.mul_le_mul_left w h1)
  · intro hl
    unfold breakLines
    have : (l.length + w - 1) / w ≤ 1 := by
      rw [← Nat.lt_succ_iff, Nat.div_lt_iff_lt_mul hw]
      omega
    exact Nat.max_eq_left this

theorem autoAccept_maxLen : maxLen autoAcceptText = 159 := by decide +kernel

/-- **C157 (the question about auto-accept).** The line that says how to accept or to cancel is visible exactly on terminals with at
least 161 columns. -/
theorem C157_auto_accept (rowsOf : Nat → Str → Nat) (hr : WrapsAll rowsOf) (tw th : Nat) (h3 : 20 ≤ tw) (h7 : 7 ≤ th)
    (hw : tw < 65536) (hh : th < 65536) :
    str! "Press enter to accept, or escape to cancel." ∈ messageLines rowsOf tw th autoAcceptText ↔ 161 ≤ tw := by
  constructor
  · intro hm
    refine Nat.le_of_not_lt fun hlt => ?_
    have ha : (messageArea tw th autoAcceptText).width = tw ∧ (messageArea tw th autoAcceptText).height = 7 := by
      unfold messageArea
      rw [autoAccept_maxLen]
      have e1 : Nat.max ((159 + 2) % 65536) 20 = 161 := by decide
      have e2 : Nat.max ((autoAcceptText.length + 2) % 65536) 5 = 7 := by decide
      rw [e1, e2]
      exact ⟨Nat.min_eq_right (by omega), Nat.min_eq_left h7⟩
    unfold messageLines at hm
    rw [ha.1, ha.2] at hm
    have hwr := hr (tw - 2) (by omega)
    generalize rowsOf (tw - 2) = f at hm hwr
    unfold autoAcceptText at hm
    generalize e3 : (str! "It's recommended that you look over the resulting cackle.toml afterwards to see if there are any crates with permissions that you don't think they should have." : Str) = long at hm
    generalize e1 : (str! "Auto-accept edits for all problems that only have a single edit?" : Str) = first at hm
    have hl : long.length = 159 := by rw [← e3]; rfl
    generalize e5 : (str! "Press enter to accept, or escape to cancel." : Str) = last at hm
    have hd1 : last ≠ first := by
      intro h; rw [← e1, ← e5] at h
      have : some 'P' = some 'A' := congrArg List.head? h
      exact absurd this (by decide)
    have hd3 : last ≠ long := by
      intro h; rw [← e3, ← e5] at h
      have : some 'P' = some 'I' := congrArg List.head? h
      exact absurd this (by decide)
    have hd0 : last ≠ [] := by rw [← e5]; simp
    have r1 := (hwr first).1
    have r2 := (hwr []).1
    have r3 : 2 ≤ f long := by
      have := (hwr long).2.1
      rw [hl] at this
      refine Nat.le_of_not_lt fun hc => ?_
      have hle : f long ≤ 1 := by omega
      have := Nat.le_trans this (Nat.mul_le_mul_left (tw - 2) hle)
      omega
    have key : ∀ (n : Nat) (ls : List Str) (x : Str), last ≠ x → last ∈ visible f n (x :: ls) → last ∈ visible f (n - f x) ls := by
      intro n ls x hx hmem
      cases n with
      | zero => simp [visible] at hmem
      | succ n =>
        simp only [visible, List.mem_cons] at hmem
        exact hmem.resolve_left hx
    have s1 := key _ _ _ hd1 hm
    have s2 := key _ _ _ hd0 s1
    have s3 := key _ _ _ hd3 s2
    have s4 := key _ _ _ hd0 s3
    have hz : 7 - 2 - f first - f [] - f long - f [] = 0 := by omega
    rw [hz] at s4
    simp [visible] at s4
  · intro h
    have := (C157_message_partial rowsOf hr tw th autoAcceptText (by rw [autoAccept_maxLen]; exact h)
      (by simpa [autoAcceptText] using h7) h3 (by omega) hw hh).1
    rw [this]
    simp [autoAcceptText]

/-- **C157, disagreement.** On a terminal with 80 columns and 24 rows the question does not say how to answer it. -/
theorem C157_refuted : ¬ C157_Claim := by
  intro h
  have := h breakLines wraps_breakLines 80 24 (by decide) (by decide) (str! "Press enter to accept, or escape to cancel.")
    (by simp [autoAcceptText])
  rw [C157_auto_accept breakLines wraps_breakLines 80 24 (by decide) (by decide) (by decide) (by decide)] at this
  exact absurd this (by decide)

/-- **C157 (help).** On a terminal that is large enough the help has a row for each key, with the whole description; of the key, five
characters are visible. -/
theorem C157_help (tw th : Nat) (keys : List (Str × Str)) (h1 : maxLen (keys.map Prod.snd) + 8 ≤ tw) (h2 : keys.length + 2 ≤ th) :
    helpRows tw th keys = keys.map (fun k => (k.1.take 5, k.2)) := by
  have ha := centreArea_fits tw th (maxLen (keys.map Prod.snd) + 5 + 3) (keys.length + 2) (by omega) h2
  unfold helpRows helpArea leftColumn
  rw [ha.1, ha.2, List.take_of_length_le (by omega)]
  refine List.map_congr_left fun k hk => ?_
  have := length_le_maxLen (List.mem_map_of_mem (f := Prod.snd) hk)
  rw [List.take_of_length_le (l := k.2) (by omega)]

/-- **C157, disagreement.** However large the terminal is, the help for edits does not show that `f` and the enter key
apply the edit. -/
theorem C157_help_cut (tw th : Nat) :
    ∀ r ∈ helpRows tw th (helpKeys (some .selectEdit)), r.1.length ≤ 5 ∧ r.1 ≠ str! "space/enter/f" := by
  intro r hr
  obtain ⟨k, _, rfl⟩ := List.mem_map.mp hr
  have hl : (k.1.take leftColumn).length ≤ 5 := List.length_take_le ..
  refine ⟨hl, fun h => ?_⟩
  have h' : k.1.take leftColumn = str! "space/enter/f" := h
  rw [h'] at hl
  exact absurd hl (by decide)

/-- **C157 (comments).** While a comment is typed, all of it is visible and the cursor is inside of the pop-up exactly if the text
is short enough. -/
theorem C157_comment (tw th : Nat) (text : Str) (h : 3 ≤ tw) (h' : 3 ≤ th) :
    (commentShown tw th text = text ↔ text.length + 2 ≤ Nat.min 80 tw) ∧
    (commentCursor tw th text.length + 1 < (commentArea tw th).x + (commentArea tw th).width ↔
      text.length + 2 < Nat.min 80 tw) := by
  have hw : (commentArea tw th).width = Nat.min 80 tw := rfl
  have h3 : 3 ≤ Nat.min 80 tw := Nat.le_min.mpr ⟨by decide, h⟩
  have hh : (commentArea tw th).height = Nat.min 3 th := rfl
  have h4 : Nat.min 3 th = 3 := Nat.min_eq_left h'
  constructor
  · unfold commentShown
    rw [hw, hh, h4, if_neg (by decide)]
    constructor
    · intro he
      have := congrArg List.length he
      rw [List.length_take] at this
      omega
    · intro hl
      exact List.take_of_length_le (by omega)
  · unfold commentCursor
    rw [hw]
    omega

/-- **C157 (position).** Every pop-up is inside of the terminal and in its middle: the margins on both sides differ by at most one. -/
theorem C157_centred (tw th w h : Nat) :
    ∃ right below, (centreArea tw th w h).x + (centreArea tw th w h).width + right = tw ∧
      (centreArea tw th w h).y + (centreArea tw th w h).height + below = th ∧
      (centreArea tw th w h).x ≤ right ∧ right ≤ (centreArea tw th w h).x + 1 ∧
      (centreArea tw th w h).y ≤ below ∧ below ≤ (centreArea tw th w h).y + 1 := by
  have h1 : Nat.min w tw ≤ tw := Nat.min_le_right ..
  have h2 : Nat.min h th ≤ th := Nat.min_le_right ..
  refine ⟨tw - (centreArea tw th w h).x - (centreArea tw th w h).width,
    th - (centreArea tw th w h).y - (centreArea tw th w h).height, ?_⟩
  simp only [centreArea, centre]
  omega

/-! Non-vacuity: a pop-up of three rows, a short message, and the help for edits as it is shown. -/
example : centreArea 81 24 60 3 = ⟨10, 10, 60, 3⟩ := by decide
example : messageLines breakLines 80 24 [str! "a b", str! "c"] = [str! "a b", str! "c"] := by decide
example : (helpRows 100 40 (helpKeys (some .selectEdit))).map Prod.fst =
    [str! "space", str! "d", str! "c", str! "up", str! "down", str! "esc", str! "p", str! "q", str! "h/?"] := by decide
example : commentShown 80 24 (List.replicate 100 'a') = List.replicate 78 'a' := by decide

end Cackle.Ui
