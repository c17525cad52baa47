import Verif.Model.Lexer
import Verif.Props.Scan

/-!
# C55: the scanner and the compiler see the same tokens
-/

namespace Cackle.Lexer
open Cackle Scan

theorem run_append (p : Char → Bool) (s : Str) : (run p s).1 ++ (run p s).2 = s := by
  induction s with
  | nil => rfl
  | cons c cs ih =>
    simp only [run]
    split
    · simp [ih]
    · rfl

theorem block_append (d : Nat) (s : Str) : (block d s).1 ++ (block d s).2 = s := by
  fun_induction block d s <;> simp_all

theorem strLit_append (s : Str) : (strLit s).1 ++ (strLit s).2 = s := by
  fun_induction strLit s <;> simp_all

theorem first_spec {s rest : Str} {t : Tok} (h : first s = some (t, rest)) :
    t.text ++ rest = s ∧ t.text ≠ [] := by
  unfold first at h
  split at h
  · cases h
  all_goals
    try (split at h; rotate_left; split at h)
    all_goals
      simp only [Option.some.injEq, Prod.mk.injEq] at h
      obtain ⟨rfl, rfl⟩ := h
      simp [run_append, block_append, strLit_append]

theorem first_none {s : Str} (h : first s = none) : s = [] := by
  unfold first at h
  split at h
  · rfl
  all_goals
    try (split at h; rotate_left; split at h)
    all_goals cases h

theorem lexN_source : ∀ (n : Nat) (s : Str), s.length ≤ n → sourceOf (lexN n s) = s
  | 0, s, h => by
    have : s = [] := List.length_eq_zero_iff.mp (by omega)
    subst this
    rfl
  | n + 1, s, h => by
    simp only [lexN]
    cases hf : first s with
    | none => rw [first_none hf]; rfl
    | some r =>
      obtain ⟨t, rest⟩ := r
      obtain ⟨h1, h2⟩ := first_spec hf
      have hlen : rest.length ≤ n := by
        have := congrArg List.length h1
        have hp := List.length_pos_iff.mpr h2
        simp at this
        omega
      have := lexN_source n rest hlen
      simp only [sourceOf, List.flatMap_cons] at this ⊢
      rw [this, h1]

/-- Tokenising loses nothing. -/
theorem lex_source (s : Str) : sourceOf (lex s) = s := lexN_source _ s (Nat.le_refl _)

/-- The compiler sees an `unsafe` token that is followed by something other than `extern`. -/
def CompilerSeesUnsafe (source : Str) : Prop :=
  ∃ before pre q a after, significant [] (lex (stripShebang source)) =
    before ++ (pre, str! "unsafe") :: (q, a) :: after ∧ a ≠ str! "extern"

/-- The English claim C55: if the compiler sees `unsafe` code in a source file, the scan reports
something. -/
def C55_Claim : Prop :=
  ∀ source : Str, CompilerSeesUnsafe source → scanUnsafe source (lex source) ≠ some []

/-- **C55, disagreement.** The compiler drops a first line starting with `#!`, the scanner does not: a
comment opened in that line hides the whole file from the scanner. -/
theorem C55_shebang_hides_code : ¬ C55_Claim := by
  intro h
  refine h (str! "#!/x /*\nunsafe {}\n") ⟨[], str! "\n", str! "\nunsafe ", str! "{", [(str! "\nunsafe {", str! "}")],
    by decide +kernel, by decide⟩ (by decide +kernel)

/-- **C55 (partial).** If the compiler tokenises the file as it is, in particular if the file does not
start with `#!`, then `unsafe` code the compiler sees is reported at its position. Missing: files with a
`#!` line. -/
theorem C55_no_shebang_partial (source : Str) (hs : stripShebang source = source)
    (h : CompilerSeesUnsafe source) :
    ∃ l, scanUnsafe source (lex source) = some l ∧ l ≠ [] := by
  obtain ⟨before, pre, q, a, after, h1, h2⟩ := h
  rw [hs] at h1
  have := scanString_spec (by decide) (by decide) (fun a b h => ((checkUnsafe_iff a b).mp h).1)
    (lex source)
  rw [lex_source] at this
  refine ⟨_, this, ?_⟩
  intro e
  rw [h1] at e
  have hm := flags_mem (kw := str! "unsafe") (check := checkUnsafe)
    (last := decide ((significant [] (lex source)).length % 2 = 1)) (pre := pre) (t := str! "unsafe")
    (q := q) (u := a) before after (by
      rw [checkUnsafe_iff]
      exact ⟨rfl, by simpa [unsafeBad] using h2⟩)
  rw [h1, e] at hm
  simp at hm

example : stripShebang (str! "#![a]\nunsafe {}") = str! "#![a]\nunsafe {}" := by decide +kernel
example : CompilerSeesUnsafe (str! "#![a]\nunsafe {}") :=
  ⟨[(str! "", str! "#"), (str! "#", str! "!"), (str! "#!", str! "["), (str! "#![", str! "a"),
    (str! "#![a", str! "]")], str! "#![a]\n", str! "#![a]\nunsafe ", str! "{",
    [(str! "#![a]\nunsafe {", str! "}")], by decide +kernel, by decide⟩

end Cackle.Lexer
