import Verif.Props.RustcEnd

/-!
# C170: the source scan reads a file as the compiler does in each edition

`rustc_lexer` knows no editions. Where the meaning of a text depends on the edition, it gives the token of the newest edition,
and the compiler (`rustc_parse::lexer`) then takes only the first characters of that token and begins to read again after
them. Cackle uses `rustc_lexer` and takes the tokens as they are.
-/

namespace Cackle.Rustc
open Cackle Perm Scan Deps BuildScript

/-! ## Specification -/

/-- Of these tokens the compiler takes only so many characters (`rustc_parse::lexer::Lexer::next_token_from_cursor`, the cases
of `GuardedStrPrefix`, `CStr`, `RawCStr` and `RawLifetime`). -/
def rereads (edition : Nat) (text : Str) : Option Nat :=
  if edition < 2024 ∧ (text = str! "#\"" ∨ text = str! "##") then some 1
  else if edition < 2021 ∧ str! "c\"" <+: text then some 1
  else if edition < 2021 ∧ (str! "cr\"" <+: text ∨ str! "cr#" <+: text ∨ str! "'r#" <+: text) then some 2
  else none

/-- The tokens of a text, as the compiler reads it. -/
inductive ReadBy (lex : Str → List Tok) (edition : Nat) : Str → List Tok → Prop where
  | nil : ReadBy lex edition [] []
  | whole {s t r ts} : lex s = t :: r → rereads edition t.text = none → ReadBy lex edition (s.drop t.text.length) ts →
      ReadBy lex edition s (t :: ts)
  | part {s t r n ts} : lex s = t :: r → rereads edition t.text = some n → ReadBy lex edition (s.drop n) ts →
      ReadBy lex edition s (⟨false, t.text.take n⟩ :: ts)

/-- After a token, the lexer reads the rest as if it were a text of its own. -/
def Restarts (lex : Str → List Tok) : Prop := ∀ s t r, lex s = t :: r → r = lex (s.drop t.text.length)

/-- The English claim C170: if the wrapper reports success, then no source file uses `unsafe` or `extern` without permission,
as the compiler reads the file in the edition of the crate. -/
def C170_Claim : Prop :=
  ∀ (lex : Str → List Tok) (edition : Nat) (crate : CrateSel) (args : List Str) (attempts : List Attempt),
    (∀ s, sourceOf (lex s) = s) → Restarts lex → proxyRustc lex crate args attempts = .exit 0 →
    ∃ before a after perms version, attempts = before ++ a :: after ∧ a.config = some (perms, version) ∧
      ∀ files, Wrote args a files → (∀ f ∈ files, '\\' ∉ f) → ∀ f ∈ files, ∀ text, HasText a f text →
        ∀ toks, ReadBy lex edition text toks →
        (unsafePermitted perms crate = false → ¬ UsesUnsafe toks) ∧
        (externPermitted perms crate version = false → ¬ UsesExtern toks)

/-! ## C170 -/

theorem readBy_whole {lex : Str → List Tok} {edition : Nat} (hr : Restarts lex) {s : Str} {toks : List Tok}
    (h : ReadBy lex edition s toks) (hsrc : ∀ s, sourceOf (lex s) = s) :
    (∀ t ∈ lex s, rereads edition t.text = none) → toks = lex s := by
  induction h with
  | nil =>
    intro _
    have := hsrc []
    cases hl : lex [] with
    | nil => rfl
    | cons t r =>
      have hr' := hr _ _ _ hl
      simp only [List.drop_nil] at hr'
      rw [hl] at hr'
      exact absurd (congrArg List.length hr') (by simp)
  | whole h1 _ _ ih =>
    intro h
    rw [h1] at h ⊢
    rw [ih, ← hr _ _ _ h1]
    rw [← hr _ _ _ h1]
    exact fun t ht => h t (List.mem_cons_of_mem _ ht)
  | part h1 h2 _ _ =>
    intro h
    rw [h1] at h
    rw [h _ List.mem_cons_self] at h2
    cases h2

/-- **C170 (partial).** The claim for files none of whose tokens is read in another way in the edition of the crate. Missing:
the others, see `C170_guarded` and the theorems after it. -/
theorem C170_read_partial (lex : Str → List Tok) (edition : Nat) (crate : CrateSel) (args : List Str) (attempts : List Attempt)
    (hlex : ∀ s, sourceOf (lex s) = s) (hr : Restarts lex) (h : proxyRustc lex crate args attempts = .exit 0) :
    ∃ before a after perms version, attempts = before ++ a :: after ∧ a.config = some (perms, version) ∧
      ∀ files, Wrote args a files → (∀ f ∈ files, '\\' ∉ f) → ∀ f ∈ files, ∀ text, HasText a f text →
        (∀ t ∈ lex text, rereads edition t.text = none) → ∀ toks, ReadBy lex edition text toks →
        (unsafePermitted perms crate = false → ¬ UsesUnsafe toks) ∧
        (externPermitted perms crate version = false → ¬ UsesExtern toks) := by
  obtain ⟨before, a, after, perms, version, o, h1, -, h3, -, -, -, h7⟩ :=
    C23_compiled_partial lex crate args attempts hlex h
  refine ⟨before, a, after, perms, version, h1, h3, fun files hw hb f hf text ht hn toks hrd => ?_⟩
  rw [readBy_whole hr hrd hlex hn]
  exact h7 files hw hb f hf text ht

/-- **C170 (partial), newest edition.** From edition 2024 on, the claim holds for all files. -/
theorem C170_newest_partial (lex : Str → List Tok) (edition : Nat) (he : 2024 ≤ edition) (crate : CrateSel) (args : List Str)
    (attempts : List Attempt) (hlex : ∀ s, sourceOf (lex s) = s) (hr : Restarts lex)
    (h : proxyRustc lex crate args attempts = .exit 0) :
    ∃ before a after perms version, attempts = before ++ a :: after ∧ a.config = some (perms, version) ∧
      ∀ files, Wrote args a files → (∀ f ∈ files, '\\' ∉ f) → ∀ f ∈ files, ∀ text, HasText a f text →
        ∀ toks, ReadBy lex edition text toks →
        (unsafePermitted perms crate = false → ¬ UsesUnsafe toks) ∧
        (externPermitted perms crate version = false → ¬ UsesExtern toks) := by
  obtain ⟨before, a, after, perms, version, h1, h2, h3⟩ := C170_read_partial lex edition crate args attempts hlex hr h
  refine ⟨before, a, after, perms, version, h1, h2, fun files hw hb f hf text ht => h3 files hw hb f hf text ht ?_⟩
  intro t _
  unfold rereads
  rw [if_neg (by omega), if_neg (by omega), if_neg (by omega)]

/-- The characters up to and including the text `"#`. -/
def rawLen : Str → Nat
  | [] => 0
  | [_] => 1
  | a :: b :: s => if a = '"' ∧ b = '#' then 2 else 1 + rawLen (b :: s)

/-- The length of the first token, in a part of `rustc_lexer` (`Cursor::advance_token`): white space, line comments, words,
string literals without escapes, guarded string prefixes, raw C string literals with one `#`, raw lifetimes, and single other
characters. -/
def tokLen : Str → Nat
  | '/' :: '/' :: s => 2 + (s.takeWhile (· ≠ '\n')).length
  | '#' :: '"' :: _ => 2
  | '#' :: '#' :: _ => 2
  | 'c' :: 'r' :: '#' :: '"' :: s => 4 + rawLen s
  | '\'' :: 'r' :: '#' :: s => 3 + (s.takeWhile Char.isAlphanum).length
  | '"' :: s => 2 + (s.takeWhile (· ≠ '"')).length
  | c :: s =>
    if c = ' ' ∨ c = '\n' then 1 + (s.takeWhile (fun c => c = ' ' || c = '\n')).length
    else if c.isAlphanum then 1 + (s.takeWhile Char.isAlphanum).length
    else 1
  | [] => 0

/-- Whether a token is white space or a comment. -/
def skipText (s : Str) : Bool := s.head? = some ' ' || s.head? = some '\n' || (str! "//").isPrefixOf s

/-- The tokens of a text of at most that length. -/
def lexUpTo : Nat → Str → List Tok
  | 0, _ => []
  | _ + 1, [] => []
  | n + 1, c :: s => ⟨skipText ((c :: s).take (max 1 (tokLen (c :: s)))), (c :: s).take (max 1 (tokLen (c :: s)))⟩ ::
      lexUpTo n ((c :: s).drop (max 1 (tokLen (c :: s))))

/-- The lexer for the examples. -/
def partLex (s : Str) : List Tok := lexUpTo s.length s

theorem lexUpTo_enough : ∀ (n m : Nat) (s : Str), s.length ≤ n → s.length ≤ m → lexUpTo n s = lexUpTo m s := by
  intro n
  induction n with
  | zero =>
    intro m s h _
    obtain rfl := List.length_eq_zero_iff.mp (Nat.le_zero.mp h)
    cases m <;> rfl
  | succ n ih =>
    intro m s h1 h2
    cases s with
    | nil => cases m <;> rfl
    | cons c s =>
      cases m with
      | zero => simp at h2
      | succ m =>
        unfold lexUpTo
        have hl : ((c :: s).drop (max 1 (tokLen (c :: s)))).length ≤ s.length := by
          rw [List.length_drop, List.length_cons]; omega
        simp only [List.length_cons] at h1 h2
        rw [ih m _ (by omega) (by omega)]

theorem partLex_restarts : Restarts partLex := by
  intro s t r h
  cases s with
  | nil => cases h
  | cons c s =>
    unfold partLex at h
    rw [List.length_cons] at h
    unfold lexUpTo at h
    simp only [List.cons.injEq] at h
    obtain ⟨rfl, rfl⟩ := h
    unfold partLex
    have hd : (c :: s).drop ((c :: s).take (max 1 (tokLen (c :: s)))).length = (c :: s).drop (max 1 (tokLen (c :: s))) := by
      rw [List.length_take]
      rcases Nat.le_total (max 1 (tokLen (c :: s))) (c :: s).length with h | h
      · rw [Nat.min_eq_left h]
      · rw [Nat.min_eq_right h, List.drop_length, List.drop_eq_nil_of_le h]
    simp only [hd]
    refine lexUpTo_enough _ _ _ ?_ (Nat.le_refl _)
    rw [List.length_drop, List.length_cons]; omega

theorem lexUpTo_source : ∀ (n : Nat) (s : Str), s.length ≤ n → sourceOf (lexUpTo n s) = s := by
  intro n
  induction n with
  | zero =>
    intro s h
    obtain rfl := List.length_eq_zero_iff.mp (Nat.le_zero.mp h)
    rfl
  | succ n ih =>
    intro s h
    cases s with
    | nil => rfl
    | cons c s =>
      unfold lexUpTo
      have := ih ((c :: s).drop (max 1 (tokLen (c :: s)))) (by
        rw [List.length_drop, List.length_cons]; simp only [List.length_cons] at h; omega)
      unfold sourceOf at this ⊢
      rw [List.flatMap_cons, this]
      exact List.take_append_drop _ _

theorem partLex_source (s : Str) : sourceOf (partLex s) = s := lexUpTo_source _ s (Nat.le_refl _)

/-- How the compiler reads a text of at most that length. -/
def readUpTo (edition : Nat) : Nat → Str → List Tok
  | 0, _ => []
  | _ + 1, [] => []
  | n + 1, c :: s =>
    match rereads edition ((c :: s).take (max 1 (tokLen (c :: s)))) with
    | none => ⟨skipText ((c :: s).take (max 1 (tokLen (c :: s)))), (c :: s).take (max 1 (tokLen (c :: s)))⟩ ::
        readUpTo edition n ((c :: s).drop ((c :: s).take (max 1 (tokLen (c :: s)))).length)
    | some k => ⟨false, ((c :: s).take (max 1 (tokLen (c :: s)))).take k⟩ :: readUpTo edition n ((c :: s).drop k)

theorem rereads_pos {edition : Nat} {text : Str} {k : Nat} (h : rereads edition text = some k) : 1 ≤ k := by
  unfold rereads at h
  split at h
  · cases h; omega
  · split at h
    · cases h; omega
    · split at h
      · cases h; omega
      · cases h

theorem readUpTo_reads (edition : Nat) : ∀ (n : Nat) (s : Str), s.length ≤ n →
    ReadBy partLex edition s (readUpTo edition n s) := by
  intro n
  induction n with
  | zero =>
    intro s h
    obtain rfl := List.length_eq_zero_iff.mp (Nat.le_zero.mp h)
    exact .nil
  | succ n ih =>
    intro s h
    cases s with
    | nil => exact .nil
    | cons c s =>
      simp only [List.length_cons] at h
      have hl : partLex (c :: s) = ⟨skipText ((c :: s).take (max 1 (tokLen (c :: s)))), (c :: s).take (max 1 (tokLen (c :: s)))⟩ ::
          lexUpTo s.length ((c :: s).drop (max 1 (tokLen (c :: s)))) := by
        unfold partLex
        rw [List.length_cons, lexUpTo]
      unfold readUpTo
      split
      · rename_i hr
        refine .whole hl hr (ih _ ?_)
        rw [List.length_drop, List.length_take, List.length_cons]; omega
      · rename_i k hr
        refine .part hl hr (ih _ ?_)
        have := rereads_pos hr
        rw [List.length_drop, List.length_cons]; omega

private def exCrate : CrateSel := ⟨⟨str! "p", str! "1.0.0", true⟩, .primary⟩
private def exArgs : List Str :=
  [str! "rustc", str! "--crate-name", str! "p", str! "--emit=dep-info,link", str! "--out-dir", str! "/t"]
private def exAttempt (text : Str) : Attempt where
  config := some ([(⟨str! "p", .all⟩, Config.PkgCfg.leaf {})], 2)
  output := some ⟨some 0, some [], some []⟩
  readDeps := fun _ => some (depInfo [str! "/t/p.rlib"] [str! "a.rs"] [])
  canon := fun f => if f = str! "a.rs" then some f else none
  readSource := fun f => if f = str! "a.rs" then some (some text) else none
  onComplete := some .continue
  onUnsafe := some .continue
  onExtern := some .giveUp

/-- A file that refutes the claim for an edition: it is accepted, and the compiler reads `unsafe` in it. -/
theorem refuted_by (edition : Nat) (text : Str) (before : List (Str × Str)) (pre q u : Str) (after : List (Str × Str))
    (hacc : proxyRustc partLex exCrate exArgs [exAttempt text] = .exit 0)
    (huses : significant [] (readUpTo edition text.length text) = before ++ (pre, str! "unsafe") :: (q, u) :: after)
    (hu : u ∉ [str! "extern"]) : ¬ C170_Claim := by
  intro h
  obtain ⟨bef, a, aft, perms, version, h1, h2, h3⟩ :=
    h partLex edition exCrate exArgs [exAttempt text] partLex_source partLex_restarts hacc
  obtain rfl : a = exAttempt text := by
    cases bef with
    | nil => simp at h1; exact h1.1.symm
    | cons b bs => simp at h1
  obtain ⟨rfl, rfl⟩ : perms = _ ∧ version = _ := by
    simp [exAttempt] at h2
    exact ⟨h2.1.symm, h2.2.symm⟩
  refine (h3 [str! "a.rs"] ⟨_, [str! "/t/p.rlib"], [], rfl, rfl, by decide, by decide, by decide, by decide⟩ (by decide)
    (str! "a.rs") (by simp) text ⟨str! "a.rs", by simp [exAttempt], by simp [exAttempt]⟩ _
    (readUpTo_reads edition _ _ (Nat.le_refl _))).1 (by decide) ?_
  exact ⟨before, pre, q, u, after, huses, hu⟩

/-- **C170, disagreement, up to edition 2021.** Cackle takes the characters `#"` for one token, so that for it the quotation mark
after them begins a string literal. For the compiler it ends one, and what follows is code (the arguments of a macro, which may
be one that gives them back). -/
theorem C170_guarded : ¬ C170_Claim :=
  refuted_by 2021 (str! "m! { #\"\" unsafe { } \"\" }") ((significant [] (readUpTo 2021 25 (str! "m! { #\"\" unsafe { } \"\" }"))).take 5)
    (str! "m! { #\"\" ") (str! "m! { #\"\" unsafe ") (str! "{")
    ((significant [] (readUpTo 2021 25 (str! "m! { #\"\" unsafe { } \"\" }"))).drop 7) (by decide +kernel) (by decide +kernel) (by decide)

/-- **C170, disagreement, up to edition 2018.** Cackle takes `'r#unsafe` for a lifetime. For the compiler it is the lifetime `'r`, the
character `#` and the keyword. -/
theorem C170_raw_lifetime : ¬ C170_Claim :=
  refuted_by 2018 (str! "m! { 'r#unsafe { } }") ((significant [] (readUpTo 2018 20 (str! "m! { 'r#unsafe { } }"))).take 5)
    (str! "m! { 'r#") (str! "m! { 'r#unsafe ") (str! "{")
    ((significant [] (readUpTo 2018 20 (str! "m! { 'r#unsafe { } }"))).drop 7) (by decide +kernel) (by decide +kernel) (by decide)

/-- **C170, disagreement, up to edition 2018.** Cackle takes everything between `cr#"` and `"#` for a C string literal. For the
compiler there are two empty string literals with code between them. -/
theorem C170_raw_c_string : ¬ C170_Claim :=
  refuted_by 2018 (str! "m! { cr#\"\" unsafe { } \"\"# }")
    ((significant [] (readUpTo 2018 29 (str! "m! { cr#\"\" unsafe { } \"\"# }"))).take 6)
    (str! "m! { cr#\"\" ") (str! "m! { cr#\"\" unsafe ") (str! "{")
    ((significant [] (readUpTo 2018 29 (str! "m! { cr#\"\" unsafe { } \"\"# }"))).drop 8) (by decide +kernel) (by decide +kernel) (by decide)

/-! Non-vacuity: an ordinary file is read as it is, and accepted; the first of these files is read as it is in edition 2024. -/
example : proxyRustc partLex exCrate exArgs [exAttempt (str! "fn f() { g(\"unsafe\") }")] = .exit 0 ∧
    ∀ t ∈ partLex (str! "fn f() { g(\"unsafe\") }"), rereads 2015 t.text = none := by decide +kernel
example : (readUpTo 2024 25 (str! "m! { #\"\" unsafe { } \"\" }")).map Tok.text =
    (partLex (str! "m! { #\"\" unsafe { } \"\" }")).map Tok.text := by decide +kernel
example : proxyRustc partLex exCrate exArgs [exAttempt (str! "fn f() { unsafe { } }")] = .running := by decide +kernel

end Cackle.Rustc
