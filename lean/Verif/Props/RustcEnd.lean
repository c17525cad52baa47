import Verif.Props.Rustc

/-!
# C166, C167: what the compiler sees, and how the rustc wrapper ends
-/

namespace Cackle.Rustc
open Cackle Perm Scan Deps BuildScript

/-! ## Specification -/

/-- The text without its first line (the end of the line stays). -/
def afterLine (text : Str) : Str := text.dropWhile (· ≠ '\n')

/-- The first line. -/
def firstLine (text : Str) : Str := text.takeWhile (· ≠ '\n')

/-- The file begins with a shebang line: it begins with `#!`, and what comes next is not the `[` of an attribute. -/
def Shebang (lex : Str → List Tok) (text : Str) : Prop :=
  ∃ tail, text = '#' :: '!' :: tail ∧ ∀ pre rest, significant [] (lex tail) ≠ (pre, ['[']) :: rest

/-- The compiler compiles `code` when it is given a file with this text: it ignores a shebang line (Rust reference,
"Input format"; `rustc_lexer::strip_shebang`). -/
def Compiles (lex : Str → List Tok) (text code : Str) : Prop :=
  (Shebang lex text ∧ code = afterLine text) ∨ (¬ Shebang lex text ∧ code = text)

/-- The English claim C166: if the wrapper reports success, then no code that the compiler compiled from a source file
uses `unsafe` or `extern` without permission. -/
def C166_Claim : Prop :=
  ∀ (lex : Str → List Tok) (crate : CrateSel) (args : List Str) (attempts : List Attempt),
    (∀ s, sourceOf (lex s) = s) →
    proxyRustc lex crate args attempts = .exit 0 →
    ∃ before a after perms version, attempts = before ++ a :: after ∧ a.config = some (perms, version) ∧
      ∀ files, Wrote args a files → (∀ f ∈ files, '\\' ∉ f) →
        ∀ f ∈ files, ∀ text, HasText a f text → ∀ code, Compiles lex text code →
        (unsafePermitted perms crate = false → ¬ UsesUnsafe (lex code)) ∧
        (externPermitted perms crate version = false → ¬ UsesExtern (lex code))

/-! ## C166 -/

theorem significant_append : ∀ (a b : List Tok) (pre : Str),
    significant pre (a ++ b) = significant pre a ++ significant (pre ++ sourceOf a) b
  | [], b, pre => by simp [significant, sourceOf]
  | t :: a, b, pre => by
    simp only [List.cons_append, significant]
    have h : pre ++ sourceOf (t :: a) = (pre ++ t.text) ++ sourceOf a := by simp [sourceOf]
    split
    · rw [significant_append a b, h]
    · rw [significant_append a b, h, List.cons_append]

theorem significant_pre : ∀ (toks : List Tok) (pre pre' : Str),
    significant (pre' ++ pre) toks = (significant pre toks).map (fun x => (pre' ++ x.1, x.2))
  | [], _, _ => rfl
  | t :: toks, pre, pre' => by
    simp only [significant]
    split
    · rw [List.append_assoc, significant_pre toks]
    · rw [List.append_assoc, significant_pre toks, List.map_cons]

/-- Tokens that are used are also used after further tokens. -/
theorem uses_append {kw : Str} {ok : List Str} (a : List Tok) {b : List Tok} (h : Uses kw ok b) : Uses kw ok (a ++ b) := by
  obtain ⟨before, pre, q, u, after, hs, hu⟩ := h
  refine ⟨significant [] a ++ before.map (fun x => (sourceOf a ++ x.1, x.2)), sourceOf a ++ pre, sourceOf a ++ q, u,
    after.map (fun x => (sourceOf a ++ x.1, x.2)), ?_, hu⟩
  rw [significant_append]
  have := significant_pre b [] (sourceOf a)
  rw [List.append_nil] at this
  rw [List.nil_append, this, hs]
  simp

/-- **C166 (partial).** The claim for files without a shebang line, and for those in which the tokens of the shebang
line end with the line, so that what follows is read in the same way with and without it. -/
theorem C166_compiled_partial (lex : Str → List Tok) (crate : CrateSel) (args : List Str) (attempts : List Attempt)
    (hlex : ∀ s, sourceOf (lex s) = s) (h : proxyRustc lex crate args attempts = .exit 0) :
    ∃ before a after perms version, attempts = before ++ a :: after ∧ a.config = some (perms, version) ∧
      ∀ files, Wrote args a files → (∀ f ∈ files, '\\' ∉ f) →
        ∀ f ∈ files, ∀ text, HasText a f text → ∀ code, Compiles lex text code →
        (Shebang lex text → lex text = lex (firstLine text) ++ lex (afterLine text)) →
        (unsafePermitted perms crate = false → ¬ UsesUnsafe (lex code)) ∧
        (externPermitted perms crate version = false → ¬ UsesExtern (lex code)) := by
  obtain ⟨before, a, after, perms, version, o, h1, -, h3, -, -, -, h7⟩ :=
    C23_compiled_partial lex crate args attempts hlex h
  refine ⟨before, a, after, perms, version, h1, h3, fun files hw hb f hf text ht code hc hsplit => ?_⟩
  obtain ⟨hu, he⟩ := h7 files hw hb f hf text ht
  rcases hc with ⟨hs, rfl⟩ | ⟨-, rfl⟩
  · rw [hsplit hs] at hu he
    exact ⟨fun hp hx => hu hp (uses_append _ hx), fun hp hx => he hp (uses_append _ hx)⟩
  · exact ⟨hu, he⟩

/-- What a token of `miniLex` is made of. -/
inductive Mode where
  | space | word | text | comment
deriving DecidableEq

/-- A token, unless it is empty. -/
def emit (k : Mode) (cur : Str) (rest : List Tok) : List Tok :=
  if cur = [] then rest else ⟨k = .space || k = .comment, cur⟩ :: rest

/-- A part of Rust's lexer: white space, line comments, words, string literals without escapes, and single other
characters. -/
def miniLex (k : Mode) (cur : Str) : Str → List Tok
  | [] => emit k cur []
  | c :: s =>
    if k = .text then
      if c = '"' then emit k (cur ++ [c]) (miniLex .space [] s) else miniLex k (cur ++ [c]) s
    else if k = .comment then
      if c = '\n' then emit k cur (miniLex .space [c] s) else miniLex k (cur ++ [c]) s
    else if c = '"' then emit k cur (miniLex .text [c] s)
    else if c = '/' ∧ s.head? = some '/' then emit k cur (miniLex .comment [c] s)
    else if c = ' ' ∨ c = '\n' then
      if k = .space then miniLex k (cur ++ [c]) s else emit k cur (miniLex .space [c] s)
    else if c.isAlphanum = true then
      if k = .word then miniLex k (cur ++ [c]) s else emit k cur (miniLex .word [c] s)
    else emit k cur (⟨false, [c]⟩ :: miniLex .space [] s)

theorem emit_source (k : Mode) (cur : Str) (rest : List Tok) : sourceOf (emit k cur rest) = cur ++ sourceOf rest := by
  unfold emit
  split
  · rename_i h; rw [h]; rfl
  · simp [sourceOf]

theorem miniLex_source : ∀ (s cur : Str) (k : Mode), sourceOf (miniLex k cur s) = cur ++ s
  | [], cur, k => by
    unfold miniLex
    rw [emit_source]
    simp [sourceOf]
  | c :: s, cur, k => by
    unfold miniLex
    repeat' split
    all_goals simp only [emit_source, miniLex_source s]
    all_goals simp [sourceOf, emit_source]
    exact miniLex_source s _ _

/-- The lexer for the examples. -/
def rustLex : Str → List Tok := miniLex .space []

theorem rustLex_source (s : Str) : sourceOf (rustLex s) = s := by simp [rustLex, miniLex_source]

private def exCrate : CrateSel := ⟨⟨str! "p", str! "1.0.0", true⟩, .primary⟩
private def exArgs : List Str :=
  [str! "rustc", str! "--crate-name", str! "p", str! "--emit=dep-info,link", str! "--out-dir", str! "/t"]
private def exAttempt (text : Str) (allow : Bool) : Attempt where
  config := some ([(⟨str! "p", .all⟩, Config.PkgCfg.leaf { allowUnsafe := allow })], 2)
  output := some ⟨some 0, some [], some []⟩
  readDeps := fun _ => some (depInfo [str! "/t/p.rlib"] [str! "a.rs"] [])
  canon := fun f => if f = str! "a.rs" then some f else none
  readSource := fun f => if f = str! "a.rs" then some (some text) else none
  onComplete := some .continue
  onUnsafe := some .continue
  onExtern := some .giveUp

/-- A source file in which a shebang line begins what looks like a string literal. -/
def hidden : Str := str! "#!/x \"\nfn f() { unsafe { } } // \"\n"

theorem hidden_shebang : Shebang rustLex hidden := by
  refine ⟨str! "/x \"\nfn f() { unsafe { } } // \"\n", rfl, fun pre rest h => ?_⟩
  have : (significant [] (rustLex (str! "/x \"\nfn f() { unsafe { } } // \"\n"))).head?.map Prod.snd = some ['['] := by
    rw [h]; rfl
  revert this
  decide +kernel

/-- **C166, disagreement.** A crate without permission for `unsafe` compiles although it uses it: its first line is a
shebang line with a quotation mark. The compiler ignores the line; cackle takes the code after it for a string. -/
theorem C166_shebang_hides_code : ¬ C166_Claim := by
  intro h
  obtain ⟨before, a, after, perms, version, h1, h2, h3⟩ :=
    h rustLex exCrate exArgs [exAttempt hidden false] rustLex_source (by decide +kernel)
  obtain rfl : a = exAttempt hidden false := by
    cases before with
    | nil => simp at h1; exact h1.1.symm
    | cons b bs => simp at h1
  obtain ⟨rfl, rfl⟩ : perms = _ ∧ version = _ := by
    simp [exAttempt] at h2
    exact ⟨h2.1.symm, h2.2.symm⟩
  refine (h3 [str! "a.rs"] ⟨_, [str! "/t/p.rlib"], [], rfl, rfl, by decide, by decide, by decide, by decide⟩ (by decide)
    (str! "a.rs") (by simp) hidden ⟨str! "a.rs", by simp [exAttempt], by simp [exAttempt]⟩ _
    (.inl ⟨hidden_shebang, rfl⟩)).1 (by decide) ?_
  exact ⟨(significant [] (rustLex (afterLine hidden))).take 5, str! "\nfn f() { ", str! "\nfn f() { unsafe ", str! "{",
    (significant [] (rustLex (afterLine hidden))).drop 7, by decide +kernel, by decide⟩

/-! Non-vacuity: an ordinary shebang line; the code after it is found. -/
example : Shebang rustLex (str! "#!/bin/run\nunsafe { }") ∧
    rustLex (str! "#!/bin/run\nunsafe { }") = rustLex (firstLine (str! "#!/bin/run\nunsafe { }")) ++
      rustLex (afterLine (str! "#!/bin/run\nunsafe { }")) := by
  refine ⟨⟨str! "/bin/run\nunsafe { }", rfl, fun pre rest h => ?_⟩, rfl⟩
  have : (significant [] (rustLex (str! "/bin/run\nunsafe { }"))).head?.map Prod.snd = some ['['] := by
    rw [h]; rfl
  revert this
  decide +kernel
example : proxyRustc rustLex exCrate exArgs [exAttempt (str! "#!/bin/run\nunsafe { }") false] = .running := by
  decide +kernel
example : ¬ Shebang rustLex (str! "#![x]\nfn f() { }") := by
  rintro ⟨tail, ht, h⟩
  cases ht
  exact h _ _ rfl

/-! ## C167: how the wrapper ends -/

/-- rustc succeeded in this attempt; it read these files, and the main process agreed. -/
structure Succeeded (args : List Str) (a : Attempt) (files : List Str) : Prop where
  code : ∃ o, a.output = some o ∧ o.code = some 0
  wrote : Wrote args a files
  plain : ∀ f ∈ files, '\\' ∉ f
  agreed : a.onComplete = some .continue

/-- The file exists, but cannot be read. -/
def Unreadable (a : Attempt) (f : Str) : Prop := ∃ p, a.canon f = some p ∧ a.readSource p = none

/-- The token occurs. -/
def Occurs (kw : Str) (toks : List Tok) : Prop := ∃ pre, (pre, kw) ∈ significant [] toks

/-- Something forbidden was found in the attempt, which the main process is told and answers with `r`: forbidden code in
a source file after a successful compilation, or an error of one of the two lints after one that failed. What is
forbidden by `extern` is told only if there is nothing forbidden by `unsafe`. -/
def Answered (lex : Str → List Tok) (crate : CrateSel) (args : List Str) (a : Attempt) (r : Outcome) : Prop :=
  ∃ perms version, a.config = some (perms, version) ∧
    ((∃ files, Succeeded args a files ∧ (∀ f ∈ files, ¬ Unreadable a f) ∧
        ((unsafePermitted perms crate = false ∧ (∃ f ∈ files, ∃ text, HasText a f text ∧ UsesUnsafe (lex text)) ∧
            a.onUnsafe = some r) ∨
          ((unsafePermitted perms crate = true ∨
              ∀ f ∈ files, ∀ text, HasText a f text → ¬ Occurs (str! "unsafe") (lex text)) ∧
            externPermitted perms crate version = false ∧
            (∃ f ∈ files, ∃ text, HasText a f text ∧ UsesExtern (lex text)) ∧ a.onExtern = some r))) ∨
      (∃ o us es, a.output = some o ∧ o.code ≠ some 0 ∧ o.unsafeErrors = some us ∧ o.externErrors = some es ∧
        ((us ≠ [] ∧ a.onUnsafe = some r) ∨ (us = [] ∧ es ≠ [] ∧ a.onExtern = some r))))

theorem findInSources_some {scan : Str → Option (List Loc)} : ∀ {paths : List Str}, (∀ p ∈ paths, scan p ≠ none) →
    ∃ l, findInSources scan paths = some l ∧ ∀ p ∈ paths, ∀ x, scan p = some x → ∀ y ∈ x, y ∈ l
  | [], _ => ⟨[], rfl, by simp⟩
  | p :: rest, h => by
    obtain ⟨l, hl, hm⟩ := findInSources_some (paths := rest) (fun q hq => h q (List.mem_cons_of_mem _ hq))
    cases hp : scan p with
    | none => exact absurd hp (h p List.mem_cons_self)
    | some x =>
      refine ⟨x ++ l, by simp [findInSources, hp, hl], fun q hq y hy z hz => ?_⟩
      rcases List.mem_cons.mp hq with rfl | hq
      · rw [hp] at hy
        cases hy
        exact List.mem_append_left _ hz
      · exact List.mem_append_right _ (hm q hq y hy z hz)

theorem findInSources_clean {scan : Str → Option (List Loc)} : ∀ {paths : List Str}, (∀ p ∈ paths, scan p = some []) →
    findInSources scan paths = some []
  | [], _ => rfl
  | p :: rest, h => by
    simp [findInSources, h p List.mem_cons_self,
      findInSources_clean (paths := rest) (fun q hq => h q (List.mem_cons_of_mem _ hq))]

theorem findInSources_none {scan : Str → Option (List Loc)} : ∀ {paths : List Str} {p : Str}, p ∈ paths → scan p = none →
    findInSources scan paths = none
  | q :: rest, p, h, hp => by
    rcases List.mem_cons.mp h with rfl | h
    · simp [findInSources, hp]
    · unfold findInSources
      rw [findInSources_none h hp]
      split <;> rfl

/-- The files that are scanned. -/
theorem paths_of {args : List Str} {a : Attempt} {files : List Str} (h : Succeeded args a files) :
    sourceFiles a.readDeps a.canon args = some (files.filterMap a.canon) := by
  obtain ⟨path, outs, envs, w1, w2, w3, w4, w5, w6⟩ := h.wrote
  simp only [sourceFiles, w1, w2, Option.map_some]
  rw [C24_paths_partial outs files envs w3 w4 h.plain w5 (fun e he => (w6 e he).2) (fun e he => (w6 e he).1)]

theorem run_succeeded {lex : Str → List Tok} {crate : CrateSel} {args : List Str} {a : Attempt} {files : List Str}
    {perms : PermMap} {version : Int} (h : Succeeded args a files) (hc : a.config = some (perms, version)) :
    ∃ o, a.output = some o ∧ o.code = some 0 ∧ run lex crate args a = scanSources lex a o (files.filterMap a.canon)
      (unsafePermitted perms crate) (externPermitted perms crate version) := by
  obtain ⟨o, ho, hcode⟩ := h.code
  refine ⟨o, ho, hcode, ?_⟩
  unfold run
  rw [hc]
  simp only [ho, hcode, if_true, paths_of h, h.agreed]

theorem scanUnsafe_some (toks : List Tok) : ∃ l, scanUnsafe (sourceOf toks) toks = some l :=
  ⟨_, scanString_spec (by decide) (by decide) (fun a b h => ((checkUnsafe_iff a b).mp h).1) toks⟩

theorem scanExtern_some (toks : List Tok) : ∃ l, scanExtern (sourceOf toks) toks = some l :=
  ⟨_, scanString_spec (by decide) (by decide) (fun a b h => ((checkExtern_iff a b).mp h).1) toks⟩

theorem flags_nil {kw : Str} {check : Str → Str → Bool} (hck : ∀ a b, check a b = true → a = kw) (last : Bool) :
    ∀ l : List (Str × Str), (∀ pre, (pre, kw) ∉ l) → flags kw check last l = []
  | [], _ => rfl
  | [(p, t)], h => by
    have : t ≠ kw := by rintro rfl; exact h p List.mem_cons_self
    simp [flags, this]
  | (p, t) :: (q, u) :: rest, h => by
    have ht : t ≠ kw := by rintro rfl; exact h p List.mem_cons_self
    have hc : check t u = false := by
      cases hcc : check t u with
      | false => rfl
      | true => exact absurd (hck _ _ hcc) ht
    have := flags_nil hck last ((q, u) :: rest) (fun pre hm => h pre (List.mem_cons_of_mem _ hm))
    simp [flags, hc, this]

theorem scanUnsafe_nil {toks : List Tok} (h : ¬ Occurs (str! "unsafe") toks) : scanUnsafe (sourceOf toks) toks = some [] := by
  unfold scanUnsafe
  rw [scanString_spec (by decide) (by decide) (fun a b h => ((checkUnsafe_iff a b).mp h).1),
    flags_nil (fun a b h => ((checkUnsafe_iff a b).mp h).1) _ _ (fun pre hp => h ⟨pre, hp⟩)]

theorem scanExtern_nil {toks : List Tok} (h : ¬ Occurs (str! "extern") toks) : scanExtern (sourceOf toks) toks = some [] := by
  unfold scanExtern
  rw [scanString_spec (by decide) (by decide) (fun a b h => ((checkExtern_iff a b).mp h).1),
    flags_nil (fun a b h => ((checkExtern_iff a b).mp h).1) _ _ (fun pre hp => h ⟨pre, hp⟩)]

theorem scanPath_none {lex : Str → List Tok} {scan : Str → List Tok → Option (List (Nat × Nat))} {a : Attempt}
    (hs : ∀ text, ∃ l, scan text (lex text) = some l) {p : Str} :
    scanPath lex scan a p = none ↔ a.readSource p = none := by
  unfold scanPath
  split
  · rename_i h; simp [h]
  · rename_i h; simp [h]
  · rename_i text h
    obtain ⟨l, hl⟩ := hs text
    simp [h, hl]

/-- The scans when all files can be read. -/
theorem found_of {lex : Str → List Tok} {scan : Str → List Tok → Option (List (Nat × Nat))} {a : Attempt}
    {files : List Str} (hs : ∀ text, ∃ l, scan text (lex text) = some l) (hr : ∀ f ∈ files, ¬ Unreadable a f) :
    ∃ l, findInSources (scanPath lex scan a) (files.filterMap a.canon) = some l ∧
      ((∃ f ∈ files, ∃ text, HasText a f text ∧ scan text (lex text) ≠ some []) → l ≠ []) := by
  obtain ⟨l, hl, hm⟩ := findInSources_some (scan := scanPath lex scan a) (paths := files.filterMap a.canon) (by
    intro p hp hn
    obtain ⟨f, hf, hfp⟩ := List.mem_filterMap.mp hp
    exact hr f hf ⟨p, hfp, (scanPath_none hs).mp hn⟩)
  refine ⟨l, hl, ?_⟩
  rintro ⟨f, hf, text, ⟨p, hp, ht⟩, hne⟩ rfl
  obtain ⟨x, hx⟩ := hs text
  cases x with
  | nil => exact hne hx
  | cons y ys =>
    have := hm p (List.mem_filterMap.mpr ⟨f, hf, hp⟩) ((y :: ys).map (fun q => (p, q))) (by simp [scanPath, ht, hx]) (p, y)
      (by simp)
    cases this

theorem clean_of {lex : Str → List Tok} {scan : Str → List Tok → Option (List (Nat × Nat))} {a : Attempt}
    {files : List Str} (hr : ∀ f ∈ files, ¬ Unreadable a f)
    (hc : ∀ f ∈ files, ∀ text, HasText a f text → scan text (lex text) = some []) :
    findInSources (scanPath lex scan a) (files.filterMap a.canon) = some [] := by
  refine findInSources_clean fun p hp => ?_
  obtain ⟨f, hf, hfp⟩ := List.mem_filterMap.mp hp
  unfold scanPath
  split
  · rename_i h; exact absurd ⟨p, hfp, h⟩ (hr f hf)
  · rfl
  · rename_i text h
    rw [hc f hf text ⟨p, hfp, h⟩]
    rfl

theorem run_answered {lex : Str → List Tok} {crate : CrateSel} {args : List Str} {a : Attempt} {r : Outcome}
    (hlex : ∀ s, sourceOf (lex s) = s) (h : Answered lex crate args a r) :
    run lex crate args a = if r = .continue then .retry else .giveUp := by
  have su : ∀ text, ∃ l, scanUnsafe text (lex text) = some l := fun text => by
    have := scanUnsafe_some (lex text); rwa [hlex] at this
  have se : ∀ text, ∃ l, scanExtern text (lex text) = some l := fun text => by
    have := scanExtern_some (lex text); rwa [hlex] at this
  obtain ⟨perms, version, hcfg, h⟩ := h
  rcases h with ⟨files, hs, hr, h⟩ | ⟨o, us, es, ho, hcode, hus, hes, h⟩
  · obtain ⟨o, -, -, hrun⟩ := run_succeeded (lex := lex) (crate := crate) hs hcfg
    rw [hrun]
    obtain ⟨es, hes, hes'⟩ := found_of (lex := lex) se hr
    unfold scanSources
    rcases h with ⟨hp, ⟨f, hf, text, ht, hx⟩, hans⟩ | ⟨hcl, hp, ⟨f, hf, text, ht, hx⟩, hans⟩
    · obtain ⟨us, hus, hus'⟩ := found_of (lex := lex) su hr
      have hne := hus' ⟨f, hf, text, ht, fun hn => scanUnsafe_clean (toks := lex text) (by rw [hlex]; exact hn) hx⟩
      simp only [hp, Bool.false_eq_true, if_false, hus]
      split
      · rename_i hn
        split at hn
        · cases hn
        · rw [hes] at hn; cases hn
      · unfold finish
        rw [if_pos hne, hans]
        cases r <;> rfl
    · have hus : (if unsafePermitted perms crate = true then some [] else
          findInSources (scanPath lex scanUnsafe a) (files.filterMap a.canon)) = some [] := by
        rcases hcl with hcl | hcl
        · rw [if_pos hcl]
        · split
          · rfl
          · refine clean_of hr fun f hf text ht => ?_
            have := scanUnsafe_nil (hcl f hf text ht)
            rwa [hlex] at this
      rw [hus]
      have hne := hes' ⟨f, hf, text, ht, fun hn => scanExtern_clean (toks := lex text) (by rw [hlex]; exact hn) hx⟩
      simp only [hp, Bool.false_eq_true, if_false, hes]
      unfold finish
      rw [if_neg (by simp), if_pos hne, hans]
      cases r <;> rfl
  · unfold run
    rw [hcfg]
    simp only [ho, if_neg hcode, hus, hes]
    unfold finish
    rcases h with ⟨hne, hans⟩ | ⟨rfl, hne, hans⟩
    · rw [if_pos hne, hans]
      cases r <;> rfl
    · rw [if_neg (by simp), if_pos hne, hans]
      cases r <;> rfl

/-- **C167 (partial), approved.** If what was found is approved, the crate is compiled again. -/
theorem C167_approved_partial (lex : Str → List Tok) (crate : CrateSel) (args : List Str) (a : Attempt)
    (rest : List Attempt) (hlex : ∀ s, sourceOf (lex s) = s) (h : Answered lex crate args a .continue) :
    proxyRustc lex crate args (a :: rest) = proxyRustc lex crate args rest := by
  conv => lhs; unfold proxyRustc
  rw [run_answered hlex h, if_pos rfl]

/-- **C167 (partial), refused.** If it is not approved, the wrapper fails, and nothing is compiled any more. -/
theorem C167_refused_partial (lex : Str → List Tok) (crate : CrateSel) (args : List Str) (a : Attempt)
    (rest : List Attempt) (hlex : ∀ s, sourceOf (lex s) = s) (h : Answered lex crate args a .giveUp) :
    ∃ c, proxyRustc lex crate args (a :: rest) = .exit c ∧ c ≠ 0 := by
  unfold proxyRustc
  rw [run_answered hlex h, if_neg (by simp)]
  exact ⟨-1, rfl, by decide⟩

/-- **C167, other failures.** If rustc fails without an error of the two lints, the wrapper ends with the status of rustc,
or fails if rustc was killed. -/
theorem C167_own_failure (lex : Str → List Tok) (crate : CrateSel) (args : List Str) (a : Attempt) (rest : List Attempt)
    {o : Output} {config : PermMap × Int} (hc : a.config = some config) (ho : a.output = some o)
    (hcode : o.code ≠ some 0) (hu : o.unsafeErrors = some []) (he : o.externErrors = some []) :
    ∃ c, proxyRustc lex crate args (a :: rest) = .exit c ∧ c ≠ 0 ∧ ∀ n, o.code = some n → c = n := by
  have : run lex crate args a = .done o.code := by
    unfold run
    rw [hc]
    simp only [ho, if_neg hcode, hu, he]
    rfl
  unfold proxyRustc
  rw [this]
  cases hn : o.code with
  | none => exact ⟨-1, rfl, by decide, by simp⟩
  | some n => exact ⟨n, rfl, fun h0 => hcode (by rw [hn, h0]), by simp⟩

/-- **C167 (partial), accepted.** If rustc succeeds and each of `unsafe` and `extern` is permitted or does not occur, the
wrapper succeeds. -/
theorem C167_accepted_partial (lex : Str → List Tok) (crate : CrateSel) (args : List Str) (a : Attempt)
    (rest : List Attempt) (hlex : ∀ s, sourceOf (lex s) = s) {perms : PermMap} {version : Int} {files : List Str}
    (hc : a.config = some (perms, version)) (h : Succeeded args a files) (hr : ∀ f ∈ files, ¬ Unreadable a f)
    (hu : unsafePermitted perms crate = true ∨ ∀ f ∈ files, ∀ text, HasText a f text → ¬ Occurs (str! "unsafe") (lex text))
    (he : externPermitted perms crate version = true ∨
      ∀ f ∈ files, ∀ text, HasText a f text → ¬ Occurs (str! "extern") (lex text)) :
    proxyRustc lex crate args (a :: rest) = .exit 0 := by
  obtain ⟨o, -, hcode, hrun⟩ := run_succeeded (lex := lex) (crate := crate) h hc
  have h1 : (if unsafePermitted perms crate = true then some [] else
      findInSources (scanPath lex scanUnsafe a) (files.filterMap a.canon)) = some [] := by
    rcases hu with hcl | hcl
    · rw [if_pos hcl]
    · split
      · rfl
      · refine clean_of hr fun f hf text ht => ?_
        have := scanUnsafe_nil (hcl f hf text ht)
        rwa [hlex] at this
  have h2 : (if externPermitted perms crate version = true then some [] else
      findInSources (scanPath lex scanExtern a) (files.filterMap a.canon)) = some [] := by
    rcases he with hcl | hcl
    · rw [if_pos hcl]
    · split
      · rfl
      · refine clean_of hr fun f hf text ht => ?_
        have := scanExtern_nil (hcl f hf text ht)
        rwa [hlex] at this
  have : run lex crate args a = .done (some 0) := by
    rw [hrun]
    unfold scanSources
    rw [h1, h2]
    simp only [finish, ne_eq, not_true, if_false, hcode]
  unfold proxyRustc
  rw [this]
  rfl

/-- **C167 (partial), unreadable.** If a source file cannot be read and it matters, the wrapper fails. -/
theorem C167_unreadable_partial (lex : Str → List Tok) (crate : CrateSel) (args : List Str) (a : Attempt)
    (rest : List Attempt) {perms : PermMap} {version : Int} {files : List Str} {f : Str}
    (hc : a.config = some (perms, version)) (h : Succeeded args a files) (hf : f ∈ files) (hr : Unreadable a f)
    (hp : unsafePermitted perms crate = false ∨ externPermitted perms crate version = false) :
    proxyRustc lex crate args (a :: rest) = .error := by
  obtain ⟨o, -, hcode, hrun⟩ := run_succeeded (lex := lex) (crate := crate) h hc
  obtain ⟨p, hp1, hp2⟩ := hr
  have hm : p ∈ files.filterMap a.canon := List.mem_filterMap.mpr ⟨f, hf, hp1⟩
  have hn : ∀ scan : Str → List Tok → Option (List (Nat × Nat)), scanPath lex scan a p = none := fun scan => by
    unfold scanPath; rw [hp2]
  have : run lex crate args a = .error := by
    rw [hrun]
    unfold scanSources
    rcases hp with hp | hp
    · simp only [hp, Bool.false_eq_true, if_false, findInSources_none hm (hn scanUnsafe)]
    · simp only [hp, Bool.false_eq_true, if_false, findInSources_none hm (hn scanExtern)]
      split <;> rfl
  unfold proxyRustc
  rw [this]

/-- The English claim C167, for one of its cases: if the crate uses `unsafe` without permission and this is approved, it
is compiled again. -/
def C167_Claim : Prop :=
  ∀ (lex : Str → List Tok) (crate : CrateSel) (args : List Str) (a : Attempt) (rest : List Attempt) (perms : PermMap)
    (version : Int) (o : Output) (files : List Str) (f text : Str), (∀ s, sourceOf (lex s) = s) →
    a.config = some (perms, version) → a.output = some o → o.code = some 0 → Wrote args a files →
    a.onComplete = some .continue → (∀ f ∈ files, ¬ Unreadable a f) → unsafePermitted perms crate = false →
    f ∈ files → HasText a f text → UsesUnsafe (lex text) → a.onUnsafe = some .continue →
    proxyRustc lex crate args (a :: rest) = proxyRustc lex crate args rest

private def exBack : Attempt :=
  { exAttempt (str! "unsafe { }") false with
    readDeps := fun _ => some (depInfo [str! "/t/p.rlib"] [str! "a\\b.rs"] [])
    canon := fun f => if f = str! "a\\b.rs" then some f else none
    readSource := fun f => if f = str! "a\\b.rs" then some (some (str! "unsafe { }")) else none }

/-- **C167, disagreement.** In a file whose name contains a backslash nothing is found (C24), so that nobody is asked. -/
theorem C167_backslash : ¬ C167_Claim := by
  intro h
  have := h rustLex exCrate exArgs exBack [] _ _ _ [str! "a\\b.rs"] (str! "a\\b.rs") (str! "unsafe { }") rustLex_source rfl rfl
    rfl ⟨_, [str! "/t/p.rlib"], [], rfl, rfl, by decide, by decide, by decide, by decide⟩ rfl
    (by
      intro f hf
      rw [List.mem_singleton.mp hf]
      rintro ⟨p, h1, h2⟩
      simp [exBack] at h1
      subst h1
      simp [exBack] at h2)
    (by decide) (by simp) ⟨str! "a\\b.rs", by simp [exBack], by simp [exBack]⟩
    ⟨[], [], str! "unsafe ", str! "{", [(str! "unsafe { ", str! "}")], by decide +kernel, by decide⟩ rfl
  revert this
  decide +kernel

/-! Non-vacuity. -/
theorem exSucceeded (text : Str) (allow : Bool) : Succeeded exArgs (exAttempt text allow) [str! "a.rs"] :=
  ⟨⟨_, rfl, rfl⟩, ⟨_, [str! "/t/p.rlib"], [], rfl, rfl, by decide, by decide, by decide, by decide⟩, by decide, rfl⟩

theorem exReadable (text : Str) (allow : Bool) : ∀ f ∈ [str! "a.rs"], ¬ Unreadable (exAttempt text allow) f := by
  intro f hf
  rw [List.mem_singleton.mp hf]
  rintro ⟨p, h1, h2⟩
  simp [exAttempt] at h1
  subst h1
  simp [exAttempt] at h2

example : Answered rustLex exCrate exArgs (exAttempt (str! "unsafe { }") false) .continue :=
  ⟨_, _, rfl, .inl ⟨[str! "a.rs"], exSucceeded _ _, exReadable _ _, .inl ⟨by decide,
    ⟨str! "a.rs", by simp, str! "unsafe { }", ⟨str! "a.rs", by simp [exAttempt], by simp [exAttempt]⟩,
      [], [], str! "unsafe ", str! "{", [(str! "unsafe { ", str! "}")], by decide +kernel, by decide⟩, rfl⟩⟩⟩
/-- Refused: the answer about `extern` is to give up. -/
example : Answered rustLex exCrate exArgs (exAttempt (str! "extern { }") false) .giveUp :=
  ⟨_, _, rfl, .inl ⟨[str! "a.rs"], exSucceeded _ _, exReadable _ _, .inr ⟨.inr (by
      intro f hf text ht
      rw [List.mem_singleton.mp hf] at ht
      obtain ⟨p, h1, h2⟩ := ht
      simp [exAttempt] at h1
      subst h1
      simp [exAttempt] at h2
      subst h2
      rintro ⟨pre, hm⟩
      have : str! "unsafe" ∈ (significant [] (rustLex (str! "extern { }"))).map Prod.snd := List.mem_map.mpr ⟨_, hm, rfl⟩
      revert this
      decide +kernel), by decide,
    ⟨str! "a.rs", by simp, str! "extern { }", ⟨str! "a.rs", by simp [exAttempt], by simp [exAttempt]⟩,
      [], [], str! "extern ", str! "{", [(str! "extern { ", str! "}")], by decide +kernel, by decide⟩, rfl⟩⟩⟩
example : proxyRustc rustLex exCrate exArgs
    [exAttempt (str! "unsafe { }") false, { exAttempt (str! "unsafe { }") true with output := some ⟨some 101, some [], some []⟩ }] =
    .exit 101 := by decide +kernel
example : proxyRustc rustLex exCrate exArgs
    [exAttempt (str! "unsafe { }") false, exAttempt (str! "unsafe { }") true] = .exit 0 := by decide +kernel
example : Unreadable { exAttempt [] false with readSource := fun _ => none } (str! "a.rs") := ⟨str! "a.rs", by simp [exAttempt], rfl⟩

end Cackle.Rustc
