import Verif.Props.DepsPath

/-!
# C172: the files that rustc compiled are those that are scanned, whatever the command line

C23 says what is scanned of the files that the wrapper finds listed. Here the command line is read as rustc reads it (C68), so that
the claim does not speak about the file in which the wrapper looks.
-/

namespace Cackle.Rustc
open Cackle Perm Scan Deps BuildScript

/-! ## Specification -/

/-- rustc, run with these arguments, compiled these files and wrote their names where the arguments say. -/
def CompiledFrom (takesArg : Str → Bool) (args : List Str) (a : Attempt) (files : List Str) : Prop :=
  ∃ dir file outs envs, Writes (parseArgs takesArg args) dir file ∧
    a.readDeps (dir, file) = some (depInfo outs files envs) ∧
    (∀ s ∈ outs ++ files ++ envs, OneLine s) ∧ (∀ f ∈ files, f ≠ [] ∧ '\\' ∉ f) ∧
    files.getLast?.bind List.getLast? ≠ some ':' ∧ (∀ e ∈ envs, e ≠ [] ∧ e.getLast? ≠ some ':')

/-- In the last attempt, `unsafe` and `extern` were permitted or occur in no compiled file. -/
def CleanOrPermitted (takesArg : Str → Bool) (lex : Str → List Tok) (crate : CrateSel) (args : List Str) (attempts : List Attempt) :
    Prop :=
  ∃ before a after perms version, attempts = before ++ a :: after ∧ a.config = some (perms, version) ∧
    ∀ files, CompiledFrom takesArg args a files → ∀ f ∈ files, ∀ text, HasText a f text →
      (unsafePermitted perms crate = false → ¬ UsesUnsafe (lex text)) ∧
      (externPermitted perms crate version = false → ¬ UsesExtern (lex text))

/-- The English claim C172. -/
def C172_Claim : Prop :=
  ∀ (takesArg : Str → Bool) (lex : Str → List Tok) (crate : CrateSel) (args : List Str) (attempts : List Attempt),
    Plausible takesArg → (∀ s, sourceOf (lex s) = s) → proxyRustc lex crate args attempts = .exit 0 →
    CleanOrPermitted takesArg lex crate args attempts

/-- Command lines in the form that cargo uses, in which the last `--emit` option asks for dep-info. -/
structure CargoLine (takesArg : Str → Bool) (items : List Item) : Prop where
  clear : ∀ i ∈ items, Clear takesArg i
  form : ∀ i ∈ items, CargoForm i
  emit : ∃ v, (optionValues (str! "--emit") items).getLast? = some v ∧ str! "dep-info" ∈ splitChar ',' v

/-! ## C172 -/

theorem emit_of_last {takesArg : Str → Bool} {items : List Item} (h : CargoLine takesArg items) :
    (items.foldl itemStep {}).emit = true := by
  obtain ⟨v, h1, h2⟩ := h.emit
  rw [(foldl_fields items {} h.form).2.2.2, h1]
  obtain ⟨a, c, rfl⟩ := splitChar_mem h2
  have := contains_append (n := str! "dep-info") (str! "--emit=" ++ a) (str! "dep-info") c rfl
  simpa using this

theorem depsPath_line {takesArg : Str → Bool} {items : List Item} (h : CargoLine takesArg items) {dir file : Str}
    (hw : Writes (parseArgs takesArg (render items)) dir file) : depsPath (render items) = some (some (dir, file)) := by
  rw [parse_render h.clear] at hw
  obtain ⟨name, h1, h2, -, rfl⟩ := hw
  obtain ⟨f1, f2, f3, -⟩ := foldl_fields items {} h.form
  unfold depsPath
  rw [argLoop_render items {} h.form]
  simp only [emit_of_last h, if_true, f1, f2, f3, h1, h2, List.getLast?_singleton, Option.some_or]

/-- **C172 (partial).** The claim for command lines in the form that cargo uses, whose last `--emit` option asks for dep-info.
Missing: other forms, and a later `--emit` option, see `C172_second_emit`. -/
theorem C172_scanned_partial (takesArg : Str → Bool) (lex : Str → List Tok) (crate : CrateSel) (items : List Item)
    (attempts : List Attempt) (hl : CargoLine takesArg items) (hlex : ∀ s, sourceOf (lex s) = s)
    (h : proxyRustc lex crate (render items) attempts = .exit 0) :
    CleanOrPermitted takesArg lex crate (render items) attempts := by
  obtain ⟨before, a, after, perms, version, o, h1, -, h3, -, -, -, h7⟩ :=
    C23_compiled_partial lex crate (render items) attempts hlex h
  refine ⟨before, a, after, perms, version, h1, h3, ?_⟩
  rintro files ⟨dir, file, outs, envs, w1, w2, w3, w4, w5, w6⟩
  exact h7 files ⟨(dir, file), outs, envs, depsPath_line hl w1, w2, w3, fun f hf => (w4 f hf).1, w5, w6⟩ fun f hf => (w4 f hf).2

/-- **C172, the list cannot be found.** If the name or the directory of the list of files is not told in the form that cargo uses,
the wrapper does not report success. -/
theorem C172_not_found (takesArg : Str → Bool) (lex : Str → List Tok) (crate : CrateSel) (items : List Item)
    (attempts : List Attempt) (hl : CargoLine takesArg items)
    (hn : optionValues (str! "--crate-name") items = [] ∨ optionValues (str! "--out-dir") items = []) :
    proxyRustc lex crate (render items) attempts ≠ .exit 0 := by
  intro h
  obtain ⟨before, a, after, -, -, h3⟩ := proxyRustc_zero h
  obtain ⟨perms, version, o, paths, -, -, -, e4, -, -, -⟩ := run_zero h3
  have hd : depsPath (render items) = none := by
    obtain ⟨f1, f2, -, -⟩ := foldl_fields items {} hl.form
    unfold depsPath
    rw [argLoop_render items {} hl.form]
    simp only [emit_of_last hl, if_true]
    rcases hn with hn | hn
    · rw [hn] at f1
      simp only [List.getLast?_nil, Option.none_or] at f1
      simp only [f1]
    · rw [hn] at f2
      simp only [List.getLast?_nil, Option.none_or] at f2
      simp only [f2]
      split
      · rename_i e
        cases e
      · rfl
  simp only [sourceFiles, hd] at e4
  cases e4

private def crate : CrateSel := ⟨⟨str! "p", str! "1.0.0", true⟩, .primary⟩
private def items (more : List Item) : List Item :=
  [.plain (str! "cackle"), .plain (str! "rustc"), .valued (str! "--crate-name") (str! "p"), .plain (str! "src/lib.rs"),
   .plain (str! "--emit=dep-info,link"), .valued (str! "--out-dir") (str! "/t")] ++ more
private def takes : Str → Bool := fun a => a = str! "--crate-name" ∨ a = str! "--out-dir"
private theorem takes_plausible : Plausible takes := by
  intro a ha
  simp only [takes, decide_eq_true_eq] at ha
  rcases ha with rfl | rfl <;> decide
private def attempt (text : Str) : Attempt where
  config := some ([], 2)
  output := some ⟨some 0, some [], some []⟩
  readDeps := fun p => if p = (str! "/t", str! "p.d") then some (depInfo [str! "/t/p.rlib"] [str! "a.rs"] []) else none
  canon := some
  readSource := fun _ => some (some text)
  onComplete := some .continue
  onUnsafe := some .giveUp
  onExtern := some .giveUp
/-- A crude lexer: runs of spaces and runs of other characters. -/
private def exLex : Str → List Tok
  | [] => []
  | c :: s =>
    match exLex s with
    | [] => [⟨c = ' ', [c]⟩]
    | t :: ts => if t.skip = decide (c = ' ') then ⟨t.skip, c :: t.text⟩ :: ts else ⟨c = ' ', [c]⟩ :: t :: ts
private theorem exLex_source : ∀ s, sourceOf (exLex s) = s
  | [] => rfl
  | c :: s => by
    have ih := exLex_source s
    simp only [exLex]
    split
    · rename_i h
      rw [h] at ih
      simp [sourceOf] at ih
      subst ih
      simp [sourceOf]
    · rename_i t ts h
      rw [h] at ih
      split
      · simpa [sourceOf] using ih
      · simpa [sourceOf] using ih

private theorem compiled (more : List Item) (text : Str)
    (hw : Writes (parseArgs takes (render (items more))) (str! "/t") (str! "p.d")) :
    CompiledFrom takes (render (items more)) (attempt text) [str! "a.rs"] :=
  ⟨_, _, [str! "/t/p.rlib"], [], hw, by simp [attempt], by decide, by decide, by decide, by decide⟩

/-- **C172, disagreement.** With `RUSTFLAGS=--emit=asm`, `unsafe` in a package without permission is compiled: rustc writes the list of
files, and the wrapper believes that it does not and scans nothing. -/
theorem C172_second_emit : ¬ C172_Claim := by
  intro h
  obtain ⟨before, a, after, perms, version, h1, h2, h3⟩ :=
    h takes exLex crate (render (items [.plain (str! "--emit=asm")])) [attempt (str! "unsafe { }")] takes_plausible exLex_source
      (by decide +kernel)
  have : a = attempt (str! "unsafe { }") := by
    cases before with
    | nil => simp at h1; exact h1.1.symm
    | cons b bs => simp at h1
  subst this
  obtain ⟨rfl, rfl⟩ : perms = [] ∧ version = 2 := by
    simp [attempt] at h2
    exact ⟨h2.1, h2.2.symm⟩
  refine (h3 [str! "a.rs"] (compiled _ _ ⟨str! "p", by decide, by decide, ⟨str! "dep-info,link", by decide, by decide⟩, by decide⟩)
    (str! "a.rs") (by simp) (str! "unsafe { }") ⟨str! "a.rs", rfl, rfl⟩).1 (by decide) ?_
  exact ⟨[], [], str! "unsafe ", str! "{", [(str! "unsafe { ", str! "}")], by decide +kernel, by decide⟩

/-! Non-vacuity: cargo's command line, with a clean file (success) and with `unsafe` (given up); and one without a crate name. -/
private theorem line : CargoLine takes (items []) where
  clear := by
    intro i hi
    simp only [items, List.append_nil, List.mem_cons, List.not_mem_nil, or_false] at hi
    rcases hi with rfl | rfl | rfl | rfl | rfl | rfl <;> simp [Clear, stripPrefix, startsWith, takes]
  form := by
    intro i hi
    simp only [items, List.append_nil, List.mem_cons, List.not_mem_nil, or_false] at hi
    rcases hi with rfl | rfl | rfl | rfl | rfl | rfl <;> simp [CargoForm, Word, stripPrefix, startsWith]
  emit := ⟨str! "dep-info,link", by decide, by decide⟩
example : CleanOrPermitted takes exLex crate (render (items [])) [attempt (str! "fn a")] :=
  C172_scanned_partial _ _ _ _ _ line exLex_source (by decide +kernel)
example : CompiledFrom takes (render (items [])) (attempt (str! "fn a")) [str! "a.rs"] :=
  compiled _ _ ⟨str! "p", by decide, by decide, ⟨str! "dep-info,link", by decide, by decide⟩, by decide⟩
example : proxyRustc exLex crate (render (items [])) [attempt (str! "unsafe { }")] = .exit (-1) := by decide +kernel
example : CargoLine takes [.plain (str! "--emit=dep-info"), .valued (str! "--out-dir") (str! "/t")] ∧
    optionValues (str! "--crate-name") [.plain (str! "--emit=dep-info"), .valued (str! "--out-dir") (str! "/t")] = [] := by
  refine ⟨⟨?_, ?_, str! "dep-info", by decide, by decide⟩, by decide⟩
  · intro i hi
    simp only [List.mem_cons, List.not_mem_nil, or_false] at hi
    rcases hi with rfl | rfl <;> simp [Clear, stripPrefix, startsWith, takes]
  · intro i hi
    simp only [List.mem_cons, List.not_mem_nil, or_false] at hi
    rcases hi with rfl | rfl <;> simp [CargoForm, Word, stripPrefix, startsWith]

end Cackle.Rustc
