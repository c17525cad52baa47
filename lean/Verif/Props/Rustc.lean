import Verif.Model.Rustc
import Verif.Props.Scan
import Verif.Props.Deps

/-!
# C23, C56: the rustc wrapper
-/

namespace Cackle.Rustc
open Cackle Perm Scan Deps BuildScript

/-! ## Specification -/

/-- The token `kw` occurs, followed by a token other than the `ok` ones. -/
def Uses (kw : Str) (ok : List Str) (toks : List Tok) : Prop :=
  ∃ before pre q u after, significant [] toks = before ++ (pre, kw) :: (q, u) :: after ∧ u ∉ ok

/-- The code uses `unsafe` (other than `unsafe extern`). -/
def UsesUnsafe : List Tok → Prop := Uses (str! "unsafe") [str! "extern"]

/-- The code uses `extern` (other than `extern crate`, and attribute or macro arguments). -/
def UsesExtern : List Tok → Prop := Uses (str! "extern") [str! "crate", str! "]", str! ")"]

/-- rustc wrote the dep-info file for these source files. -/
def Wrote (args : List Str) (a : Attempt) (files : List Str) : Prop :=
  ∃ path outs envs, depsPath args = some (some path) ∧
    a.readDeps path = some (depInfo outs files envs) ∧
    (∀ s ∈ outs ++ files ++ envs, OneLine s) ∧ (∀ f ∈ files, f ≠ []) ∧
    files.getLast?.bind List.getLast? ≠ some ':' ∧ (∀ e ∈ envs, e ≠ [] ∧ e.getLast? ≠ some ':')

/-- The name of a source file leads to a file with this text. -/
def HasText (a : Attempt) (f text : Str) : Prop :=
  ∃ p, a.canon f = some p ∧ a.readSource p = some (some text)

/-- The English claim C23: if the wrapper reports success, then there was a last attempt, before which
everything was retried, in which rustc succeeded and the main process agreed, and under the configuration
of that attempt each of `unsafe` and `extern` is permitted or occurs in none of the files rustc read. -/
def C23_Claim : Prop :=
  ∀ (lex : Str → List Tok) (crate : CrateSel) (args : List Str) (attempts : List Attempt),
    (∀ s, sourceOf (lex s) = s) →
    proxyRustc lex crate args attempts = .exit 0 →
    ∃ before a after perms version o, attempts = before ++ a :: after ∧
      (∀ b ∈ before, run lex crate args b = .retry) ∧
      a.config = some (perms, version) ∧ a.output = some o ∧ o.code = some 0 ∧
      a.onComplete = some .continue ∧
      ∀ files, Wrote args a files → ∀ f ∈ files, ∀ text, HasText a f text →
        (unsafePermitted perms crate = false → ¬ UsesUnsafe (lex text)) ∧
        (externPermitted perms crate version = false → ¬ UsesExtern (lex text))

/-! ## Lemmas -/

theorem findInSources_nil {scan : Str → Option (List Loc)} :
    ∀ {paths : List Str}, findInSources scan paths = some [] → ∀ f ∈ paths, scan f = some []
  | [], _, f, hf => by cases hf
  | p :: rest, h, f, hf => by
    simp only [findInSources] at h
    split at h
    · cases h
    · rename_i l hl
      cases hr : findInSources scan rest with
      | none => rw [hr] at h; cases h
      | some r =>
        rw [hr] at h
        simp only [Option.map_some, Option.some.injEq, List.append_eq_nil_iff] at h
        rcases List.mem_cons.mp hf with rfl | hf
        · rw [hl, h.1]
        · exact findInSources_nil (h.2 ▸ hr) f hf

theorem scanUnsafe_clean {toks : List Tok} (h : scanUnsafe (sourceOf toks) toks = some []) :
    ¬ UsesUnsafe toks := by
  rintro ⟨before, pre, q, u, after, hs, hu⟩
  unfold scanUnsafe at h
  rw [scanString_spec (by decide) (by decide) (fun a b h => ((checkUnsafe_iff a b).mp h).1)] at h
  have := flags_mem (kw := str! "unsafe") (check := checkUnsafe)
    (last := decide ((significant [] toks).length % 2 = 1)) (pre := pre) (q := q) before after
    ((checkUnsafe_iff (str! "unsafe") u).mpr ⟨rfl, by simpa [unsafeBad] using hu⟩)
  rw [← hs, Option.some.inj h] at this
  cases this

theorem scanExtern_clean {toks : List Tok} (h : scanExtern (sourceOf toks) toks = some []) :
    ¬ UsesExtern toks := by
  rintro ⟨before, pre, q, u, after, hs, hu⟩
  unfold scanExtern at h
  rw [scanString_spec (by decide) (by decide) (fun a b h => ((checkExtern_iff a b).mp h).1)] at h
  have := flags_mem (kw := str! "extern") (check := checkExtern)
    (last := decide ((significant [] toks).length % 2 = 1)) (pre := pre) (q := q) before after
    ((checkExtern_iff (str! "extern") u).mpr ⟨rfl, by simpa [externBad] using hu⟩)
  rw [← hs, Option.some.inj h] at this
  cases this

theorem finish_done {a : Attempt} {o : Output} {us es : List Loc} {code : Option Int}
    (h : finish a o us es = .done code) : us = [] ∧ es = [] ∧ code = o.code := by
  unfold finish at h
  by_cases hu : us = []
  · by_cases he : es = []
    · simp only [hu, he, ne_eq, not_true, if_false] at h
      cases h
      exact ⟨hu, he, rfl⟩
    · simp only [hu, he, ne_eq, not_true, not_false_iff, if_false, if_true] at h
      split at h <;> cases h
  · simp only [hu, ne_eq, not_false_iff, if_true] at h
    split at h <;> cases h

/-- What a run that ends with status 0 has checked. -/
theorem run_zero {lex : Str → List Tok} {crate : CrateSel} {args : List Str} {a : Attempt}
    (h : run lex crate args a = .done (some 0)) :
    ∃ perms version o paths, a.config = some (perms, version) ∧ a.output = some o ∧ o.code = some 0 ∧
      sourceFiles a.readDeps a.canon args = some paths ∧ a.onComplete = some .continue ∧
      (unsafePermitted perms crate = false → ∀ f ∈ paths, scanPath lex scanUnsafe a f = some []) ∧
      (externPermitted perms crate version = false →
        ∀ f ∈ paths, scanPath lex scanExtern a f = some []) := by
  unfold run at h
  split at h
  · cases h
  · rename_i perms version hcfg
    simp only at h
    split at h
    · cases h
    · rename_i o ho
      split at h
      · rename_i hcode
        split at h
        · cases h
        · rename_i paths hpaths
          split at h
          · cases h
          · cases h
          · rename_i hc
            unfold scanSources at h
            split at h
            · cases h
            · rename_i us hus
              split at h
              · cases h
              · rename_i es hes
                obtain ⟨h1, h2, -⟩ := finish_done h
                subst h1 h2
                refine ⟨perms, version, o, paths, hcfg, ho, hcode, hpaths, hc, ?_, ?_⟩
                · intro hp
                  simp only [hp, Bool.false_eq_true, if_false] at hus
                  exact findInSources_nil hus
                · intro hp
                  simp only [hp, Bool.false_eq_true, if_false] at hes
                  exact findInSources_nil hes
      · rename_i hcode
        split at h
        · exact absurd (finish_done h).2.2.symm hcode
        · cases h

theorem proxyRustc_zero {lex : Str → List Tok} {crate : CrateSel} {args : List Str} :
    ∀ {attempts : List Attempt}, proxyRustc lex crate args attempts = .exit 0 →
    ∃ before a after, attempts = before ++ a :: after ∧ (∀ b ∈ before, run lex crate args b = .retry) ∧
      run lex crate args a = .done (some 0)
  | [], h => by cases h
  | a :: rest, h => by
    simp only [proxyRustc] at h
    split at h
    · rename_i hr
      obtain ⟨b, x, t, h1, h2, h3⟩ := proxyRustc_zero h
      refine ⟨a :: b, x, t, by simp [h1], ?_, h3⟩
      intro y hy
      rcases List.mem_cons.mp hy with rfl | hy
      · exact hr
      · exact h2 y hy
    · cases h
    · rename_i code hr
      refine ⟨[], a, rest, rfl, by simp, ?_⟩
      rw [hr]
      cases code with
      | none => cases h
      | some c => cases h; rfl
    · cases h

/-! ## C23 -/

private def exCrate : CrateSel := ⟨⟨str! "p", str! "1.0.0", true⟩, .primary⟩
private def exArgs : List Str :=
  [str! "rustc", str! "--crate-name", str! "p", str! "--emit=dep-info,link", str! "--out-dir", str! "/t"]
private def exAttempt (name text : Str) (complete onUnsafe : Outcome) (allow : Bool) : Attempt where
  config := some ([(⟨str! "p", .all⟩, Config.PkgCfg.leaf { allowUnsafe := allow })], 2)
  output := some ⟨some 0, some [], some []⟩
  readDeps := fun _ => some (depInfo [str! "/t/p.rlib"] [name] [])
  canon := fun f => if f = name then some f else none
  readSource := fun f => if f = name then some (some text) else none
  onComplete := some complete
  onUnsafe := some onUnsafe
  onExtern := some .giveUp
/-- A crude lexer for the examples: runs of spaces and runs of other characters. -/
private def exLex : Str → List Tok
  | [] => []
  | c :: s =>
    match exLex s with
    | [] => [⟨c = ' ', [c]⟩]
    | t :: ts => if t.skip = decide (c = ' ') then ⟨t.skip, c :: t.text⟩ :: ts else ⟨c = ' ', [c]⟩ :: t :: ts
private theorem exLex_source : ∀ s, sourceOf (exLex s) = s
  | [] => rfl
  | c :: s => by
    have ih := exLex_source s
    simp only [exLex]
    split
    · rename_i h
      rw [h] at ih
      simp [sourceOf] at ih
      subst ih
      simp [sourceOf]
    · rename_i t ts h
      rw [h] at ih
      split
      · simpa [sourceOf] using ih
      · simpa [sourceOf] using ih

/-- **C23, disagreement.** A crate without permission for `unsafe` compiles although it has a source file
containing `unsafe { }`, if the name of that file contains a backslash: the name is decoded wrongly (C24)
and, since no such file exists, silently skipped. (The lint `unsafe_code` passed to rustc does not help:
cargo passes `--cap-lints allow` for dependencies.) -/
theorem C23_backslash_not_scanned : ¬ C23_Claim := by
  intro h
  obtain ⟨before, a, after, perms, version, o, h1, h2, h3, h4, h5, h6, h7⟩ :=
    h exLex exCrate exArgs [exAttempt (str! "a\\b.rs") (str! "unsafe { }") .continue .giveUp false]
      exLex_source (by decide +kernel)
  have : a = exAttempt (str! "a\\b.rs") (str! "unsafe { }") .continue .giveUp false := by
    cases before with
    | nil => simp at h1; exact h1.1.symm
    | cons b bs => simp at h1
  subst this
  obtain ⟨rfl, rfl⟩ : perms = _ ∧ version = _ := by
    simp [exAttempt] at h3
    exact ⟨h3.1.symm, h3.2.symm⟩
  refine (h7 [str! "a\\b.rs"] ⟨_, [str! "/t/p.rlib"], [], rfl, rfl, by decide, by decide, by decide,
    by decide⟩ (str! "a\\b.rs") (by simp) (str! "unsafe { }") ⟨str! "a\\b.rs", ?_, ?_⟩).1 ?_ ?_
  · simp [exAttempt]
  · simp [exAttempt]
  · decide
  · exact ⟨[], [], str! "unsafe ", str! "{", [(str! "unsafe { ", str! "}")], by decide +kernel, by decide⟩

/-- **C23 (partial).** The claim for source files whose names contain no backslash. -/
theorem C23_compiled_partial (lex : Str → List Tok) (crate : CrateSel) (args : List Str)
    (attempts : List Attempt) (hlex : ∀ s, sourceOf (lex s) = s)
    (h : proxyRustc lex crate args attempts = .exit 0) :
    ∃ before a after perms version o, attempts = before ++ a :: after ∧
      (∀ b ∈ before, run lex crate args b = .retry) ∧
      a.config = some (perms, version) ∧ a.output = some o ∧ o.code = some 0 ∧
      a.onComplete = some .continue ∧
      ∀ files, Wrote args a files → (∀ f ∈ files, '\\' ∉ f) →
        ∀ f ∈ files, ∀ text, HasText a f text →
        (unsafePermitted perms crate = false → ¬ UsesUnsafe (lex text)) ∧
        (externPermitted perms crate version = false → ¬ UsesExtern (lex text)) := by
  obtain ⟨before, a, after, h1, h2, h3⟩ := proxyRustc_zero h
  obtain ⟨perms, version, o, paths, e1, e2, e3, e4, e5, e6, e7⟩ := run_zero h3
  refine ⟨before, a, after, perms, version, o, h1, h2, e1, e2, e3, e5, ?_⟩
  rintro files ⟨path, outs, envs, w1, w2, w3, w4, w5, w6⟩ hb f hf text ⟨p, hp, ht⟩
  have hmem : p ∈ paths := by
    simp only [sourceFiles, w1, w2, Option.map_some, Option.some.injEq] at e4
    rw [C24_paths_partial outs files envs w3 w4 hb w5 (fun e he => (w6 e he).2)
      (fun e he => (w6 e he).1)] at e4
    rw [← e4, List.mem_filterMap]
    exact ⟨f, hf, hp⟩
  constructor
  · intro hu
    have := e6 hu p hmem
    simp only [scanPath, ht, Option.map_eq_some_iff, List.map_eq_nil_iff] at this
    obtain ⟨l, hl, rfl⟩ := this
    rw [← hlex text] at hl
    rw [hlex text] at hl
    refine scanUnsafe_clean ?_
    rw [hlex]
    exact hl
  · intro hu
    have := e7 hu p hmem
    simp only [scanPath, ht, Option.map_eq_some_iff, List.map_eq_nil_iff] at this
    obtain ⟨l, hl, rfl⟩ := this
    refine scanExtern_clean ?_
    rw [hlex]
    exact hl

/-! Non-vacuity: refused, retried after the configuration was changed, then accepted; and given up. -/
example : proxyRustc exLex exCrate exArgs
    [exAttempt (str! "a.rs") (str! "unsafe { }") .continue .continue false,
     exAttempt (str! "a.rs") (str! "unsafe { }") .continue .continue true] = .exit 0 := by decide +kernel
example : proxyRustc exLex exCrate exArgs
    [exAttempt (str! "a.rs") (str! "unsafe { }") .continue .giveUp false] = .exit (-1) := by
  decide +kernel
example : Wrote exArgs (exAttempt (str! "a.rs") (str! "unsafe { }") .continue .giveUp false) [str! "a.rs"] :=
  ⟨_, [str! "/t/p.rlib"], [], rfl, rfl, by decide, by decide, by decide, by decide⟩

/-! ## C56: the command line -/

/-- One item of a command line as rustc sees it. -/
inductive Item where
  /-- A codegen option `-C v`, `-Cv` or `--codegen v`. -/
  | codegen (v : Str)
  /-- An option with a separate argument. -/
  | valued (a v : Str)
  /-- Anything else. -/
  | plain (a : Str)
deriving DecidableEq

/-- How rustc (getopts) splits its command line; `takesArg` are the other options that take their argument
from the next element. -/
def parseArgs (takesArg : Str → Bool) : List Str → List Item
  | [] => []
  | a :: rest =>
    if a = str! "-C" ∨ a = str! "--codegen" then
      match rest with
      | [] => [.plain a]
      | v :: rest' => .codegen v :: parseArgs takesArg rest'
    else
      match stripPrefix (str! "-C") a with
      | some v => .codegen v :: parseArgs takesArg rest
      | none =>
        if takesArg a then
          match rest with
          | [] => [.plain a]
          | v :: rest' => .valued a v :: parseArgs takesArg rest'
        else .plain a :: parseArgs takesArg rest

/-- The value of a codegen option: the last one given wins. -/
def effective (name : Str) (items : List Item) : Option Str :=
  (items.filterMap (fun i => match i with | .codegen v => stripPrefix name v | _ => none)).getLast?

/-- Options that take the next element as argument contain no `=` (they would carry it themselves). -/
def Plausible (takesArg : Str → Bool) : Prop := ∀ a, takesArg a = true → '=' ∉ a ∧ a ≠ str! "-Funsafe-code"

/-- The English claim C56: whatever the arguments, rustc links with cackle, forbids unsafe code unless it
is permitted, and the linker wrapper is told the linker that the arguments asked for. -/
def C56_Claim : Prop :=
  ∀ (takesArg : Str → Bool) (exe : Str) (args : List Str) (unsafeOk externOk : Bool),
    Plausible takesArg →
    effective (str! "linker=") (parseArgs takesArg (getCommand exe args unsafeOk externOk).1) = some exe ∧
    (unsafeOk = false →
      Item.plain (str! "-Funsafe-code") ∈ parseArgs takesArg (getCommand exe args unsafeOk externOk).1) ∧
    (getCommand exe args unsafeOk externOk).2 = effective (str! "linker=") (parseArgs takesArg args)

/-- **C56, disagreement.** A linker given as one argument `-Clinker=lld` is not noted; the wrapper then
runs the default linker `cc`. -/
theorem C56_joined_linker_lost : ¬ C56_Claim := by
  intro h
  have := (h (fun _ => false) (str! "cackle") [str! "-Clinker=lld"] true true (by simp [Plausible])).2.2
  revert this
  decide

/-- The fixed end of the command line. -/
def fixedArgs (exe : Str) (unsafeOk externOk : Bool) : List Str :=
  [str! "--error-format=json", str! "-C", str! "linker=" ++ exe,
     str! "-C", str! "save-temps", str! "-Ccodegen-units=1"] ++
    (if unsafeOk then [] else [str! "-Funsafe-code"]) ++
    (if externOk then [] else [str! "-Fmissing-unsafe-on-extern"])

theorem parseArgs_cons (takesArg : Str → Bool) (a : Str) (rest : List Str) :
    parseArgs takesArg (a :: rest) =
    if a = str! "-C" ∨ a = str! "--codegen" then
      match rest with
      | [] => [.plain a]
      | v :: rest' => .codegen v :: parseArgs takesArg rest'
    else
      match stripPrefix (str! "-C") a with
      | some v => .codegen v :: parseArgs takesArg rest
      | none =>
        if takesArg a then
          match rest with
          | [] => [.plain a]
          | v :: rest' => .valued a v :: parseArgs takesArg rest'
        else .plain a :: parseArgs takesArg rest := by
  cases rest <;> simp only [parseArgs]

/-- Wherever the caller's arguments end, the parse of the fixed end is in step. -/
theorem parseArgs_append {takesArg : Str → Bool} (ht : Plausible takesArg) (tail : List Str) :
    ∀ (n : Nat) (pre : List Str), pre.length ≤ n → ∃ items,
      parseArgs takesArg (pre ++ str! "-C" :: str! "debuginfo=2" :: tail) =
        items ++ parseArgs takesArg tail
  | n, [], _ => ⟨[.codegen (str! "debuginfo=2")], by simp [parseArgs]⟩
  | 0, _ :: _, h => by simp at h
  | n + 1, a :: rest, h => by
    have hd : takesArg (str! "debuginfo=2") = false := by
      cases hx : takesArg (str! "debuginfo=2") with
      | false => rfl
      | true => exact absurd (by decide) (ht _ hx).1
    have hstep : parseArgs takesArg (str! "debuginfo=2" :: tail) =
        .plain (str! "debuginfo=2") :: parseArgs takesArg tail := by
      rw [parseArgs_cons, if_neg (by decide)]
      simp [stripPrefix, hd]
    simp only [List.length_cons, Nat.add_le_add_iff_right] at h
    simp only [List.cons_append]
    rw [parseArgs_cons]
    split
    · cases rest with
      | nil =>
        simp only [List.nil_append]
        rw [hstep]
        exact ⟨[.codegen (str! "-C"), .plain (str! "debuginfo=2")], rfl⟩
      | cons v rest' =>
        obtain ⟨items, hi⟩ := parseArgs_append ht tail n rest' (by simp at h; omega)
        simp only [List.cons_append, hi]
        exact ⟨.codegen v :: items, rfl⟩
    · split
      · rename_i v _
        obtain ⟨items, hi⟩ := parseArgs_append ht tail n rest h
        rw [hi]
        exact ⟨.codegen v :: items, rfl⟩
      · split
        · cases rest with
          | nil =>
            simp only [List.nil_append]
            rw [hstep]
            exact ⟨[.valued a (str! "-C"), .plain (str! "debuginfo=2")], rfl⟩
          | cons v rest' =>
            obtain ⟨items, hi⟩ := parseArgs_append ht tail n rest' (by simp at h; omega)
            simp only [List.cons_append, hi]
            exact ⟨.valued a v :: items, rfl⟩
        · obtain ⟨items, hi⟩ := parseArgs_append ht tail n rest h
          rw [hi]
          exact ⟨.plain a :: items, rfl⟩

theorem effective_append {name : Str} (a b : List Item) {v : Str} (h : effective name b = some v) :
    effective name (a ++ b) = some v := by
  unfold effective at h ⊢
  rw [List.filterMap_append, List.getLast?_append, h]
  rfl

theorem getCommand_eq (exe : Str) (args : List Str) (u e : Bool) :
    (getCommand exe args u e).1 = (filterArgs args none).1 ++
      str! "-C" :: str! "debuginfo=2" :: fixedArgs exe u e := by
  simp [getCommand, fixedArgs]

theorem stripPrefix_append (p s : Str) : stripPrefix p (p ++ s) = some s := by
  induction p with
  | nil => rfl
  | cons c p ih => simp [stripPrefix, ih]


/-- A command line with these items, codegen options written as two arguments. -/
def render : List Item → List Str
  | [] => []
  | .codegen v :: rest => str! "-C" :: v :: render rest
  | .valued a v :: rest => a :: v :: render rest
  | .plain a :: rest => a :: render rest

/-- Items that render without ambiguity. -/
def Clear (takesArg : Str → Bool) : Item → Prop
  | .codegen v => stripPrefix (str! "-C") v = none ∧ startsWith v (str! "--error-format") = false
  | .valued a v => takesArg a = true ∧ stripPrefix (str! "-C") a = none ∧ a ≠ str! "--codegen" ∧
      startsWith a (str! "--error-format") = false ∧
      stripPrefix (str! "-C") v = none ∧ startsWith v (str! "--error-format") = false
  | .plain a => takesArg a = false ∧ stripPrefix (str! "-C") a = none ∧ a ≠ str! "--codegen"

/-- The items that are dropped. -/
def dropped : Item → Bool
  | .codegen v => startsWith v (str! "linker=") || startsWith v (str! "debuginfo=")
  | .valued _ _ => false
  | .plain a => startsWith a (str! "--error-format")

theorem ne_C {a : Str} (h : stripPrefix (str! "-C") a = none) : a ≠ str! "-C" := by
  rintro rfl
  exact absurd h (by decide)

theorem parse_render {takesArg : Str → Bool} : ∀ {items : List Item}, (∀ i ∈ items, Clear takesArg i) →
    parseArgs takesArg (render items) = items
  | [], _ => rfl
  | i :: rest, h => by
    have hi := h i (by simp)
    have ih := parse_render (fun x hx => h x (List.mem_cons_of_mem _ hx))
    cases i with
    | codegen v => simp [render, parseArgs_cons, ih]
    | valued a v =>
      obtain ⟨h1, h2, h3, h4, h5, h6⟩ := hi
      simp [render, parseArgs_cons, ih, ne_C h2, h1, h2, h3]
    | plain a =>
      obtain ⟨h1, h2, h3⟩ := hi
      simp [render, parseArgs_cons, ih, ne_C h2, h1, h2, h3]

theorem filterArgs_pass {a : Str} (h : a ≠ str! "-C") (h' : startsWith a (str! "--error-format") = false)
    (rest : List Str) (o : Option Str) :
    filterArgs (a :: rest) o = (a :: (filterArgs rest o).1, (filterArgs rest o).2) := by
  cases rest <;> simp [filterArgs, h, h']

theorem effective_cons (name : Str) (i : Item) (l : List Item) :
    effective name (i :: l) = (effective name l).or
      (match i with | .codegen v => stripPrefix name v | _ => none) := by
  unfold effective
  rw [List.filterMap_cons]
  split
  · rename_i h
    cases hl : (List.filterMap (fun i => match i with | .codegen v => stripPrefix name v | _ => none) l).getLast? <;>
      simp [h]
  · rename_i v h
    rw [h, List.getLast?_cons]
    cases (List.filterMap (fun i => match i with | .codegen v => stripPrefix name v | _ => none) l).getLast? <;> rfl

theorem filterArgs_render {takesArg : Str → Bool} : ∀ {items : List Item} (o : Option Str),
    (∀ i ∈ items, Clear takesArg i) →
    filterArgs (render items) o = (render (items.filter (fun i => !dropped i)),
      (effective (str! "linker=") items).or o)
  | [], o, _ => by simp [render, filterArgs, effective]
  | i :: rest, o, h => by
    have hi := h i (by simp)
    have ih := fun o => filterArgs_render (items := rest) o (fun x hx => h x (List.mem_cons_of_mem _ hx))
    rw [effective_cons]
    cases i with
    | codegen v =>
      simp only [Clear] at hi
      cases hl : stripPrefix (str! "linker=") v with
      | some l =>
        simp only [render, filterArgs, if_true, hl, ih, List.filter_cons, dropped, startsWith,
          Option.isSome_some, Bool.true_or, Bool.not_true, Bool.false_eq_true, if_false]
        cases effective (str! "linker=") rest <;> rfl
      | none =>
        by_cases hd : startsWith v (str! "debuginfo=") = true
        · simp [render, filterArgs, hl, hd, ih, dropped]
        · have hp := filterArgs_pass (ne_C hi.1) hi.2 (render rest) o
          have hd' : dropped (.codegen v) = false := by
            simp only [dropped, startsWith, hl, Option.isSome_none, Bool.false_or]
            simpa [startsWith] using hd
          simp only [render]
          rw [filterArgs]
          simp only [if_true, hl, hd, Bool.false_eq_true, if_false]
          simp only [hp, ih, List.filter_cons, hd', Bool.not_false, if_true, render, Option.or_none]
    | valued a v =>
      obtain ⟨h1, h2, h3, h4, h5, h6⟩ := hi
      simp only [render]
      rw [filterArgs_pass (ne_C h2) h4, filterArgs_pass (ne_C h5) h6, ih]
      simp [dropped, render]
    | plain a =>
      obtain ⟨h1, h2, h3⟩ := hi
      by_cases he : startsWith a (str! "--error-format") = true
      · simp only [render]
        have : filterArgs (a :: render rest) o = filterArgs (render rest) o := by
          cases render rest <;> simp [filterArgs, ne_C h2, he]
        rw [this, ih]
        simp [dropped, he]
      · have he' : startsWith a (str! "--error-format") = false := by simpa using he
        simp only [render]
        rw [filterArgs_pass (ne_C h2) he', ih]
        simp [dropped, he', render]

/-- **C56 (partial).** Whatever the arguments are (even malformed), rustc links with cackle and is passed
`-Funsafe-code` unless unsafe code is permitted. If codegen options are written as two arguments, the
linker they ask for is handed to the linker wrapper, and everything except linker, debug info level and
error format is passed on unchanged and in order. Missing: `-Clinker=...` as one argument, see
`C56_joined_linker_lost`. -/
theorem C56_command_partial (takesArg : Str → Bool) (exe : Str) (args : List Str)
    (unsafeOk externOk : Bool) (ht : Plausible takesArg) :
    effective (str! "linker=") (parseArgs takesArg (getCommand exe args unsafeOk externOk).1) = some exe ∧
    (unsafeOk = false →
      Item.plain (str! "-Funsafe-code") ∈ parseArgs takesArg (getCommand exe args unsafeOk externOk).1) ∧
    ∀ items, (∀ i ∈ items, Clear takesArg i) → args = render items →
      (getCommand exe args unsafeOk externOk).2 = effective (str! "linker=") (parseArgs takesArg args) ∧
      ∃ more, parseArgs takesArg (getCommand exe args unsafeOk externOk).1 =
        (parseArgs takesArg args).filter (fun i => !dropped i) ++ more ∧
        effective (str! "debuginfo=") more = some (str! "2") := by
  have no : ∀ a, '=' ∈ a → takesArg a = false := by
    intro a ha
    cases h : takesArg a with
    | false => rfl
    | true => exact absurd ha (ht a h).1
  have nf : takesArg (str! "-Funsafe-code") = false := by
    cases h : takesArg (str! "-Funsafe-code") with
    | false => rfl
    | true => exact absurd rfl (ht _ h).2
  have hfix : ∃ more, parseArgs takesArg (fixedArgs exe unsafeOk externOk) =
      [.plain (str! "--error-format=json"), .codegen (str! "linker=" ++ exe), .codegen (str! "save-temps"),
        .codegen (str! "codegen-units=1")] ++
        (if unsafeOk then [] else [.plain (str! "-Funsafe-code")]) ++ more ∧
      (more = [] ∨ ∃ a, more = [.plain a]) := by
    refine ⟨parseArgs takesArg (if externOk then [] else [str! "-Fmissing-unsafe-on-extern"]), ?_, ?_⟩
    · have hj := no (str! "--error-format=json") (by decide)
      cases unsafeOk <;> cases externOk <;>
        simp [fixedArgs, parseArgs_cons, stripPrefix, hj, nf]
    · cases externOk with
      | true => simp [parseArgs]
      | false =>
        refine .inr ⟨str! "-Fmissing-unsafe-on-extern", ?_⟩
        simp [parseArgs_cons, stripPrefix, parseArgs]
  obtain ⟨more, hm, hmore⟩ := hfix
  obtain ⟨items, hi⟩ := parseArgs_append ht (fixedArgs exe unsafeOk externOk)
    _ (filterArgs args none).1 (Nat.le_refl _)
  refine ⟨?_, ?_, ?_⟩
  · rw [getCommand_eq, hi]
    apply effective_append
    rw [hm]
    rcases hmore with rfl | ⟨a, rfl⟩ <;> cases unsafeOk <;>
      simp [effective, stripPrefix]
  · intro hu
    subst hu
    rw [getCommand_eq, hi, hm]
    simp
  · rintro its hc rfl
    have hf := filterArgs_render none hc
    refine ⟨?_, ?_⟩
    · rw [parse_render hc]
      simp only [getCommand, hf, Option.or_none]
    · rw [parse_render hc, getCommand_eq, hf]
      have hc' : ∀ i ∈ its.filter (fun i => !dropped i), Clear takesArg i :=
        fun i hi => hc i (List.mem_filter.mp hi).1
      refine ⟨.codegen (str! "debuginfo=2") :: parseArgs takesArg (fixedArgs exe unsafeOk externOk), ?_, ?_⟩
      · have key : ∀ (l : List Item), (∀ i ∈ l, Clear takesArg i) → ∀ tail,
            parseArgs takesArg (render l ++ str! "-C" :: str! "debuginfo=2" :: tail) =
              l ++ .codegen (str! "debuginfo=2") :: parseArgs takesArg tail := by
          intro l
          induction l with
          | nil => intro _ tail; simp [render, parseArgs_cons]
          | cons i l ih =>
            intro hl tail
            have hi := hl i (by simp)
            have ih := ih (fun x hx => hl x (List.mem_cons_of_mem _ hx)) tail
            cases i with
            | codegen v =>
              simp only [render, List.cons_append]
              rw [parseArgs_cons, if_pos (.inl rfl)]
              simp [ih]
            | valued a v =>
              obtain ⟨h1, h2, h3, -, -, -⟩ := hi
              simp only [render, List.cons_append]
              rw [parseArgs_cons, if_neg (by simp [ne_C h2, h3]), h2]
              simp [h1, ih]
            | plain a =>
              obtain ⟨h1, h2, h3⟩ := hi
              simp only [render, List.cons_append]
              rw [parseArgs_cons, if_neg (by simp [ne_C h2, h3]), h2]
              simp [h1, ih]
        exact key _ hc' _
      · rw [hm]
        rcases hmore with rfl | ⟨a, rfl⟩ <;> cases unsafeOk <;>
          simp [effective, stripPrefix]

/-! Non-vacuity. -/
private def exItems : List Item :=
  [.codegen (str! "linker=lld"), .valued (str! "--cfg") (str! "x"), .plain (str! "--error-format=human"),
   .codegen (str! "debuginfo=0"), .plain (str! "a.rs")]
example : (∀ i ∈ exItems, Clear (fun a => a = str! "--cfg") i) ∧ Plausible (fun a => a = str! "--cfg") := by
  refine ⟨?_, ?_⟩
  · intro i hi
    simp only [exItems, List.mem_cons, List.not_mem_nil, or_false] at hi
    rcases hi with rfl | rfl | rfl | rfl | rfl <;> simp [Clear, stripPrefix, startsWith]
  · intro a ha
    simp only [decide_eq_true_eq] at ha
    subst ha
    decide
example : getCommand (str! "cackle") (render exItems) false true =
    ([str! "--cfg", str! "x", str! "a.rs", str! "-C", str! "debuginfo=2", str! "--error-format=json",
      str! "-C", str! "linker=cackle", str! "-C", str! "save-temps", str! "-Ccodegen-units=1",
      str! "-Funsafe-code"], some (str! "lld")) := by decide

end Cackle.Rustc
