import Verif.Model.Deps
import Verif.Props.BuildScript

/-!
# C24: dep-info paths are recovered exactly

The writer is rustc (not part of the repository). Its format (`rustc_interface::passes::
write_out_deps`, from memory of its source): one paragraph per output file listing the source files
separated by spaces, one line `file:` per source file, and one comment line per tracked environment
variable. In file names only spaces are escaped.
-/

namespace Cackle.Deps
open Cackle BuildScript

/-! ## Specification: what rustc writes -/

/-- rustc's `escape_dep_filename`. -/
def escape (name : Str) : Str := name.flatMap (fun c => if c = ' ' then ['\\', ' '] else [c])

/-- The lines of a dep-info file. -/
def depLines (outs files envs : List Str) : List Str :=
  outs.flatMap (fun o => [o ++ str! ": " ++ joinWith (str! " ") (files.map escape), []]) ++
  files.map (fun f => escape f ++ str! ":") ++
  (if envs = [] then [] else [] :: envs.map (fun e => str! "# env-dep:" ++ e))

/-- The dep-info file. -/
def depInfo (outs files envs : List Str) : Str := (depLines outs files envs).flatMap (· ++ str! "\n")

/-- A name that does not break lines. -/
def OneLine (s : Str) : Prop := '\n' ∉ s ∧ '\r' ∉ s

instance (s : Str) : Decidable (OneLine s) := inferInstanceAs (Decidable (_ ∧ _))

/-- The English claim C24. -/
def C24_Claim : Prop :=
  ∀ outs files envs : List Str, (∀ s ∈ outs ++ files ++ envs, OneLine s) → (∀ f ∈ files, f ≠ []) →
    parseDeps (depInfo outs files envs) = files

/-- **C24, disagreement.** A backslash in a file name is lost: rustc does not escape it, the parser
treats it as an escape. The path found does not name the file. -/
theorem C24_backslash_lost : ¬ C24_Claim := by
  intro h
  have := h [] [str! "src/a\\b.rs"] [] (by decide) (by decide)
  revert this
  decide +kernel

/-! ## Lemmas -/

theorem unescape_cons {c : Char} (s : Str) (h : c ≠ '\\') : unescape (c :: s) = c :: unescape s := by
  rw [unescape.eq_def]
  split <;> simp_all

theorem unescape_escape {f : Str} (h : '\\' ∉ f) : unescape (escape f) = f := by
  induction f with
  | nil => rfl
  | cons c f ih =>
    simp only [List.mem_cons, not_or] at h
    by_cases hc : c = ' '
    · subst hc
      have : escape (' ' :: f) = '\\' :: ' ' :: escape f := by simp [escape]
      rw [this]
      simp only [unescape]
      rw [ih h.2]
    · have : escape (c :: f) = c :: escape f := by simp [escape, hc]
      rw [this, unescape_cons _ (fun e => h.1 e.symm), ih h.2]

theorem mem_escape {f : Str} {c : Char} (h : c ∈ escape f) : c = '\\' ∨ c ∈ f := by
  simp only [escape, List.mem_flatMap] at h
  obtain ⟨a, ha, h⟩ := h
  split at h
  · rename_i hs
    subst hs
    simp only [List.mem_cons, List.not_mem_nil, or_false] at h
    rcases h with h | h
    · exact .inl h
    · exact .inr (h ▸ ha)
  · simp only [List.mem_cons, List.not_mem_nil, or_false] at h
    exact .inr (h ▸ ha)

theorem oneLine_escape {f : Str} (h : OneLine f) : OneLine (escape f) :=
  ⟨fun hm => by rcases mem_escape hm with h' | h'; cases h'; exact h.1 h',
   fun hm => by rcases mem_escape hm with h' | h'; cases h'; exact h.2 h'⟩

theorem oneLine_append {a b : Str} (h : OneLine a) (h' : OneLine b) : OneLine (a ++ b) :=
  ⟨by simp [h.1, h'.1], by simp [h.2, h'.2]⟩

theorem oneLine_join {sep : Str} (hs : OneLine sep) : ∀ l : List Str, (∀ s ∈ l, OneLine s) →
    OneLine (joinWith sep l)
  | [], _ => ⟨by simp [joinWith], by simp [joinWith]⟩
  | [a], h => h a (by simp)
  | a :: b :: rest, h =>
    oneLine_append (oneLine_append (h a (by simp)) hs)
      (oneLine_join hs (b :: rest) (fun s hm => h s (List.mem_cons_of_mem _ hm)))

theorem lines_terminated (ls : List Str) (h : ∀ l ∈ ls, OneLine l) :
    lines (ls.flatMap (· ++ str! "\n")) = ls := by
  have := lines_text (ls.map (·, false)) [] (by simpa using fun l hl => (h l hl).1)
    (by
      intro l hl _ he
      obtain ⟨x, hx, rfl⟩ := List.mem_map.mp hl
      exact (h x hx).2 (List.mem_of_getLast? he)) (by simp)
  simp only [text, List.flatMap_map, List.map_map, if_true, List.append_nil] at this
  simpa [Function.comp_def] using this

theorem stripColon_none {l : Str} (h : l.getLast? ≠ some ':') : stripColon l = none := by
  simp [stripColon, h]

theorem getLast?_join {sep : Str} : ∀ l : List Str, l ≠ [] → (∀ s ∈ l, s ≠ []) →
    (joinWith sep l).getLast? = l.getLast?.bind List.getLast?
  | [], h, _ => absurd rfl h
  | [a], _, _ => by simp [joinWith]
  | a :: b :: rest, _, h => by
    have ih := getLast?_join (sep := sep) (b :: rest) (by simp)
      (fun s hm => h s (List.mem_cons_of_mem _ hm))
    have hb : (joinWith sep (b :: rest)).getLast? ≠ none := by
      rw [ih]
      rw [List.getLast?_eq_some_getLast (by simp : b :: rest ≠ [])]
      simp only [Option.bind_some, ne_eq, List.getLast?_eq_none_iff]
      exact h _ (List.mem_cons_of_mem _ (List.getLast_mem _))
    simp only [joinWith, List.append_assoc]
    rw [List.getLast?_append, List.getLast?_append]
    cases hj : (joinWith sep (b :: rest)).getLast? with
    | none => exact absurd hj hb
    | some c =>
      rw [← hj, ih]
      rw [ih] at hj
      simp only [List.getLast?_cons_cons]
      rw [hj]
      rfl

theorem escape_ne_nil {f : Str} (h : f ≠ []) : escape f ≠ [] := by
  cases f with
  | nil => exact absurd rfl h
  | cons c f =>
    simp only [escape, List.flatMap_cons]
    split <;> simp

theorem getLast?_escape (f : Str) : (escape f).getLast? = f.getLast? := by
  induction f with
  | nil => rfl
  | cons c f ih =>
    have e : escape (c :: f) = (if c = ' ' then ['\\', ' '] else [c]) ++ escape f := by simp [escape]
    rw [e, List.getLast?_append, ih]
    cases f with
    | nil => by_cases hc : c = ' ' <;> simp [hc]
    | cons d f =>
      rw [List.getLast?_cons_cons]
      rw [List.getLast?_eq_some_getLast (by simp : d :: f ≠ [])]
      rfl

/-- **C24 (partial).** If no source file name contains a backslash, the last one does not end in a colon
and no tracked environment variable's value ends in a colon, the parser returns exactly the source files
that rustc listed, in order, whatever outputs and variables are listed as well. Missing: names with
backslashes, see `C24_backslash_lost`. -/
theorem C24_paths_partial (outs files envs : List Str)
    (hl : ∀ s ∈ outs ++ files ++ envs, OneLine s) (hne : ∀ f ∈ files, f ≠ [])
    (hb : ∀ f ∈ files, '\\' ∉ f) (hlast : files.getLast?.bind List.getLast? ≠ some ':')
    (henv : ∀ e ∈ envs, e.getLast? ≠ some ':') (hene : ∀ e ∈ envs, e ≠ []) :
    parseDeps (depInfo outs files envs) = files := by
  have h1 : ∀ o ∈ outs, OneLine o := fun o ho => hl o (by simp [ho])
  have h2 : ∀ o ∈ files, OneLine o := fun o ho => hl o (by simp [ho])
  have h3 : ∀ o ∈ envs, OneLine o := fun o ho => hl o (by simp [ho])
  have hone : ∀ l ∈ depLines outs files envs, OneLine l := by
    intro l hm
    simp only [depLines, List.mem_append, List.mem_flatMap, List.mem_map] at hm
    rcases hm with (⟨o, ho, hm⟩ | ⟨f, hf, rfl⟩) | hm
    · simp only [List.mem_cons, List.not_mem_nil, or_false] at hm
      rcases hm with rfl | rfl
      · refine oneLine_append (oneLine_append (h1 o ho) (by decide)) (oneLine_join (by decide) _ ?_)
        intro s hs
        obtain ⟨f, hf, rfl⟩ := List.mem_map.mp hs
        exact oneLine_escape (h2 f hf)
      · exact ⟨by simp, by simp⟩
    · exact oneLine_append (oneLine_escape (h2 f hf)) (by decide)
    · split at hm
      · simp at hm
      · simp only [List.mem_cons, List.mem_map] at hm
        rcases hm with rfl | ⟨e, he, rfl⟩
        · exact ⟨by simp, by simp⟩
        · exact oneLine_append (by decide) (h3 e he)
  rw [parseDeps, depInfo, lines_terminated _ hone, depLines, List.filterMap_append,
    List.filterMap_append]
  have e1 : (outs.flatMap (fun o => [o ++ str! ": " ++ joinWith (str! " ") (files.map escape), []])).filterMap
      (fun line => (stripColon line).map unescape) = [] := by
    rw [List.filterMap_eq_nil_iff]
    intro l hm
    simp only [List.mem_flatMap, List.mem_cons, List.not_mem_nil, or_false] at hm
    obtain ⟨o, ho, rfl | rfl⟩ := hm
    · rw [stripColon_none, Option.map_none]
      rw [List.getLast?_append, List.getLast?_append]
      by_cases hf : files = []
      · subst hf
        simp [joinWith]
      · rw [getLast?_join _ (by simpa using hf) (by
          intro s hs
          obtain ⟨f, hf, rfl⟩ := List.mem_map.mp hs
          exact escape_ne_nil (hne f hf))]
        rw [List.getLast?_map]
        have := List.getLast?_eq_some_getLast hf
        rw [this] at hlast ⊢
        simp only [Option.map_some, Option.bind_some, getLast?_escape] at hlast ⊢
        have hx := hne _ (List.getLast_mem hf)
        rw [List.getLast?_eq_some_getLast hx] at hlast ⊢
        simpa using hlast
    · simp [stripColon]
  have e2 : (files.map (fun f => escape f ++ str! ":")).filterMap
      (fun line => (stripColon line).map unescape) = files := by
    clear e1 hone hl hne hlast h1 h2
    induction files with
    | nil => rfl
    | cons f files ih =>
      simp only [List.map_cons, List.filterMap_cons]
      rw [ih (fun x hx => hb x (by simp [hx]))]
      simp [stripColon, unescape_escape (hb f (by simp))]
  have e3 : (if envs = [] then [] else [] :: envs.map (fun e => str! "# env-dep:" ++ e)).filterMap
      (fun line => (stripColon line).map unescape) = [] := by
    rw [List.filterMap_eq_nil_iff]
    intro l hm
    split at hm
    · simp at hm
    · simp only [List.mem_cons, List.mem_map] at hm
      rcases hm with rfl | ⟨e, he, rfl⟩
      · simp [stripColon]
      · rw [stripColon_none, Option.map_none]
        rw [List.getLast?_append]
        have := henv e he
        rw [List.getLast?_eq_some_getLast (hene e he)] at this ⊢
        simpa using this
  rw [e1, e2, e3]
  simp

/-! Non-vacuity: two outputs, a name with a space, a name with a colon inside, an environment variable. -/
example : parseDeps (depInfo [str! "t/a.rlib", str! "t/a.rmeta"] [str! "src/my lib.rs", str! "a:/b.rs"]
    [str! "OUT_DIR=/t/out"]) = [str! "src/my lib.rs", str! "a:/b.rs"] :=
  C24_paths_partial _ _ _ (by decide) (by decide) (by decide) (by decide) (by decide) (by decide)

/-! ## Which file is read -/

/-- The arguments as rustc reads them: options with a separate argument, and others. -/
inductive Opt where
  | codegen (v : Str)
  | outDir (v : Str)
  | crateName (v : Str)
  | single (a : Str)

def Opt.args : Opt → List Str
  | .codegen v => [str! "-C", v]
  | .outDir v => [str! "--out-dir", v]
  | .crateName v => [str! "--crate-name", v]
  | .single a => [a]

/-- The option is written as it should be, and does not say what is to be written. -/
def Opt.Silent : Opt → Prop
  | .single a => a ≠ str! "-C" ∧ a ≠ str! "--out-dir" ∧ a ≠ str! "--crate-name" ∧ ∀ t, a ≠ str! "--emit=" ++ t
  | _ => True

theorem argLoop_silent (opts : List Opt) (h : ∀ o ∈ opts, o.Silent) :
    ∀ s, ∃ s', argLoop (opts.flatMap Opt.args) s = some s' ∧ s'.emit = s.emit := by
  induction opts with
  | nil => intro s; exact ⟨s, rfl, rfl⟩
  | cons o opts ih =>
    intro s
    have ih := ih (fun o ho => h o (List.mem_cons_of_mem _ ho))
    have ho := h o List.mem_cons_self
    rw [List.flatMap_cons]
    cases o with
    | codegen v =>
      simp only [Opt.args, List.cons_append, List.nil_append]
      rw [argLoop.eq_def]
      simp only
      rw [if_pos trivial]
      cases stripPrefix (str! "extra-filename=") v with
      | some x =>
        obtain ⟨s', h1, h2⟩ := ih { s with extra := x }
        exact ⟨s', h1, h2⟩
      | none => exact ih s
    | outDir v =>
      simp only [Opt.args, List.cons_append, List.nil_append]
      rw [argLoop.eq_def]
      simp only
      rw [if_neg (by decide), if_pos trivial]
      obtain ⟨s', h1, h2⟩ := ih { s with outDir := some v }
      exact ⟨s', h1, h2⟩
    | crateName v =>
      simp only [Opt.args, List.cons_append, List.nil_append]
      rw [argLoop.eq_def]
      simp only
      rw [if_neg (by decide), if_neg (by decide), if_pos trivial]
      obtain ⟨s', h1, h2⟩ := ih { s with crateName := some v }
      exact ⟨s', h1, h2⟩
    | single a =>
      obtain ⟨h1, h2, h3, h4⟩ := ho
      simp only [Opt.args, List.cons_append, List.nil_append]
      rw [argLoop.eq_def]
      simp only
      have hn : startsWith a (str! "--emit=") = false := by
        rw [Bool.eq_false_iff]
        intro hs
        obtain ⟨t, ht⟩ := startsWith_iff.mp hs
        exact h4 t ht.symm
      rw [if_neg h1, if_neg h2, if_neg h3, if_neg (by rw [hn]; simp)]
      exact ih s

/-- **C24, without dep-info.** If the arguments do not ask rustc to write anything in particular, there are no source files to be
reported; this is not an error. -/
theorem C24_no_dep_info (read : Str × Str → Option Str) (canon : Str → Option Str) (opts : List Opt) (h : ∀ o ∈ opts, o.Silent) :
    sourceFiles read canon (opts.flatMap Opt.args) = some [] := by
  obtain ⟨s, h1, h2⟩ := argLoop_silent opts h {}
  have h3 : s.emit = false := h2
  simp [sourceFiles, depsPath, h1, h3]

example : sourceFiles (fun _ => none) some [str! "--crate-name", str! "foo", str! "-C", str! "opt-level=3", str! "-vV"] = some [] :=
  C24_no_dep_info _ _ [.crateName (str! "foo"), .codegen (str! "opt-level=3"), .single (str! "-vV")] (by
    intro o ho
    simp only [List.mem_cons, List.not_mem_nil, or_false] at ho
    rcases ho with rfl | rfl | rfl
    · trivial
    · trivial
    · refine ⟨by decide, by decide, by decide, fun t h => ?_⟩
      have : some 'v' = some '-' := congrArg (fun s => s.tail.head?) h
      exact absurd this (by decide))

end Cackle.Deps
