import Verif.Props.Rustc

/-!
# C68: the dep-info file that is read is the one that rustc writes

Where rustc writes it is specified on the items of the command line (`parseArgs`, the specification of
getopts used for C56); this is from the documentation of rustc.
-/

namespace Cackle.Rustc
open Cackle Deps BuildScript

/-! ## Specification -/

/-- The value of an option with an argument, written in either way (`--name value`, `--name=value`). -/
def optionValue (name : Str) : Item → Option Str
  | .valued a v => if a = name then some v else none
  | .plain a => stripPrefix (name ++ str! "=") a
  | .codegen _ => none

/-- All values given for an option. -/
def optionValues (name : Str) (items : List Item) : List Str := items.filterMap (optionValue name)

/-- Whether some `--emit` option lists `dep-info` (without a file name of its own). -/
def wantsDepInfo (items : List Item) : Prop :=
  ∃ v ∈ optionValues (str! "--emit") items, str! "dep-info" ∈ splitChar ',' v

/-- Directory and name of the dep-info file written by rustc, for a command line with one crate name and one
output directory. -/
def Writes (items : List Item) (dir file : Str) : Prop :=
  ∃ name, optionValues (str! "--crate-name") items = [name] ∧ optionValues (str! "--out-dir") items = [dir] ∧
    wantsDepInfo items ∧ file = name ++ (effective (str! "extra-filename=") items).getD [] ++ str! ".d"

/-- The English claim C68. -/
def C68_Claim : Prop :=
  ∀ (takesArg : Str → Bool), Plausible takesArg → ∀ (args : List Str) (dir file : Str),
    Writes (parseArgs takesArg args) dir file → depsPath args = some (some (dir, file))

/-- The options that are used here take an argument. -/
private def takes : Str → Bool := fun a => a = str! "--crate-name" ∨ a = str! "--out-dir" ∨ a = str! "--cfg"
private theorem takes_plausible : Plausible takes := by
  intro a ha
  simp only [takes, decide_eq_true_eq] at ha
  rcases ha with rfl | rfl | rfl <;> decide

private def cargoArgs : List Str :=
  [str! "--crate-name", str! "a", str! "src/lib.rs", str! "--emit=dep-info,metadata,link", str! "-C",
   str! "extra-filename=-12", str! "--out-dir", str! "/t/deps"]

/-- **C68, disagreement.** A further `--emit` option (for example `RUSTFLAGS=--emit=asm`) makes the wrapper
believe that there is no dep-info, and it then scans no source file at all. -/
theorem C68_second_emit : ¬ C68_Claim := by
  intro h
  have := h takes takes_plausible (cargoArgs ++ [str! "--emit=asm"]) (str! "/t/deps") (str! "a-12.d")
    ⟨str! "a", by decide, by decide, ⟨str! "dep-info,metadata,link", by decide, by decide⟩, by decide⟩
  revert this
  decide

/-- **C68, another disagreement.** `-Cextra-filename=...` as one argument is not noticed. -/
theorem C68_joined_extra : ¬ C68_Claim := by
  intro h
  have := h takes takes_plausible (cargoArgs ++ [str! "-Cextra-filename=-34"]) (str! "/t/deps") (str! "a-34.d")
    ⟨str! "a", by decide, by decide, ⟨str! "dep-info,metadata,link", by decide, by decide⟩, by decide⟩
  revert this
  decide

/-! ## Command lines as cargo writes them -/

/-- Words that the wrapper takes for options. -/
def Word (a : Str) : Prop :=
  a = str! "-C" ∨ a = str! "--out-dir" ∨ a = str! "--crate-name" ∨ startsWith a (str! "--emit=") = true

/-- Items in the form used by cargo: `--crate-name` and `--out-dir` have a separate argument, `--emit` has
not, and the argument of any other option does not look like one of these options. -/
def CargoForm : Item → Prop
  | .codegen _ => True
  | .valued a v => a ≠ str! "-C" ∧ startsWith a (str! "--emit") = false ∧
      (a = str! "--out-dir" ∨ a = str! "--crate-name" ∨ ¬ Word v)
  | .plain a => a ≠ str! "-C" ∧ a ≠ str! "--out-dir" ∧ a ≠ str! "--crate-name" ∧
      startsWith a (str! "--out-dir=") = false ∧ startsWith a (str! "--crate-name=") = false

/-- What one item does to the state of the wrapper. -/
def itemStep (s : ArgState) : Item → ArgState
  | .codegen v => match stripPrefix (str! "extra-filename=") v with
    | some x => { s with extra := x }
    | none => s
  | .valued a v => if a = str! "--out-dir" then { s with outDir := some v }
      else if a = str! "--crate-name" then { s with crateName := some v } else s
  | .plain a => if startsWith a (str! "--emit=") then { s with emit := contains (str! "dep-info") a } else s

theorem argLoop_skip {a : Str} (h : ¬ Word a) (rest : List Str) (s : ArgState) :
    argLoop (a :: rest) s = argLoop rest s := by
  simp only [Word, not_or] at h
  obtain ⟨h1, h2, h3, h4⟩ := h
  rw [argLoop.eq_def]
  simp [h1, h2, h3, h4]

theorem argLoop_render : ∀ (items : List Item) (s : ArgState), (∀ i ∈ items, CargoForm i) →
    argLoop (render items) s = some (items.foldl itemStep s)
  | [], s, _ => by simp [render, argLoop]
  | i :: rest, s, h => by
    have hi := h i (by simp)
    have ih := fun s => argLoop_render rest s (fun x hx => h x (List.mem_cons_of_mem _ hx))
    cases i with
    | codegen v =>
      simp only [render, List.foldl_cons]
      rw [argLoop.eq_def]
      simp only [if_true, itemStep]
      cases hs : stripPrefix (str! "extra-filename=") v with
      | none => simp [ih]
      | some x => simp [ih]
    | valued a v =>
      obtain ⟨h1, h2, h3⟩ := hi
      simp only [render, List.foldl_cons]
      by_cases ho : a = str! "--out-dir"
      · subst ho
        rw [argLoop.eq_def]
        simp [itemStep, ih]
      · by_cases hc : a = str! "--crate-name"
        · subst hc
          rw [argLoop.eq_def]
          simp [itemStep, ih]
        · have hw : ¬ Word v := by rcases h3 with h | h | h; exact absurd h ho; exact absurd h hc; exact h
          have hwa : ¬ Word a := by
            rintro (h | h | h | h)
            · exact h1 h
            · exact ho h
            · exact hc h
            · have := startsWith_iff.mp h
              have h' : startsWith a (str! "--emit") = true :=
                startsWith_iff.mpr (List.IsPrefix.trans ⟨str! "=", rfl⟩ this)
              rw [h2] at h'
              cases h'
          rw [argLoop_skip hwa, argLoop_skip hw, ih]
          simp [itemStep, ho, hc]
    | plain a =>
      obtain ⟨h1, h2, h3, h4, h5⟩ := hi
      simp only [render, List.foldl_cons]
      by_cases he : startsWith a (str! "--emit=") = true
      · rw [argLoop.eq_def]
        simp [h1, h2, h3, he, itemStep, ih]
      · have hwa : ¬ Word a := by
          rintro (h | h | h | h)
          · exact h1 h
          · exact h2 h
          · exact h3 h
          · exact he h
        rw [argLoop_skip hwa, ih]
        simp [itemStep, he]

theorem foldl_fields : ∀ (items : List Item) (s : ArgState), (∀ i ∈ items, CargoForm i) →
    (items.foldl itemStep s).crateName =
      ((optionValues (str! "--crate-name") items).getLast?.or s.crateName) ∧
    (items.foldl itemStep s).outDir = ((optionValues (str! "--out-dir") items).getLast?.or s.outDir) ∧
    (items.foldl itemStep s).extra = (effective (str! "extra-filename=") items).getD s.extra ∧
    (items.foldl itemStep s).emit =
      (((optionValues (str! "--emit") items).getLast?.map
        (fun v => contains (str! "dep-info") (str! "--emit=" ++ v))).getD s.emit)
  | [], s, _ => by simp [optionValues, effective]
  | i :: rest, s, h => by
    have hi := h i (by simp)
    obtain ⟨i1, i2, i3, i4⟩ := foldl_fields rest (itemStep s i) (fun x hx => h x (List.mem_cons_of_mem _ hx))
    have last : ∀ (o : Option Str) (l : List Str) (x : Option Str),
        ((o.toList ++ l).getLast?).or x = l.getLast?.or (o.or x) := by
      intro o l x
      rw [List.getLast?_append]
      cases l.getLast? <;> cases o <;> simp
    have cons : ∀ name, optionValues name (i :: rest) = (optionValue name i).toList ++ optionValues name rest := by
      intro name
      unfold optionValues
      rw [List.filterMap_cons]
      cases optionValue name i <;> simp
    rw [List.foldl_cons, cons, cons, cons, last, last, effective_cons]
    rw [i1, i2, i3, i4]
    have hplain : ∀ a, i = .plain a → stripPrefix (str! "--out-dir=") a = none ∧
        stripPrefix (str! "--crate-name=") a = none := by
      rintro a rfl
      obtain ⟨_, _, _, h4, h5⟩ := hi
      simpa [startsWith] using And.intro h4 h5
    refine ⟨?_, ?_, ?_, ?_⟩
    · congr 1
      cases i with
      | codegen v =>
        simp only [itemStep, optionValue]
        cases stripPrefix (str! "extra-filename=") v <;> simp
      | valued a v =>
        simp only [itemStep, optionValue]
        by_cases ho : a = str! "--out-dir"
        · subst ho; simp
        · by_cases hc : a = str! "--crate-name"
          · subst hc; simp
          · simp [ho, hc]
      | plain a =>
        simp only [itemStep, optionValue, List.cons_append, List.nil_append, (hplain a rfl).2]
        split <;> simp
    · congr 1
      cases i with
      | codegen v =>
        simp only [itemStep, optionValue]
        cases stripPrefix (str! "extra-filename=") v <;> simp
      | valued a v =>
        simp only [itemStep, optionValue]
        by_cases ho : a = str! "--out-dir"
        · subst ho; simp
        · by_cases hc : a = str! "--crate-name"
          · subst hc; simp
          · simp [ho, hc]
      | plain a =>
        simp only [itemStep, optionValue, List.cons_append, List.nil_append, (hplain a rfl).1]
        split <;> simp
    · cases i with
      | codegen v =>
        simp only [itemStep]
        cases stripPrefix (str! "extra-filename=") v <;>
          cases effective (str! "extra-filename=") rest <;> simp
      | valued a v =>
        simp only [itemStep]
        have : ∀ b c : Prop, ∀ [Decidable b] [Decidable c], ∀ x y : ArgState, x.extra = s.extra → y.extra = s.extra →
            (if b then x else if c then y else s).extra = s.extra := by
          intro b c _ _ x y hx hy
          split
          · exact hx
          · split
            · exact hy
            · rfl
        rw [this]
        · cases effective (str! "extra-filename=") rest <;> simp
        · rfl
        · rfl
      | plain a =>
        simp only [itemStep]
        split <;> cases effective (str! "extra-filename=") rest <;> simp
    · rw [List.getLast?_append]
      cases hl : (optionValues (str! "--emit") rest).getLast? with
      | some v => simp
      | none =>
        simp only [Option.map_none, Option.getD_none, Option.none_or]
        cases i with
        | codegen v =>
          simp only [itemStep, optionValue]
          cases stripPrefix (str! "extra-filename=") v <;> simp
        | valued a v =>
          have hne : a ≠ str! "--emit" := by
            rintro rfl
            exact absurd hi.2.1 (by decide)
          simp only [itemStep, optionValue, hne, if_false, Option.toList_none, List.getLast?_nil,
            Option.map_none, Option.getD_none]
          split
          · rfl
          · split <;> rfl
        | plain a =>
          simp only [itemStep, optionValue, List.cons_append, List.nil_append]
          cases hs : stripPrefix (str! "--emit=") a with
          | none => simp [startsWith, hs]
          | some v =>
            have ha : a = str! "--emit=" ++ v := stripPrefix_eq.mp hs
            have hst : startsWith a (str! "--emit=") = true := by simp [startsWith, hs]
            simp only [hst, if_true, Option.toList_some, List.getLast?_singleton, Option.map_some,
              Option.getD_some]
            rw [ha]
            rfl

theorem contains_append {n : Str} (a b c : Str) (h : b = n) : contains n (a ++ (b ++ c)) = true := by
  induction a with
  | nil =>
    subst h
    cases hbc : b ++ c with
    | nil =>
      have : b = [] := (List.append_eq_nil_iff.mp hbc).1
      subst this
      simp [contains]
    | cons x xs =>
      have : startsWith (x :: xs) b = true := startsWith_iff.mpr ⟨c, hbc⟩
      simp [contains, this]
  | cons x a ih => simp [contains, ih]

theorem splitChar_mem {sep : Char} {x s : Str} (h : x ∈ splitChar sep s) : ∃ a c, s = a ++ (x ++ c) := by
  induction s generalizing x with
  | nil =>
    simp only [splitChar, List.mem_singleton] at h
    subst h
    exact ⟨[], [], rfl⟩
  | cons ch s ih =>
    unfold splitChar at h
    split at h
    · rcases List.mem_cons.mp h with rfl | h
      · exact ⟨[], ch :: s, rfl⟩
      · obtain ⟨a, c, rfl⟩ := ih h
        exact ⟨ch :: a, c, rfl⟩
    · cases hs : splitChar sep s with
      | nil =>
        rw [hs] at h
        simp only [List.mem_singleton] at h
        subst h
        exact ⟨[], s, rfl⟩
      | cons y ys =>
        rw [hs] at h ih
        rcases List.mem_cons.mp h with rfl | h
        · obtain ⟨a, c, hac⟩ := ih (x := y) (by simp)
          have hpre : ∃ c, s = y ++ c := by
            have := splitChar_head hs
            exact this
          obtain ⟨c, rfl⟩ := hpre
          exact ⟨[], c, rfl⟩
        · obtain ⟨a, c, rfl⟩ := ih (List.mem_cons_of_mem _ h)
          exact ⟨ch :: a, c, rfl⟩
where
  splitChar_head {sep : Char} {s y : Str} {ys : List Str} (h : splitChar sep s = y :: ys) :
      ∃ c, s = y ++ c := by
    induction s generalizing y ys with
    | nil =>
      simp only [splitChar, List.cons.injEq] at h
      obtain ⟨rfl, _⟩ := h
      exact ⟨[], rfl⟩
    | cons ch s ih =>
      unfold splitChar at h
      split at h
      · simp only [List.cons.injEq] at h
        obtain ⟨rfl, _⟩ := h
        exact ⟨_, rfl⟩
      · cases hs : splitChar sep s with
        | nil =>
          rw [hs] at h
          simp only [List.cons.injEq] at h
          obtain ⟨rfl, _⟩ := h
          exact ⟨s, rfl⟩
        | cons z zs =>
          rw [hs] at h
          simp only [List.cons.injEq] at h
          obtain ⟨rfl, _⟩ := h
          obtain ⟨c, rfl⟩ := ih hs
          exact ⟨c, rfl⟩

/-- **C68 (partial).** For a command line in the form that cargo uses, with one `--emit` option, the file
that is read is the one that rustc writes. Missing: a second `--emit` option and options written in other
ways, see `C68_second_emit` and `C68_joined_extra`. -/
theorem C68_dep_info_path_partial (takesArg : Str → Bool) (items : List Item)
    (hc : ∀ i ∈ items, Clear takesArg i) (hf : ∀ i ∈ items, CargoForm i)
    (he : (optionValues (str! "--emit") items).length ≤ 1) (dir file : Str)
    (h : Writes (parseArgs takesArg (render items)) dir file) :
    depsPath (render items) = some (some (dir, file)) := by
  rw [parse_render hc] at h
  obtain ⟨name, h1, h2, ⟨v, hv, hd⟩, rfl⟩ := h
  obtain ⟨f1, f2, f3, f4⟩ := foldl_fields items {} hf
  unfold depsPath
  rw [argLoop_render items {} hf]
  have hev : optionValues (str! "--emit") items = [v] := by
    cases hl : optionValues (str! "--emit") items with
    | nil => rw [hl] at hv; simp at hv
    | cons x xs =>
      rw [hl] at hv he
      have : xs = [] := by simpa using he
      subst this
      simp only [List.mem_singleton] at hv
      rw [hv]
  have hemit : (items.foldl itemStep {}).emit = true := by
    rw [f4, hev]
    obtain ⟨a, c, rfl⟩ := splitChar_mem hd
    simp only [List.getLast?_singleton, Option.map_some, Option.getD_some]
    have := contains_append (n := str! "dep-info") (str! "--emit=" ++ a) (str! "dep-info") c rfl
    simpa using this
  simp only [hemit, if_true, f1, f2, f3, h1, h2, List.getLast?_singleton, Option.some_or]

/-! Non-vacuity: a command line of cargo. -/
private def cargoItems : List Item :=
  [.valued (str! "--crate-name") (str! "a"), .plain (str! "src/lib.rs"),
   .plain (str! "--emit=dep-info,metadata,link"), .codegen (str! "extra-filename=-12"),
   .valued (str! "--cfg") (str! "x"), .valued (str! "--out-dir") (str! "/t/deps")]
example : (∀ i ∈ cargoItems, Clear takes i) ∧ (∀ i ∈ cargoItems, CargoForm i) ∧
    (optionValues (str! "--emit") cargoItems).length ≤ 1 ∧
    Writes (parseArgs takes (render cargoItems)) (str! "/t/deps") (str! "a-12.d") := by
  refine ⟨?_, ?_, by decide, ⟨str! "a", by decide, by decide,
    ⟨str! "dep-info,metadata,link", by decide, by decide⟩, by decide⟩⟩
  · intro i hi
    simp only [cargoItems, List.mem_cons, List.not_mem_nil, or_false] at hi
    rcases hi with rfl | rfl | rfl | rfl | rfl | rfl <;> simp [Clear, stripPrefix, startsWith, takes]
  · intro i hi
    simp only [cargoItems, List.mem_cons, List.not_mem_nil, or_false] at hi
    rcases hi with rfl | rfl | rfl | rfl | rfl | rfl <;> simp [CargoForm, Word, stripPrefix, startsWith]

end Cackle.Rustc
