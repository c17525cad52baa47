import Verif.Props.LinkSpec
import Verif.Props.Sandbox

/-!
# Lemmas about linking and wrappers
-/

namespace Cackle.Link
open Cackle Perm Identity

/-! ## Extensions -/

theorem dropWhile_rev {name : Str} {ext base : Str} (h : '.' ∉ ext) :
    (base ++ '.' :: ext).reverse.dropWhile (· ≠ '.') = '.' :: base.reverse := by
  rw [List.reverse_append, List.reverse_cons, List.append_assoc]
  rw [List.dropWhile_append_of_pos]
  · simp
  · intro c hc
    have : c ≠ '.' := fun e => h (by rw [← e]; exact List.mem_reverse.mp hc)
    simpa using this

/-- A name with a dot that is neither the first nor followed by another one. -/
theorem stem_dot {base ext : Str} (hb : base ≠ []) (he : '.' ∉ ext) :
    Fs.stem (base ++ '.' :: ext) = base ∧ Fs.extension (base ++ '.' :: ext) = some ext := by
  have h1 : Fs.stem (base ++ '.' :: ext) = base := by
    unfold Fs.stem
    rw [dropWhile_rev (name := []) he]
    simp [hb]
  refine ⟨h1, ?_⟩
  unfold Fs.extension
  rw [h1, if_neg (by intro e; have := congrArg List.length e; simp at this)]
  congr 1
  have : base ++ '.' :: ext = (base ++ ['.']) ++ ext := by simp
  rw [this, List.drop_append_of_le_length (by simp), List.drop_of_length_le (by simp)]
  rfl

/-- Every name either has an extension or is its own stem. -/
theorem name_cases (name : Str) :
    (∃ base ext, name = base ++ '.' :: ext ∧ base ≠ [] ∧ '.' ∉ ext) ∨
    (Fs.stem name = name ∧ Fs.extension name = none ∧ ∀ base ext, base ≠ [] → name ≠ base ++ '.' :: ext) := by
  by_cases h : ∃ base ext, name = base ++ '.' :: ext ∧ base ≠ [] ∧ '.' ∉ ext
  · exact Or.inl h
  · right
    have hno : ∀ base ext, base ≠ [] → name ≠ base ++ '.' :: ext := by
      intro base ext
      induction hn : ext.length using Nat.strongRecOn generalizing base ext with
      | _ n ih =>
        intro hb e
        by_cases he : '.' ∈ ext
        · obtain ⟨x, y, rfl⟩ := List.append_of_mem he
          refine ih y.length ?_ (base ++ '.' :: x) y rfl (by simp) (by simp [e])
          simp only [List.length_append, List.length_cons] at hn
          omega
        · exact h ⟨base, ext, e, hb, he⟩
    have hstem : Fs.stem name = name := by
      unfold Fs.stem
      split
      · rfl
      · rename_i c before hd
        split
        · rfl
        · rename_i hb
          exfalso
          have h1 := List.takeWhile_append_dropWhile (p := fun c => decide (c ≠ '.')) (l := name.reverse)
          rw [hd] at h1
          have hc : c = '.' := by
            have := List.head?_dropWhile_not (fun c => decide (c ≠ '.')) name.reverse
            rw [hd] at this
            simpa using this
          subst hc
          have h2 := congrArg List.reverse h1
          rw [List.reverse_reverse, List.reverse_append, List.reverse_cons, List.append_assoc] at h2
          exact hno before.reverse _ (by simpa using hb) (by rw [← h2]; rfl)
    exact ⟨hstem, by unfold Fs.extension; rw [if_pos hstem], hno⟩

/-! ## The last component of a path -/

theorem splitChar_not_mem {sep : Char} {s : Str} : ∀ x ∈ splitChar sep s, sep ∉ x := by
  induction s with
  | nil => intro x hx; simp [splitChar] at hx; simp [hx]
  | cons c s ih =>
    intro x hx
    rw [splitChar] at hx
    split at hx
    · rcases List.mem_cons.mp hx with rfl | hx
      · simp
      · exact ih x hx
    · rename_i hc
      split at hx
      · simp only [List.mem_singleton] at hx
        subst hx
        simp only [List.mem_singleton]
        exact fun e => hc e.symm
      · rename_i p ps he
        rcases List.mem_cons.mp hx with rfl | hx
        · have := ih p (by rw [he]; simp)
          simp only [List.mem_cons, not_or]
          exact ⟨fun e => hc e.symm, this⟩
        · exact ih x (by rw [he]; simp [hx])

theorem pathOf_last {dir name : Str} (hd : dir = [] ∨ ∃ d, dir = d ++ ['/']) (hn : '/' ∉ name) (h1 : name ≠ [])
    (h2 : name ≠ str! ".") : (pathOf (dir ++ name)).getLast? = some name := by
  have hs : ∃ P, (splitChar '/' (dir ++ name)).filter (fun c => c ≠ []) = P ++ [name] := by
    rcases hd with rfl | ⟨d, rfl⟩
    · refine ⟨[], ?_⟩
      rw [List.nil_append, BuildScript.splitChar_last hn]
      simp [h1]
    · refine ⟨(splitChar '/' d).filter (fun c => c ≠ []), ?_⟩
      rw [List.append_assoc, List.cons_append, List.nil_append, Sandboxing.splitChar_append, BuildScript.splitChar_last hn]
      simp [h1]
  obtain ⟨P, hP⟩ := hs
  have h2' : name ≠ ['.'] := h2
  unfold pathOf
  simp only [hP]
  split
  · rw [List.filter_append]
    simp [h2', List.getLast?_cons]
  · cases P with
    | nil => simp
    | cons p rest =>
      simp only [List.cons_append, List.filter_append]
      simp [h2', List.getLast?_cons]

theorem supported_of_names {a : Str} (h : NamesObject a) : hasSupportedExtension a = true := by
  obtain ⟨dir, base, ext, rfl, he, hd, hb, hs⟩ := h
  have hdot : '.' ∉ ext ∧ '/' ∉ ext := by rcases he with rfl | rfl <;> decide
  have e : dir ++ base ++ str! "." ++ ext = dir ++ (base ++ '.' :: ext) := by simp
  have hlast := pathOf_last (name := base ++ '.' :: ext) hd (by simp [hs, hdot.2]) (by simp) (by
    intro e
    have := congrArg List.length e
    simp only [List.length_append, List.length_cons, List.length_nil] at this
    have : base.length = 0 := by omega
    exact hb (List.length_eq_zero_iff.mp this))
  have hx := (stem_dot hb hdot.1).2
  unfold hasSupportedExtension
  rw [e, hlast]
  simp only
  rw [if_neg ?_, hx]
  · rcases he with rfl | rfl <;> simp
  · rintro (h | h)
    · have := congrArg List.getLast? h
      rcases he with rfl | rfl <;> simp at this
    · have := congrArg List.getLast? h
      rcases he with rfl | rfl <;> simp at this

/-! ## The original of a program -/

theorem origName_inj {m n : Str} (h : origName m = origName n) : m = n := by
  have hdot : ∀ {a b e f : Str}, '.' ∉ e → '.' ∉ f → a ++ '.' :: e = b ++ '.' :: f → a = b ∧ e = f := by
    intro a b e f he hf hab
    rcases Decidable.em (a = []) with rfl | ha
    · cases b with
      | nil => simpa using hab
      | cons x b =>
        simp only [List.nil_append, List.cons_append, List.cons.injEq] at hab
        exact absurd (by rw [hab.2]; simp) he
    · rcases Decidable.em (b = []) with rfl | hb
      · cases a with
        | nil => exact absurd rfl ha
        | cons x a =>
          simp only [List.nil_append, List.cons_append, List.cons.injEq] at hab
          exact absurd (by rw [← hab.2]; simp) hf
      · have h1 := stem_dot ha he
        rw [hab] at h1
        have h2 := stem_dot hb hf
        exact ⟨h1.1.symm.trans h2.1, by have := h1.2.symm.trans h2.2; simpa using this⟩
  have horig : '.' ∉ str! "orig" := by decide
  have e1 : ∀ b ext : Str, b ++ str! "." ++ (str! "orig." ++ ext) = (b ++ '.' :: str! "orig") ++ '.' :: ext := by
    intro b ext; simp
  have e2 : ∀ b : Str, b ++ str! ".orig" = b ++ '.' :: str! "orig" := by intro b; simp
  rcases name_cases m with ⟨b, e, rfl, hb, he⟩ | ⟨h1, h2, h3⟩ <;> rcases name_cases n with ⟨c, f, rfl, hc, hf⟩ | ⟨g1, g2, g3⟩
  · simp only [origName, stem_dot hb he, stem_dot hc hf, e1] at h
    obtain ⟨h', rfl⟩ := hdot he hf h
    obtain ⟨rfl, _⟩ := hdot horig horig h'
    rfl
  · simp only [origName, stem_dot hb he, g1, g2, e1, e2] at h
    obtain ⟨h, _⟩ := hdot he horig h
    exact absurd h.symm (g3 b _ hb)
  · simp only [origName, stem_dot hc hf, h1, h2, e1, e2] at h
    obtain ⟨h, _⟩ := hdot horig hf h
    exact absurd h (h3 c _ hc)
  · simp only [origName, h1, h2, g1, g2, e2] at h
    exact (hdot horig horig h).1

theorem origName_ne (n : Str) : origName n ≠ n := by
  rcases name_cases n with ⟨b, e, rfl, hb, he⟩ | ⟨h1, h2, _⟩
  · simp only [origName, stem_dot hb he]
    intro h
    have := congrArg List.length h
    simp at this
    omega
  · simp only [origName, h1, h2]
    intro h
    have := congrArg List.length h
    simp at this

theorem origName_slash {n : Str} (h : '/' ∉ n) : '/' ∉ origName n := by
  rcases name_cases n with ⟨b, e, rfl, hb, he⟩ | ⟨h1, h2, _⟩
  · simp only [List.mem_append, List.mem_cons, not_or] at h
    simp only [origName, stem_dot hb he]
    simp [h.1, h.2.2]
  · simp only [origName, h1, h2]
    simp [h]

theorem dir_file (p : Str) : p = dirPart p ++ Sandboxing.fileName p ∧ '/' ∉ Sandboxing.fileName p ∧
    (dirPart p = [] ∨ ∃ d, dirPart p = d ++ ['/']) := by
  have h1 := List.takeWhile_append_dropWhile (p := fun c => decide (c ≠ '/')) (l := p.reverse)
  have h2 := congrArg List.reverse h1
  rw [List.reverse_reverse, List.reverse_append] at h2
  refine ⟨h2.symm, ?_, ?_⟩
  · intro h
    unfold Sandboxing.fileName at h
    rw [List.mem_reverse] at h
    have := List.all_takeWhile (p := fun c => decide (c ≠ '/')) (l := p.reverse)
    have := List.all_eq_true.mp this _ h
    simp at this
  · unfold dirPart
    cases hd : p.reverse.dropWhile (fun c => decide (c ≠ '/')) with
    | nil => left; rfl
    | cons c d =>
      right
      have hc : c = '/' := by
        have := List.head?_dropWhile_not (fun c => decide (c ≠ '/')) p.reverse
        rw [hd] at this
        simpa using this
      exact ⟨d.reverse, by rw [List.reverse_cons, hc]⟩

theorem split_slash {a b x y : Str} (ha : a = [] ∨ ∃ d, a = d ++ ['/']) (hb : b = [] ∨ ∃ d, b = d ++ ['/']) (hx : '/' ∉ x)
    (hy : '/' ∉ y) (h : a ++ x = b ++ y) : a = b ∧ x = y := by
  have key : ∀ {a x : Str}, (a = [] ∨ ∃ d, a = d ++ ['/']) → '/' ∉ x → Sandboxing.fileName (a ++ x) = x := by
    intro a x ha hx
    unfold Sandboxing.fileName
    rw [List.reverse_append]
    rcases ha with rfl | ⟨d, rfl⟩
    · have hall := List.takeWhile_append_of_pos (p := fun c => decide (c ≠ '/')) (l₁ := x.reverse) (l₂ := []) (by
        intro c hc
        have : c ≠ '/' := fun e => hx (by rw [← e]; exact List.mem_reverse.mp hc)
        simpa using this)
      rw [List.reverse_nil, hall]
      simp
    · rw [List.takeWhile_append_of_pos]
      · simp
      · intro c hc
        have : c ≠ '/' := fun e => hx (by rw [← e]; exact List.mem_reverse.mp hc)
        simpa using this
  have h1 := key ha hx
  rw [h, key hb hy] at h1
  subst h1
  exact ⟨List.append_cancel_right h, rfl⟩

theorem origBinPath_inj {p q : Str} (h : origBinPath p = origBinPath q) : p = q := by
  obtain ⟨p1, p2, p3⟩ := dir_file p
  obtain ⟨q1, q2, q3⟩ := dir_file q
  obtain ⟨e1, e2⟩ := split_slash p3 q3 (origName_slash p2) (origName_slash q2) h
  rw [p1, q1, e1, origName_inj e2]

theorem origBinPath_ne (p : Str) : origBinPath p ≠ p := by
  intro h
  obtain ⟨p1, _, _⟩ := dir_file p
  have h2 : dirPart p ++ origName (Sandboxing.fileName p) = dirPart p ++ Sandboxing.fileName p := h.trans p1
  exact origName_ne _ (List.append_cancel_left h2)

theorem origBinPath_literal {p : Str} (h : Literal p) : Literal (origBinPath p) := by
  obtain ⟨p1, _, _⟩ := dir_file p
  have hd : ∀ c ∈ dirPart p, c ∈ p := fun c hc => by rw [p1]; exact List.mem_append_left _ hc
  have hf : ∀ c ∈ Sandboxing.fileName p, c ∈ p := fun c hc => by rw [p1]; exact List.mem_append_right _ hc
  have ho : ∀ c ∈ origName (Sandboxing.fileName p), c ∈ Sandboxing.fileName p ∨ c ∈ str! ".orig" := by
    intro c hc
    rcases name_cases (Sandboxing.fileName p) with ⟨b, e, hn, hb, he⟩ | ⟨h1, h2, _⟩
    · rw [hn] at hc ⊢
      simp only [origName, stem_dot hb he, List.mem_append] at hc
      rcases hc with (hc | hc) | hc | hc
      · left; simp [hc]
      · right; simp only [List.mem_cons, List.not_mem_nil, or_false] at hc ⊢; simp [hc]
      · right
        simp only [List.mem_cons, List.not_mem_nil, or_false] at hc ⊢
        rcases hc with rfl | rfl | rfl | rfl | rfl <;> simp
      · left; simp [hc]
    · simp only [origName, h1, h2, List.mem_append] at hc
      exact hc
  intro c hc
  rcases List.mem_append.mp hc with hc | hc
  · exact h c (hd c hc)
  · rcases ho c hc with hc | hc
    · exact h c (hf c hc)
    · simp only [List.mem_cons, List.not_mem_nil, or_false] at hc
      rcases hc with rfl | rfl | rfl | rfl | rfl <;> decide

/-! ## The script -/

variable {xs : List Str} {vars : Str → Str}

theorem bash_quoted {p : Str} (h : Literal p) (n : Nat) (w s : Str) :
    bashWords xs vars (n + p.length) true (some w) (p ++ s) = bashWords xs vars n true (some (w ++ p)) s := by
  induction p generalizing w with
  | nil => simp
  | cons c p ih =>
    obtain ⟨h1, h2, h3, h4, _⟩ := h c (by simp)
    rw [List.length_cons, ← Nat.add_assoc, List.cons_append, bashWords]
    simp only [if_true, h1, h2, h3, h4, if_false, Option.map_some]
    rw [ih (fun c hc => h c (by simp [hc]))]
    simp

theorem bash_word {p : Str} (h : Literal p) (n : Nat) (s : Str) :
    bashWords xs vars (n + 1 + p.length + 1) false none ('"' :: p ++ '"' :: s) = bashWords xs vars n false (some p) s := by
  rw [List.cons_append, bashWords]
  simp only [Bool.false_eq_true, if_false, Option.getD_none]
  rw [if_neg (by decide), if_pos trivial, bash_quoted h, bashWords]
  simp

theorem bash_plain {t : Str} (h : ∀ c ∈ t, plain c) (n : Nat) (w : Option Str) (s : Str) (ht : t ≠ []) :
    bashWords xs vars (n + t.length) false w (t ++ s) = bashWords xs vars n false (some (w.getD [] ++ t)) s := by
  induction t generalizing w with
  | nil => exact absurd rfl ht
  | cons c t ih =>
    have hc := h c (by simp)
    have h1 : c ≠ ' ' := by rintro rfl; revert hc; decide
    have h2 : c ≠ '"' := by rintro rfl; revert hc; decide
    rw [List.length_cons, ← Nat.add_assoc, List.cons_append, bashWords]
    simp only [Bool.false_eq_true, if_false, h1, h2, hc, if_true]
    cases t with
    | nil => simp
    | cons d t =>
      rw [ih (fun c hc => h c (by simp [hc])) _ (by simp)]
      simp

theorem bash_space (n : Nat) (w : Option Str) (s : Str) :
    bashWords xs vars (n + 1) false w (' ' :: s) = (bashWords xs vars n false none s).map (fun ws => w.toList ++ ws) := by
  rw [bashWords]
  simp

theorem bash_args (n : Nat) (s : Str) :
    bashWords xs vars (n + 2) false none ('"' :: '$' :: '@' :: '"' :: s) =
      (bashWords xs vars n false none s).map (fun ws => xs ++ ws) := by
  rw [bashWords]
  simp only [Bool.false_eq_true, if_false, Option.getD_none]
  rw [if_neg (by decide), if_pos trivial, bashWords]
  simp

theorem bash_fuel {n m : Nat} {q : Bool} {w : Option Str} {s : Str} {r : List Str} (h : bashWords xs vars n q w s = some r)
    (hm : n ≤ m) : bashWords xs vars m q w s = some r := by
  induction n generalizing m q w s r with
  | zero => simp [bashWords] at h
  | succ n ih =>
    obtain ⟨m, rfl⟩ : ∃ k, m = k + 1 := ⟨m - 1, by omega⟩
    have hm' : n ≤ m := by omega
    cases s with
    | nil => simpa [bashWords] using h
    | cons c s =>
      have ihm : ∀ {q : Bool} {w : Option Str} {s : Str} {f : List Str → List Str} {r : List Str},
          (bashWords xs vars n q w s).map f = some r → (bashWords xs vars m q w s).map f = some r := by
        intro q w s f r h
        obtain ⟨x, hx, rfl⟩ := Option.map_eq_some_iff.mp h
        rw [ih hx hm']
        rfl
      rw [bashWords] at h ⊢
      repeat' split
      all_goals simp_all only [if_true, if_false, Bool.false_eq_true, reduceCtorEq]
      all_goals first | exact ih h hm' | exact ihm h | simp_all

theorem token_plain (k : CrateKind) : (∀ c ∈ toToken k, plain c) ∧ toToken k ≠ [] := by
  cases k <;> decide

theorem proxyBinArg_plain : ∀ c ∈ proxyBinArg, plain c := by decide

/-- The line that runs cackle. -/
theorem bash_line2 {exe bin : Str} {k : CrateKind} (he : Literal exe) (hb : Literal bin) :
    bashLine xs vars (str! "\"" ++ exe ++ str! "\" " ++ proxyBinArg ++ str! " " ++ toToken k ++ str! " \"" ++ bin ++ str! "\" \"$@\" ") =
      some (exe :: proxyBinArg :: toToken k :: bin :: xs) := by
  have key : bashWords xs vars ((((((((((1 + 1) + 2) + 1) + 1 + bin.length + 1) + 1) + (toToken k).length) + 1) + proxyBinArg.length) + 1) + 1 + exe.length + 1)
      false none ('"' :: exe ++ '"' :: (' ' :: (proxyBinArg ++ (' ' :: (toToken k ++ (' ' :: ('"' :: bin ++ '"' :: (' ' :: ('"' :: '$' :: '@' :: '"' :: (' ' :: [])))))))))) =
      some (exe :: proxyBinArg :: toToken k :: bin :: xs) := by
    rw [bash_word he, bash_space, bash_plain proxyBinArg_plain _ _ _ (by decide), bash_space,
      bash_plain (token_plain k).1 _ _ _ (token_plain k).2, bash_space, bash_word hb, bash_space, bash_args, bash_space, bashWords]
    simp
  unfold bashLine
  have h := bash_fuel key (m := (str! "\"" ++ exe ++ str! "\" " ++ proxyBinArg ++ str! " " ++ toToken k ++ str! " \"" ++ bin ++ str! "\" \"$@\" ").length + 1) (by simp; try omega)
  simpa using h

/-- The line that runs the program directly. -/
theorem bash_line4 {bin : Str} (hb : Literal bin) :
    bashLine xs vars (str! "\"" ++ bin ++ str! "\" \"$@\"") = some (bin :: xs) := by
  have key : bashWords xs vars ((((1 + 2) + 1) + 1 + bin.length + 1))
      false none ('"' :: bin ++ '"' :: (' ' :: ('"' :: '$' :: '@' :: '"' :: []))) = some (bin :: xs) := by
    rw [bash_word hb, bash_space, bash_args, bashWords]
    simp
  unfold bashLine
  have h := bash_fuel key (m := (str! "\"" ++ bin ++ str! "\" \"$@\"").length + 1) (by simp; try omega)
  simpa using h

/-- The condition. -/
theorem bash_line1 {exe : Str} (he : Literal exe) : bashLine xs vars (str! "\"" ++ exe ++ str! "\"") = some [exe] := by
  have key : bashWords xs vars (1 + 1 + exe.length + 1) false none ('"' :: exe ++ '"' :: []) = some [exe] := by
    rw [bash_word he, bashWords]
    simp
  unfold bashLine
  have h := bash_fuel key (m := (str! "\"" ++ exe ++ str! "\"").length + 1) (by simp; try omega)
  simpa using h

theorem between_eq (pre mid suf : Str) : between pre suf (pre ++ mid ++ suf) = some mid := by
  unfold between
  rw [if_pos]
  · simp
  · refine ⟨?_, ?_, ?_⟩
    · rw [List.append_assoc]; simp
    · exact List.isSuffixOf_iff_suffix.mpr ⟨pre ++ mid, rfl⟩
    · simp only [List.length_append]; omega

theorem script_lines {exe bin : Str} {k : CrateKind} (he : '\n' ∉ exe) (hb : '\n' ∉ bin) :
    splitChar '\n' (script exe (toToken k) bin) =
      [str! "#!/bin/bash", str! "if [ -x " ++ (str! "\"" ++ exe ++ str! "\"") ++ str! " ]; then",
       str! "\"" ++ exe ++ str! "\" " ++ proxyBinArg ++ str! " " ++ toToken k ++ str! " \"" ++ bin ++ str! "\" \"$@\" ",
       str! "else", str! "\"" ++ bin ++ str! "\" \"$@\"", str! "fi", []] := by
  have ht : '\n' ∉ toToken k := by cases k <;> decide
  have e : script exe (toToken k) bin =
      str! "#!/bin/bash" ++ '\n' :: ((str! "if [ -x " ++ (str! "\"" ++ exe ++ str! "\"") ++ str! " ]; then") ++ '\n' ::
      ((str! "\"" ++ exe ++ str! "\" " ++ proxyBinArg ++ str! " " ++ toToken k ++ str! " \"" ++ bin ++ str! "\" \"$@\" ") ++ '\n' ::
      (str! "else" ++ '\n' :: ((str! "\"" ++ bin ++ str! "\" \"$@\"") ++ '\n' :: (str! "fi" ++ '\n' :: []))))) := by
    simp [script]
  rw [e, BuildScript.splitChar_line (by decide), BuildScript.splitChar_line (by simp [he]),
    BuildScript.splitChar_line (by simp [he, hb, ht, proxyBinArg]), BuildScript.splitChar_line (by decide),
    BuildScript.splitChar_line (by simp [hb]), BuildScript.splitChar_line (by decide)]
  rfl

theorem bashRuns_script {exe bin : Str} {k : CrateKind} (he : Literal exe) (hb : Literal bin) (executable : Str → Bool) :
    bashRuns executable vars (script exe (toToken k) bin) xs =
      some (if executable exe then exe :: proxyBinArg :: toToken k :: bin :: xs else bin :: xs) := by
  have h1 : '\n' ∉ exe := fun h => (he _ h).2.2.2.2 rfl
  have h2 : '\n' ∉ bin := fun h => (hb _ h).2.2.2.2 rfl
  unfold bashRuns
  rw [script_lines h1 h2]
  simp only
  rw [if_pos ⟨trivial, trivial, trivial, trivial⟩, between_eq, Option.bind_some, bash_line1 he, bash_line2 he hb, bash_line4 hb]
  simp only
  split <;> rfl

end Cackle.Link
