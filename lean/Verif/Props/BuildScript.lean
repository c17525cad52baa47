import Verif.Model.BuildScript
import Verif.Props.Permissions

/-!
# C17 (disallowed build instructions are reported), C18 (offered patterns), C54 (what cargo acts on)
-/

namespace Cackle.BuildScript
open Cackle Config Perm

/-! ## Specification -/

/-- The instruction is harmless. -/
def Harmless (i : Str) : Prop :=
  str! "cargo:rerun-if-" <+: i ∨ str! "cargo:warning" <+: i ∨ str! "cargo:rustc-cfg=" <+: i ∨
  str! "cargo:rustc-check-cfg=" <+: i

/-- A pattern permits an instruction: equal, or a prefix followed by a star. -/
def Permits (pattern i : Str) : Prop := pattern = i ∨ ∃ pre, pattern = pre ++ ['*'] ∧ pre <+: i

/-- The configuration lists the pattern for the build script of the package: in its own section or in
one it inherits from. -/
def Listed (cfg : Raw) (pkg pattern : Str) : Prop :=
  ∃ s ∈ [Scope.build, .fromBuild, .all], ∃ p, listed cfg pkg s = some p ∧
    pattern ∈ p.allowBuildInstructions

/-- The instruction must be reported. -/
def Bad (cfg : Raw) (pkg i : Str) : Prop :=
  str! "cargo:" <+: i ∧ ¬ Harmless i ∧ ∀ pattern, Listed cfg pkg pattern → ¬ Permits pattern i

/-! ## Helpers -/

theorem stripPrefix_eq {p s r : Str} : stripPrefix p s = some r ↔ s = p ++ r := by
  induction p generalizing s with
  | nil => simp [stripPrefix, eq_comm]
  | cons a p ih =>
    cases s with
    | nil => simp [stripPrefix]
    | cons c s =>
      by_cases h : a = c
      · simp [stripPrefix, h, ih]
      · simp [stripPrefix, h]
        intro e
        exact absurd e.symm h

theorem startsWith_iff {s p : Str} : startsWith s p = true ↔ p <+: s := by
  unfold startsWith
  rw [Option.isSome_iff_exists]
  constructor
  · rintro ⟨r, h⟩
    exact ⟨r, (stripPrefix_eq.mp h).symm⟩
  · rintro ⟨r, h⟩
    exact ⟨r, stripPrefix_eq.mpr h.symm⟩

theorem eq_append_of_getLast? {l : Str} {c : Char} (h : l.getLast? = some c) :
    l = l.dropLast ++ [c] := by
  cases l with
  | nil => simp at h
  | cons a l =>
    have := List.dropLast_concat_getLast (l := a :: l) (by simp)
    rw [List.getLast?_eq_some_getLast (by simp)] at h
    simp only [Option.some.injEq] at h
    rw [h] at this
    exact this.symm

theorem matches_iff {i rule : Str} : «matches» i rule = true ↔ Permits rule i := by
  unfold «matches» Permits
  split
  · rename_i h
    have e := eq_append_of_getLast? h
    rw [startsWith_iff]
    constructor
    · intro hp
      exact .inr ⟨_, e, hp⟩
    · rintro (rfl | ⟨pre, h1, h2⟩)
      · exact List.dropLast_prefix _
      · rw [e] at h1
        rw [(List.append_inj' h1 rfl).1]
        exact h2
  · rename_i h
    simp only [beq_iff_eq]
    constructor
    · intro e
      exact .inl e.symm
    · rintro (rfl | ⟨pre, h1, _⟩)
      · rfl
      · subst h1
        simp at h

theorem checkDirective_eq (i : Str) (pkg : PkgId) (allowed : List Str)
    [Decidable (Harmless i ∨ ∃ p ∈ allowed, Permits p i)] :
    checkDirective i pkg allowed =
      if Harmless i ∨ ∃ p ∈ allowed, Permits p i then [] else [.disallowedBuildInstruction pkg i] := by
  have h1 : alwaysPermitted.any (fun p => startsWith i p) = true ↔ Harmless i := by
    simp [alwaysPermitted, startsWith_iff, Harmless]
  have h2 : allowed.any (fun r => «matches» i r) = true ↔ ∃ p ∈ allowed, Permits p i := by
    simp [List.any_eq_true, matches_iff]
  unfold checkDirective
  by_cases g1 : Harmless i
  · simp [h1.mpr g1, g1]
  · by_cases g2 : ∃ p ∈ allowed, Permits p i
    · simp [h2.mpr g2, g2]
    · have e1 : alwaysPermitted.any (fun p => startsWith i p) = false := by
        rw [Bool.eq_false_iff]; exact fun h => g1 (h1.mp h)
      have e2 : allowed.any (fun r => «matches» i r) = false := by
        rw [Bool.eq_false_iff]; exact fun h => g2 (h2.mp h)
      rw [if_neg (by simp [e1]), if_neg (by simp [e2]), if_neg (by simp [g1]; simpa using g2)]

theorem splitChar_ne_nil (c : Char) (s : Str) : splitChar c s ≠ [] := by
  cases s with
  | nil => simp [splitChar]
  | cons a s =>
    simp only [splitChar]
    split
    · simp
    · split <;> simp

theorem splitChar_line {l s : Str} {c : Char} (h : c ∉ l) :
    splitChar c (l ++ c :: s) = l :: splitChar c s := by
  induction l with
  | nil => simp [splitChar]
  | cons a l ih =>
    simp only [List.mem_cons, not_or] at h
    simp only [List.cons_append, splitChar]
    rw [if_neg (fun e => h.1 e.symm), ih h.2]

theorem splitChar_last {l : Str} {c : Char} (h : c ∉ l) : splitChar c l = [l] := by
  induction l with
  | nil => rfl
  | cons a l ih =>
    simp only [List.mem_cons, not_or] at h
    simp only [splitChar]
    rw [if_neg (fun e => h.1 e.symm), ih h.2]

theorem lines_cons {l s : Str} (h : '\n' ∉ l) : lines (l ++ '\n' :: s) = stripCr l :: lines s := by
  unfold lines
  rw [splitChar_line h]
  cases hs : splitChar '\n' s with
  | nil => exact absurd hs (splitChar_ne_nil _ _)
  | cons a r => rfl

/-- The text consisting of the given lines, each ended by a newline, with a carriage return before it
where the flag says so, then an unterminated rest. -/
def text (ls : List (Str × Bool)) (rest : Str) : Str :=
  ls.flatMap (fun l => l.1 ++ (if l.2 then ['\r', '\n'] else ['\n'])) ++ rest

/-- `lines` recovers the lines of a text. -/
theorem lines_text (ls : List (Str × Bool)) (rest : Str) (h : ∀ l ∈ ls, '\n' ∉ l.1)
    (hcr : ∀ l ∈ ls, l.2 = false → l.1.getLast? ≠ some '\r') (hr : '\n' ∉ rest) :
    lines (text ls rest) = ls.map Prod.fst ++ (if rest = [] then [] else [rest]) := by
  induction ls with
  | nil =>
    simp only [text, List.flatMap_nil, List.nil_append, lines, splitChar_last hr, linesOf, List.map_nil]
  | cons l ls ih =>
    obtain ⟨l, cr⟩ := l
    have ih := ih (fun x hx => h x (by simp [hx])) (fun x hx => hcr x (by simp [hx]))
    have h1 := h (l, cr) (by simp)
    have h2 := hcr (l, cr) (by simp)
    cases cr with
    | true =>
      have e : text ((l, true) :: ls) rest = (l ++ ['\r']) ++ '\n' :: text ls rest := by
        simp [text]
      rw [e, lines_cons (by simpa using h1), ih]
      simp [stripCr]
    | false =>
      have e : text ((l, false) :: ls) rest = l ++ '\n' :: text ls rest := by
        simp [text]
      rw [e, lines_cons (by simpa using h1), ih]
      simp only [stripCr, h2 rfl, if_false, List.map_cons, List.cons_append]

/-! ## C17 -/

open Classical in
theorem problems_eq (cfg : Raw) (hn : cfg.packages.keys.Nodup) (idx : List IdxPkg)
    (crate : CrateSel) (hidx : ∃ p ∈ idx, p.name = crate.pkgId.name ∧ p.hasBuildScript = true)
    (out : Str) :
    (build (withInheritance cfg idx) crate (some out)).problems =
      ((lines out).filter (fun i => Bad cfg crate.pkgId.name i)).map
        (Problem.disallowedBuildInstruction crate.pkgId) := by
  obtain ⟨p, hp, hname, hbs⟩ := hidx
  obtain ⟨c, hc, _, hbi, _⟩ := C03_inheritance cfg hn idx crate.pkgId.name ⟨p, hp, hname⟩ .build
    (.inr ⟨p, hp, hname, hbs⟩)
  simp only [build, hc, Option.map_some, Option.getD_some]
  generalize lines out = ls
  induction ls with
  | nil => rfl
  | cons i ls ih =>
    rw [List.flatMap_cons, ih, List.filter_cons, checkDirective_eq]
    have hl : (∃ q ∈ c.perms.allowBuildInstructions, Permits q i) ↔
        ∃ q, Listed cfg crate.pkgId.name q ∧ Permits q i := by
      simp only [hbi, Listed, chain]
    by_cases h1 : str! "cargo:" <+: i
    · rw [if_pos (startsWith_iff.mpr h1)]
      by_cases h2 : Harmless i ∨ ∃ q ∈ c.perms.allowBuildInstructions, Permits q i
      · have : ¬ Bad cfg crate.pkgId.name i := by
          rintro ⟨_, g2, g3⟩
          rcases h2 with h2 | h2
          · exact g2 h2
          · obtain ⟨q, q1, q2⟩ := hl.mp h2
            exact g3 q q1 q2
        rw [if_pos h2, if_neg (by simpa using this)]
        rfl
      · have : Bad cfg crate.pkgId.name i := by
          refine ⟨h1, fun h => h2 (.inl h), fun q hq hpm => h2 (.inr (hl.mpr ⟨q, hq, hpm⟩))⟩
        rw [if_neg h2, if_pos (by simpa using this)]
        rfl
    · have : ¬ Bad cfg crate.pkgId.name i := fun h => h1 h.1
      have hs : ¬ startsWith i (str! "cargo:") = true := fun h => h1 (startsWith_iff.mp h)
      rw [if_neg hs, if_neg (by simpa using this)]
      rfl

open Classical in
/-- **C17.** For a package in the crate index that has a build script, whatever the configuration: the
problems reported for the output of its build script are, in order, exactly the lines that must be
reported; if the output is not UTF-8, a problem is reported. -/
theorem C17_instructions_reported (cfg : Raw) (hn : cfg.packages.keys.Nodup) (idx : List IdxPkg)
    (crate : CrateSel) (hidx : ∃ p ∈ idx, p.name = crate.pkgId.name ∧ p.hasBuildScript = true) :
    (∀ (ls : List (Str × Bool)) (rest : Str), (∀ l ∈ ls, '\n' ∉ l.1) →
      (∀ l ∈ ls, l.2 = false → l.1.getLast? ≠ some '\r') → '\n' ∉ rest → rest ≠ [] →
      (build (withInheritance cfg idx) crate (some (text ls rest))).problems =
        ((ls.map Prod.fst ++ [rest]).filter (fun i => Bad cfg crate.pkgId.name i)).map
          (Problem.disallowedBuildInstruction crate.pkgId)) ∧
    (∀ (ls : List (Str × Bool)), (∀ l ∈ ls, '\n' ∉ l.1) →
      (∀ l ∈ ls, l.2 = false → l.1.getLast? ≠ some '\r') →
      (build (withInheritance cfg idx) crate (some (text ls []))).problems =
        ((ls.map Prod.fst).filter (fun i => Bad cfg crate.pkgId.name i)).map
          (Problem.disallowedBuildInstruction crate.pkgId)) ∧
    (build (withInheritance cfg idx) crate none).problems =
      [.message (str! "The build script `" ++ crate.pkgId.name ++ str! "` emitted invalid UTF-8")] := by
  obtain ⟨p, hp, hname, hbs⟩ := hidx
  have key := fun out => problems_eq cfg hn idx crate ⟨p, hp, hname, hbs⟩ out
  refine ⟨?_, ?_, ?_⟩
  · intro ls rest h1 h2 h3 h4
    rw [key, lines_text ls rest h1 h2 h3, if_neg h4]
  · intro ls h1 h2
    rw [key, lines_text ls [] h1 h2 (by simp)]
    simp
  · simp [build, utf8Message]

/-! Non-vacuity: a permitted, a harmless and a disallowed instruction. -/
private def exCfg : Raw :=
  { packages := [(str! "a", .mk {} (some (.leaf { allowBuildInstructions := [str! "cargo:rustc-link-*"] }))
      none none)] }
private def exIdx : List IdxPkg := [⟨str! "a", true, false⟩]
example : (build (withInheritance exCfg exIdx) ⟨⟨str! "a", str! "1", true⟩, .buildScript⟩
    (some (text [(str! "cargo:rustc-link-lib=z", false), (str! "cargo:rustc-env=A=b", true)]
      (str! "cargo:warning=x")))).problems =
    [.disallowedBuildInstruction ⟨str! "a", str! "1", true⟩ (str! "cargo:rustc-env=A=b")] := by
  decide +kernel

/-! ## C18 -/

theorem upToSep_spec {eq : Bool} {s p : Str} (h : upToSep eq s = some p) :
    p <+: s ∧ ∃ ch, p.getLast? = some ch ∧ ch.val < 128 := by
  induction s generalizing eq p with
  | nil => simp [upToSep] at h
  | cons c s ih =>
    simp only [upToSep] at h
    split at h
    · rename_i hc
      split at h
      · rename_i q hq
        simp only [Option.some.injEq] at h
        subst h
        obtain ⟨h1, ch, h2, h3⟩ := ih hq
        refine ⟨by simpa using h1, ch, ?_, h3⟩
        cases q with
        | nil => simp at h2
        | cons a q => simpa using h2
      · simp only [Option.some.injEq] at h
        subst h
        refine ⟨by simp, c, by simp, ?_⟩
        rcases hc with rfl | ⟨_, rfl | rfl⟩ <;> decide
    · simp only [Option.map_eq_some_iff] at h
      obtain ⟨q, hq, rfl⟩ := h
      obtain ⟨h1, ch, h2, h3⟩ := ih hq
      refine ⟨by simpa using h1, ch, ?_, h3⟩
      cases q with
      | nil => simp at h2
      | cons a q => simpa using h2

theorem upToSep_colon (s : Str) : (upToSep false (str! "cargo:" ++ s)).isSome := by
  simp only [List.cons_append, List.nil_append, upToSep]
  simp
  split <;> rfl

/-- Each pattern is a prefix of the instruction and a star, the prefixes getting shorter and shorter. -/
def Descends (i : Str) : List Str → Prop
  | [] => True
  | p :: rest => (∃ pre, p = pre ++ ['*'] ∧ pre <+: i ∧
      (∀ q ∈ rest, ∃ pre', q = pre' ++ ['*'] ∧ pre' <+: pre ∧ pre'.length < pre.length)) ∧
      Descends i rest

theorem Descends.mono {i j : Str} (h : i <+: j) : ∀ {l : List Str}, Descends i l → Descends j l
  | [], _ => trivial
  | _ :: _, ⟨⟨pre, h1, h2, h3⟩, h4⟩ => ⟨⟨pre, h1, h2.trans h, h3⟩, h4.mono h⟩

theorem Descends.mem {i : Str} : ∀ {l : List Str}, Descends i l → ∀ q ∈ l,
    ∃ pre, q = pre ++ ['*'] ∧ pre <+: i
  | [], _, _, hq => by simp at hq
  | _ :: _, ⟨⟨pre, h1, h2, _⟩, h4⟩, q, hq => by
    rcases List.mem_cons.mp hq with rfl | hq
    · exact ⟨pre, h1, h2⟩
    · exact h4.mem q hq

theorem editLoop_spec : ∀ (n : Nat) (s : Str), s.length < n →
    (∃ ch, s.getLast? = some ch ∧ ch.val < 128) →
    ∃ l, editLoop n s = some l ∧ l ≠ [] ∧ Descends s l
  | 0, _, h, _ => by omega
  | n + 1, s, hn, ⟨ch, hl, hch⟩ => by
    have hne : s ≠ [] := by rintro rfl; simp at hl
    unfold editLoop
    rw [if_neg hne]
    have hd : dropByte s = some s.dropLast := by simp [dropByte, hl, hch]
    simp only [hd]
    cases hu : upToSep false s.dropLast with
    | none => exact ⟨_, rfl, by simp, ⟨s, rfl, List.prefix_rfl, by simp⟩, trivial⟩
    | some next =>
      obtain ⟨h1, h2⟩ := upToSep_spec hu
      have hlen : next.length < s.length := by
        have := h1.length_le
        have hpos := List.length_pos_iff.mpr hne
        simp at this
        omega
      obtain ⟨l, hl1, _, hl2⟩ := editLoop_spec n next (by omega) h2
      have hpre : next <+: s := h1.trans (List.dropLast_prefix s)
      refine ⟨(s ++ ['*']) :: l, by simp only [hl1, Option.map_some], by simp,
        ⟨s, rfl, List.prefix_rfl, ?_⟩, hl2.mono hpre⟩
      intro q hq
      obtain ⟨pre, e, hp⟩ := hl2.mem q hq
      exact ⟨pre, e, hp.trans hpre, Nat.lt_of_le_of_lt hp.length_le hlen⟩

/-- **C18.** For every build instruction that can be reported, computing the edits does not panic, at
least one is offered, each adds a pattern that permits the instruction, and the patterns go from most to
least specific. -/
theorem C18_patterns (i : Str) (hi : str! "cargo:" <+: i) :
    ∃ l, editPatterns i = some l ∧ l ≠ [] ∧ (∀ p ∈ l, Permits p i) ∧ Descends i l := by
  obtain ⟨r, rfl⟩ := hi
  obtain ⟨s, hs⟩ := Option.isSome_iff_exists.mp (upToSep_colon r)
  obtain ⟨h1, h2⟩ := upToSep_spec hs
  obtain ⟨l, hl1, hl2, hl3⟩ := editLoop_spec _ s (Nat.lt_succ_of_le h1.length_le) h2
  refine ⟨l, ?_, hl2, ?_, hl3.mono h1⟩
  · simp only [editPatterns, hs, Option.getD_some]
    exact hl1
  · intro p hp
    obtain ⟨pre, e, hpre⟩ := (hl3.mono h1).mem p hp
    exact .inr ⟨pre, e, hpre⟩

example : editPatterns (str! "cargo:rustc-link-arg=é") =
    some [str! "cargo:rustc-link-arg=*", str! "cargo:rustc-link-*", str! "cargo:rustc-*",
      str! "cargo:*"] := by decide +kernel
/-- A place at which an instruction may be cut: after an equals sign, and after a dash or a colon unless that is in the value, after
an equals sign. -/
def Cut (i pre : Str) : Prop :=
  pre <+: i ∧ ∃ before c, pre = before ++ [c] ∧ (c = '=' ∨ ((c = '-' ∨ c = ':') ∧ '=' ∉ before))

/-- The same, if nothing but an equals sign counts (`eq`). -/
def CutE (eq : Bool) (i pre : Str) : Prop :=
  pre <+: i ∧ ∃ before c, pre = before ++ [c] ∧ (c = '=' ∨ (eq = false ∧ (c = '-' ∨ c = ':') ∧ '=' ∉ before))

theorem cutE_cons (eq : Bool) (c : Char) (s pre : Str) : CutE eq (c :: s) pre ↔
    (pre = [c] ∧ (c = '=' ∨ (eq = false ∧ (c = '-' ∨ c = ':')))) ∨ ∃ q, pre = c :: q ∧ CutE (eq || c == '=') s q := by
  constructor
  · rintro ⟨h1, before, d, rfl, h2⟩
    cases before with
    | nil =>
      obtain ⟨t, ht⟩ := h1
      simp only [List.nil_append, List.cons_append, List.cons.injEq] at ht
      obtain ⟨rfl, _⟩ := ht
      left
      refine ⟨rfl, ?_⟩
      rcases h2 with h2 | ⟨h2, h3, _⟩
      · exact .inl h2
      · exact .inr ⟨h2, h3⟩
    | cons b before =>
      obtain ⟨t, ht⟩ := h1
      simp only [List.cons_append, List.cons.injEq] at ht
      obtain ⟨rfl, ht⟩ := ht
      right
      refine ⟨before ++ [d], rfl, ⟨t, ht⟩, before, d, rfl, ?_⟩
      rcases h2 with h2 | ⟨h2, h3, h4⟩
      · exact .inl h2
      · right
        simp only [List.mem_cons, not_or] at h4
        exact ⟨by rw [h2, Bool.false_or, beq_eq_false_iff_ne]; exact fun e => h4.1 e.symm, h3, h4.2⟩
  · rintro (⟨rfl, h⟩ | ⟨q, rfl, h1, before, d, rfl, h2⟩)
    · refine ⟨by simp, [], c, rfl, ?_⟩
      rcases h with h | ⟨h1, h2⟩
      · exact .inl h
      · exact .inr ⟨h1, h2, by simp⟩
    · refine ⟨by simpa using h1, c :: before, d, rfl, ?_⟩
      rcases h2 with h2 | ⟨h2, h3, h4⟩
      · exact .inl h2
      · simp only [Bool.or_eq_false_iff, beq_eq_false_iff_ne] at h2
        exact .inr ⟨h2.1, h3, by rw [List.mem_cons]; exact fun e => e.elim (fun e => h2.2 e.symm) h4⟩

/-- The scan finds the last place to cut. -/
theorem upToSep_last (s : Str) : ∀ (eq : Bool),
    (upToSep eq s = none → ∀ pre, ¬ CutE eq s pre) ∧
    (∀ p, upToSep eq s = some p → CutE eq s p ∧ ∀ pre, CutE eq s pre → pre.length ≤ p.length) := by
  induction s with
  | nil =>
    intro eq
    refine ⟨fun _ pre h => ?_, fun p h => by cases h⟩
    obtain ⟨h1, before, c, h2, _⟩ := h
    rw [List.prefix_nil.mp h1] at h2
    exact absurd h2 (by simp)
  | cons c s ih =>
    intro eq
    obtain ⟨ih1, ih2⟩ := ih (eq || c == '=')
    unfold upToSep
    by_cases hc : c = '=' ∨ (eq = false ∧ (c = '-' ∨ c = ':'))
    · rw [if_pos hc]
      cases hq : upToSep (eq || c == '=') s with
      | none =>
        refine ⟨fun h => by simp at h, fun p h => ?_⟩
        simp only [Option.some.injEq] at h
        subst h
        refine ⟨(cutE_cons eq c s _).mpr (.inl ⟨rfl, hc⟩), fun pre hp => ?_⟩
        rcases (cutE_cons eq c s pre).mp hp with ⟨rfl, _⟩ | ⟨q, rfl, hq'⟩
        · simp
        · exact absurd hq' (ih1 hq q)
      | some q =>
        refine ⟨fun h => by simp at h, fun p h => ?_⟩
        simp only [Option.some.injEq] at h
        subst h
        obtain ⟨h1, h2⟩ := ih2 q hq
        refine ⟨(cutE_cons eq c s _).mpr (.inr ⟨q, rfl, h1⟩), fun pre hp => ?_⟩
        rcases (cutE_cons eq c s pre).mp hp with ⟨rfl, _⟩ | ⟨q', rfl, hq'⟩
        · simp
        · have := h2 q' hq'
          simpa using this
    · rw [if_neg hc]
      have he : (eq || c == '=') = eq := by
        have : c ≠ '=' := fun e => hc (.inl e)
        simp [this]
      rw [he] at ih1 ih2
      refine ⟨fun h pre hp => ?_, fun p h => ?_⟩
      · rcases (cutE_cons eq c s pre).mp hp with ⟨_, h2⟩ | ⟨q, rfl, hq'⟩
        · exact hc h2
        · rw [he] at hq'
          exact ih1 (by simpa using h) q hq'
      · simp only [Option.map_eq_some_iff] at h
        obtain ⟨q, hq, rfl⟩ := h
        obtain ⟨h1, h2⟩ := ih2 q hq
        refine ⟨(cutE_cons eq c s _).mpr (.inr ⟨q, rfl, by rw [he]; exact h1⟩), fun pre hp => ?_⟩
        rcases (cutE_cons eq c s pre).mp hp with ⟨_, h3⟩ | ⟨q', rfl, hq'⟩
        · exact absurd h3 hc
        · rw [he] at hq'
          simpa using h2 q' hq'

theorem cutE_false (i pre : Str) : CutE false i pre ↔ Cut i pre := by simp [CutE, Cut]

theorem Cut.mono {i j pre : Str} (h : Cut i pre) (hp : pre <+: j) : Cut j pre := ⟨hp, h.2⟩

theorem editLoop_cuts : ∀ (n : Nat) (s : Str) (l : List Str), editLoop n s = some l → Cut s s → ∀ pre, pre ++ ['*'] ∈ l ↔ Cut s pre
  | 0, _, _, h, _ => by cases h
  | n + 1, s, l, h, hs => by
    obtain ⟨_, before, c, e, hc⟩ := hs
    have hne : s ≠ [] := by rw [e]; simp
    have hd : dropByte s = some before := by
      have : c.val < 128 := by rcases hc with rfl | ⟨rfl | rfl, _⟩ <;> decide
      simp [dropByte, e, this]
    unfold editLoop at h
    rw [if_neg hne] at h
    simp only [hd] at h
    have hsplit : ∀ pre, Cut s pre ↔ pre = s ∨ Cut before pre := by
      intro pre
      constructor
      · intro hp
        by_cases hps : pre = s
        · exact .inl hps
        · right
          refine hp.mono ?_
          obtain ⟨t, ht⟩ := hp.1
          have hl : pre.length ≤ before.length := by
            have h1 := congrArg List.length ht
            have h2 := congrArg List.length e
            have h3 : t ≠ [] := by rintro rfl; simp at ht; exact hps ht
            have h4 := List.length_pos_iff.mpr h3
            simp at h1 h2
            omega
          exact List.prefix_of_prefix_length_le ⟨t, ht⟩ ⟨[c], e.symm⟩ hl
      · rintro (rfl | hp)
        · exact ⟨List.prefix_rfl, before, c, e, hc⟩
        · exact hp.mono (hp.1.trans ⟨[c], e.symm⟩)
    obtain ⟨u1, u2⟩ := upToSep_last before false
    intro pre
    rw [hsplit]
    cases hu : upToSep false before with
    | none =>
      rw [hu] at h
      simp only [Option.some.injEq] at h
      subst h
      have : ¬ Cut before pre := fun hp => u1 hu pre ((cutE_false _ _).mpr hp)
      simp [this]
    | some next =>
      rw [hu] at h
      simp only [Option.map_eq_some_iff] at h
      obtain ⟨l', hl', rfl⟩ := h
      obtain ⟨h1, h2⟩ := u2 next hu
      have h1' := (cutE_false _ _).mp h1
      rw [List.mem_cons, editLoop_cuts n next l' hl' (h1'.mono List.prefix_rfl) pre]
      have hiff : Cut next pre ↔ Cut before pre := by
        constructor
        · intro hp; exact hp.mono (hp.1.trans h1'.1)
        · intro hp
          exact hp.mono (List.prefix_of_prefix_length_le hp.1 h1'.1 (h2 pre ((cutE_false _ _).mpr hp)))
      rw [hiff]
      simp

/-- **C18.** The patterns that are offered are exactly those for the places at which the instruction may be cut: after each equals sign,
and after each dash and colon of the name of the instruction, but never in the middle of a value. -/
theorem C18_cuts (i : Str) (hi : str! "cargo:" <+: i) (l : List Str) (h : editPatterns i = some l) (pre : Str) :
    pre ++ ['*'] ∈ l ↔ Cut i pre := by
  obtain ⟨r, rfl⟩ := hi
  obtain ⟨s, hs⟩ := Option.isSome_iff_exists.mp (upToSep_colon r)
  obtain ⟨h1, h2⟩ := (upToSep_last _ false).2 s hs
  have h1' := (cutE_false _ _).mp h1
  simp only [editPatterns, hs, Option.getD_some] at h
  rw [editLoop_cuts _ _ _ h (h1'.mono List.prefix_rfl) pre]
  constructor
  · intro hp; exact hp.mono (hp.1.trans h1'.1)
  · intro hp; exact hp.mono (List.prefix_of_prefix_length_le hp.1 h1'.1 (h2 pre ((cutE_false _ _).mpr hp)))

/-- A concrete case: the dash and the colon in the value are no places to cut. -/
example : editPatterns (str! "cargo:rustc-env=A=b-c:d") =
    some [str! "cargo:rustc-env=A=*", str! "cargo:rustc-env=*", str! "cargo:rustc-*", str! "cargo:*"] := by decide +kernel

/-! Without a separator the loop does panic on a non-ASCII last character; C17 never reports such. -/
example : editPatterns (str! "é") = none := by decide +kernel

/-! ## C54 -/

/-- White space that `str::trim` removes, as far as ASCII is concerned. -/
def isSpace (c : Char) : Bool := c = ' ' || c = '\t' || c = '\r' || c = '\x0b' || c = '\x0c'

/-- `str::trim`. -/
def trim (s : Str) : Str := ((s.dropWhile isSpace).reverse.dropWhile isSpace).reverse

/-- The lines cargo acts on: it splits the output at newlines, ignores lines that are not UTF-8, trims
each line, and looks for the `cargo:` prefix. (Cargo's behaviour, not part of this repository.) -/
def CargoActsOn (out i : Str) : Prop :=
  ∃ line ∈ splitChar '\n' out, trim line = i ∧ str! "cargo:" <+: i

/-- The English claim C54: every instruction cargo acts on that is neither harmless nor allowed is
reported. -/
def C54_Claim : Prop :=
  ∀ (cfg : Raw) (idx : List IdxPkg) (crate : CrateSel) (out i : Str), cfg.packages.keys.Nodup →
    (∃ p ∈ idx, p.name = crate.pkgId.name ∧ p.hasBuildScript = true) →
    CargoActsOn out i → Bad cfg crate.pkgId.name i →
    (build (withInheritance cfg idx) crate (some out)).problems ≠ []

/-- **C54, disagreement.** An instruction with a space before it is acted on by cargo but not seen by the
checker. -/
theorem C54_indented_not_reported : ¬ C54_Claim := by
  intro h
  refine h {} [⟨str! "a", true, false⟩] ⟨⟨str! "a", str! "1", true⟩, .buildScript⟩
    (str! " cargo:rustc-link-arg=x") (str! "cargo:rustc-link-arg=x") (by simp [AMap.keys])
    ⟨_, List.mem_cons_self .., rfl, rfl⟩ ⟨_, List.mem_cons_self .., by decide, ⟨_, rfl⟩⟩ ?_ (by decide +kernel)
  refine ⟨⟨_, rfl⟩, ?_, ?_⟩
  · unfold Harmless
    decide
  · rintro p ⟨s, hs, q, hq, _⟩
    simp only [List.mem_cons, List.not_mem_nil, or_false] at hs
    rcases hs with rfl | rfl | rfl <;> simp [listed] at hq

theorem mem_linesOf {l : Str} (hne : l ≠ []) (hcr : l.getLast? ≠ some '\r') :
    ∀ {ls : List Str}, l ∈ ls → l ∈ linesOf ls
  | [], h => by simp at h
  | [a], h => by
    simp only [List.mem_singleton] at h
    subst h
    simp [linesOf, hne]
  | a :: b :: ls, h => by
    simp only [linesOf]
    rcases List.mem_cons.mp h with rfl | h
    · simp [stripCr, hcr]
    · exact List.mem_cons_of_mem _ (mem_linesOf hne hcr h)

/-- **C54 (partial).** Every instruction cargo acts on that is neither harmless nor allowed is reported,
provided that no line of the output begins or ends with white space. Missing: indented instructions, see
`C54_indented_not_reported`. -/
theorem C54_reported_partial (cfg : Raw) (idx : List IdxPkg) (crate : CrateSel) (out i : Str)
    (hn : cfg.packages.keys.Nodup)
    (hidx : ∃ p ∈ idx, p.name = crate.pkgId.name ∧ p.hasBuildScript = true)
    (hws : ∀ line ∈ splitChar '\n' out, trim line = line)
    (hc : CargoActsOn out i) (hb : Bad cfg crate.pkgId.name i) :
    Problem.disallowedBuildInstruction crate.pkgId i ∈
      (build (withInheritance cfg idx) crate (some out)).problems := by
  classical
  obtain ⟨line, h1, h2, h3⟩ := hc
  rw [hws line h1] at h2
  subst h2
  rw [problems_eq cfg hn idx crate hidx out]
  refine List.mem_map.mpr ⟨line, ?_, rfl⟩
  refine List.mem_filter.mpr ⟨mem_linesOf ?_ ?_ h1, by simpa using hb⟩
  · rintro rfl
    simp at h3
  · intro hl
    have := hws line h1
    have e := eq_append_of_getLast? hl
    obtain ⟨r, hr⟩ := h3
    subst hr
    have hd : List.dropWhile isSpace (str! "cargo:" ++ r) = str! "cargo:" ++ r := by
      simp [isSpace]
    unfold trim at this
    rw [hd] at this
    clear hd h1 hb hws
    generalize str! "cargo:" ++ r = L at this e
    have hlen := congrArg List.length this
    rw [e] at hlen
    have hsp : isSpace '\r' = true := by decide
    simp only [List.reverse_append, List.reverse_cons, List.reverse_nil, List.nil_append,
      List.cons_append, List.dropWhile_cons, hsp, if_true, List.length_reverse, List.length_append,
      List.length_singleton] at hlen
    have hle := List.IsSuffix.length_le (List.dropWhile_suffix isSpace (l := L.dropLast.reverse))
    simp only [List.length_reverse] at hle
    omega

example : CargoActsOn (str! "cargo:rustc-link-arg=x") (str! "cargo:rustc-link-arg=x") :=
  ⟨_, List.mem_cons_self .., by decide, ⟨_, rfl⟩⟩

end Cackle.BuildScript
