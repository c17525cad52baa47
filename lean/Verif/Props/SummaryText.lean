import Verif.Props.Summary
import Verif.Props.Wire

/-!
# C81: the text of the summary

What is printed can be read back: the counts are numbers after their labels, and the lines for the
packages determine the packages and their permissions.
-/

namespace Cackle.Summary
open Cackle Perm Config

/-! ## Specification -/

/-- The number written by some digits. -/
def numeral (s : Str) : Nat := s.foldl (fun n c => 10 * n + (c.toNat - 48)) 0

/-- A proc macro with a permission that is neither about proc macros nor about the build script. -/
def Mixed (e : Entry) : Prop :=
  (∃ p ∈ e.permissions, str! "proc_macro" <+: p) ∧
    ∃ p ∈ e.permissions, ¬ str! "proc_macro" <+: p ∧ ¬ str! "[build]" <:+ p

/-- The name of a package has no colon; the name of a permission has no comma and is not empty. -/
def PlainEntry (e : Entry) : Prop := ':' ∉ e.name ∧ ∀ p ∈ e.permissions, p ≠ [] ∧ ',' ∉ p

/-! ## Lemmas -/

theorem impure_mixed (e : Entry) : e.impure = true ↔ Mixed e := by
  unfold Entry.impure Mixed
  simp only [Bool.and_eq_true, List.any_eq_true, Bool.not_eq_true', ← Bool.not_eq_true, startsWith_iff, endsWith_iff]
  rfl

instance (e : Entry) : Decidable (Mixed e) := decidable_of_iff _ (impure_mixed e)

theorem numeral_showNat (n : Nat) : numeral (showNat n) = n := by
  have := Nat.ofDigitChars_ten_toDigits (n := n)
  rw [Nat.ofDigitChars_eq_foldl] at this
  exact this

theorem split_at {x : Char} : ∀ {a b r s : Str}, x ∉ a → x ∉ b → a ++ x :: r = b ++ x :: s → a = b ∧ r = s
  | [], [], _, _, _, _, h => by simpa using h
  | [], c :: b, _, _, _, hb, h => by
    simp only [List.nil_append, List.cons_append, List.cons.injEq] at h
    exact absurd (h.1 ▸ List.mem_cons_self) hb
  | c :: a, [], _, _, ha, _, h => by
    simp only [List.nil_append, List.cons_append, List.cons.injEq] at h
    exact absurd (h.1 ▸ List.mem_cons_self) ha
  | c :: a, d :: b, r, s, ha, hb, h => by
    simp only [List.cons_append, List.cons.injEq] at h
    have := split_at (a := a) (b := b) (fun m => ha (.tail _ m)) (fun m => hb (.tail _ m)) h.2
    exact ⟨by rw [h.1, this.1], this.2⟩

theorem join_inj : ∀ {a b : List Str}, (∀ p ∈ a, p ≠ [] ∧ ',' ∉ p) → (∀ p ∈ b, p ≠ [] ∧ ',' ∉ p) →
    joinWith (str! ", ") a = joinWith (str! ", ") b → a = b
  | [], [], _, _, _ => rfl
  | [], [q], _, hb, h => absurd h.symm (hb q (.head _)).1
  | [], q :: r :: l, _, _, h => by
    exfalso
    simp [joinWith] at h
  | [p], [], ha, _, h => absurd h (ha p (.head _)).1
  | p :: q :: l, [], _, _, h => by
    exfalso
    simp [joinWith] at h
  | [p], [q], _, _, h => by
    have h' : p = q := h
    rw [h']
  | [p], q :: r :: l, ha, _, h => by
    exfalso
    have h' : p = q ++ ',' :: (' ' :: joinWith (str! ", ") (r :: l)) := by simpa [joinWith] using h
    exact (ha p (.head _)).2 (by rw [h']; simp)
  | p :: q :: l, [r], _, hb, h => by
    exfalso
    have h' : p ++ ',' :: (' ' :: joinWith (str! ", ") (q :: l)) = r := by simpa [joinWith] using h
    exact (hb r (.head _)).2 (by rw [← h']; simp)
  | p :: q :: l, r :: s :: m, ha, hb, h => by
    have h' : p ++ ',' :: (' ' :: joinWith (str! ", ") (q :: l)) =
        r ++ ',' :: (' ' :: joinWith (str! ", ") (s :: m)) := by simpa [joinWith] using h
    have := split_at (ha p (.head _)).2 (hb r (.head _)).2 h'
    rw [this.1, join_inj (a := q :: l) (b := s :: m) (fun x hx => ha x (.tail _ hx))
      (fun x hx => hb x (.tail _ hx)) (List.cons.inj this.2).2]

theorem line_inj {e f : Entry} (he : PlainEntry e) (hf : PlainEntry f)
    (h : line e.name e.permissions = line f.name f.permissions) : e = f := by
  unfold line at h
  have h' : e.name ++ ':' :: (' ' :: joinWith (str! ", ") e.permissions) =
      f.name ++ ':' :: (' ' :: joinWith (str! ", ") f.permissions) := by simpa using h
  have := split_at he.1 hf.1 h'
  have hp := join_inj he.2 hf.2 (List.cons.inj this.2).2
  obtain ⟨n, ps⟩ := e
  obtain ⟨m, qs⟩ := f
  simp only at this hp
  rw [this.1, hp]

theorem lines_inj : ∀ {s t : List Entry}, (∀ e ∈ s, PlainEntry e) → (∀ e ∈ t, PlainEntry e) →
    s.map (fun e => line e.name e.permissions) = t.map (fun e => line e.name e.permissions) → s = t
  | [], [], _, _, _ => rfl
  | [], _ :: _, _, _, h => by cases h
  | _ :: _, [], _, _, h => by cases h
  | e :: s, f :: t, hs, ht, h => by
    simp only [List.map_cons, List.cons.injEq] at h
    rw [line_inj (hs e (.head _)) (ht f (.head _)) h.1,
      lines_inj (fun x hx => hs x (.tail _ hx)) (fun x hx => ht x (.tail _ hx)) h.2]

/-! ## Theorems -/

/-- **C81, the counts.** What `--counts` prints are three labelled numbers and an empty line. -/
theorem C81_counts (s : List Entry) : ∃ a b c : Str,
    print s { counts := true } = .lines [str! "num_packages: " ++ a, str! "no_special_permissions: " ++ b,
      str! "proc_macros_with_other_permissions: " ++ c, []] ∧
    numeral a = s.length ∧ numeral b = (s.filter (fun e => decide (e.permissions = []))).length ∧
    numeral c = (s.filter (fun e => decide (Mixed e))).length := by
  refine ⟨showNat s.length, showNat _, showNat _, ?_, numeral_showNat _, numeral_showNat _, numeral_showNat _⟩
  have h1 : s.filter (fun e => decide (e.permissions = [])) = s.filter (fun e => e.permissions.isEmpty) := by
    congr 1
    funext e
    cases e.permissions <;> rfl
  have h2 : s.filter (fun e => decide (Mixed e)) = s.filter Entry.impure := by
    congr 1
    funext e
    rw [Bool.eq_iff_iff, decide_eq_true_eq, impure_mixed]
  rw [h1, h2]
  rfl

example : numeral (str! "120") = 120 ∧
    print [⟨str! "a", [str! "proc_macro", str! "fs"]⟩, ⟨str! "b", []⟩] { counts := true } =
    .lines [str! "num_packages: 2", str! "no_special_permissions: 1",
      str! "proc_macros_with_other_permissions: 1", []] := ⟨by decide, rfl⟩

/-- **C81, by package.** From what `--by-package` prints, the packages and their permissions can be read. -/
theorem C81_by_package (s t : List Entry) (hs : ∀ e ∈ s, PlainEntry e) (ht : ∀ e ∈ t, PlainEntry e)
    (h : print s { byPackage := true } = print t { byPackage := true }) : s = t := by
  have h' : Out.lines (byPackageLines s ++ []) = Out.lines (byPackageLines t ++ []) := h
  simp only [Out.lines.injEq, List.append_nil] at h'
  exact lines_inj hs ht h'

example : ∀ e ∈ [(⟨str! "a", [str! "proc_macro", str! "fs"]⟩ : Entry), ⟨str! "b", []⟩], PlainEntry e := by
  intro e he
  simp only [List.mem_cons, List.not_mem_nil, or_false] at he
  rcases he with rfl | rfl
  · exact ⟨by decide, by decide⟩
  · exact ⟨by decide, by decide⟩

/-- **C81, proc macros with other permissions.** What `--impure-proc-macros` prints is what
`--by-package` prints for the proc macros that have other permissions. -/
theorem C81_impure (s : List Entry) :
    print s { impureProcMacros := true } = print (s.filter (fun e => decide (Mixed e))) { byPackage := true } := by
  have h2 : s.filter (fun e => decide (Mixed e)) = s.filter Entry.impure := by
    congr 1
    funext e
    rw [Bool.eq_iff_iff, decide_eq_true_eq, impure_mixed]
  rw [h2]
  show Out.lines ([] ++ ([] ++ (impureLines s ++ []))) = Out.lines (byPackageLines (s.filter Entry.impure) ++ [])
  simp [impureLines, byPackageLines]

example : print [⟨str! "a", [str! "proc_macro", str! "fs"]⟩, ⟨str! "b", [str! "fs"]⟩] { impureProcMacros := true } =
    .lines [str! "a: proc_macro, fs"] := rfl

/-- **C81, the format.** JSON is printed exactly if it is asked for, and it has the names by which the
parts are found. -/
theorem C81_format (m : PermMap) (ids : List PkgId) (o : Options) :
    (o.format = .human → ∃ ls, print (summarize m ids) o = .lines ls) ∧
    (o.format = .json → ∃ j, print (summarize m ids) o = .json j ∧
      (Asked o .byPackage → ∃ p, j.get? (str! "permissions_by_package") = some p ∧ Holds (summarize m ids) .byPackage p) ∧
      (Asked o .impure → ∃ p, j.get? (str! "impure_proc_macros") = some p ∧
        ∀ n ps, p.get? n = some ps ↔ ∃ e ∈ summarize m ids, Mixed e ∧ e.name = n ∧ e.permissions = ps)) := by
  have h1 := withDefaults_flag o
  have e1 := h1 .byPackage
  have e2 := h1 .byPermission
  have e3 := h1 .impure
  have e4 := h1 .counts
  simp only [Options.flag] at e1 e2 e3 e4
  have hag := summarize_agreeing m ids
  generalize summarize m ids = s at hag
  constructor
  · intro h
    exact ⟨printHuman s o, by unfold print; rw [h]⟩
  · intro h
    refine ⟨printJson s o, by unfold print; rw [h], ?_, ?_⟩
    · intro hk
      refine ⟨permissionMap s, ?_, permissionMap_holds s hag⟩
      have n1 : keyImpure ≠ str! "permissions_by_package" := by decide
      have n2 : keyCount ≠ str! "permissions_by_package" := by decide
      have n3 : keyByPackage = str! "permissions_by_package" := rfl
      unfold printJson
      simp only [e1, e2, e3, e4, decide_eq_true_eq]
      rw [if_pos hk]
      by_cases a2 : Asked o .byPermission <;> by_cases a3 : Asked o .impure <;>
        by_cases a4 : Asked o .counts <;>
        simp [a2, a3, a4, jsonByPackage, jsonByPermission, jsonImpure, jsonCount, AMap.get?_insert, n1, n2, n3]
    · intro hk
      refine ⟨impureMap s, ?_, ?_⟩
      · have n1 : keyImpure = str! "impure_proc_macros" := rfl
        have n2 : keyCount ≠ str! "impure_proc_macros" := by decide
        unfold printJson
        simp only [e1, e2, e3, e4, decide_eq_true_eq]
        rw [if_pos hk]
        by_cases a4 : Asked o .counts <;> simp [a4, jsonImpure, jsonCount, AMap.get?_insert, n1, n2]
      · intro n ps
        rw [impureMap_holds s hag n ps]
        constructor
        · rintro ⟨e, he, hi, h2⟩
          exact ⟨e, he, (impure_mixed e).mp hi, h2⟩
        · rintro ⟨e, he, hi, h2⟩
          exact ⟨e, he, (impure_mixed e).mpr hi, h2⟩

example : Asked { format := .json } .impure ∧ Asked { format := .json } .byPackage := by decide

end Cackle.Summary
