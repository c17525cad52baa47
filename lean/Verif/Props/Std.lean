import Verif.Model.Std
import Verif.Props.Dwarf
import Verif.Props.Attribution

/-!
# C134: only the Rust distribution is exempt from the analysis
-/

namespace Cackle.Std
open Cackle Graph Dwarf

/-! ## What users expect -/

/-- `rustc --print sysroot` as the real one behaves: with success it prints a directory, otherwise nothing. -/
def Honest (o : Output) (sysroot : Str) : Prop :=
  (o.status = some 0 ∧ o.stdout = sysroot ++ ['\n']) ∨ (o.status ≠ some 0 ∧ o.stdout = [])

/-- A directory of this machine that does not belong to the Rust distribution. -/
def Own (sysroot dir : Str) : Prop := dir.head? = some '/' ∧ ¬ pathOf sysroot <+: pathOf dir

/-- Code that is compiled in a directory that does not belong to the distribution is analysed: cackle learns from its debug
information what it would learn without any exemption (or it reports an error). -/
def C134_Claim : Prop :=
  ∀ (o : Output) (sysroot : Str) (units : List DUnit), Honest o sysroot → sysroot.head? = some '/' →
    (∀ u ∈ units, Own sysroot u.compDir) → scan o units = Dwarf.scan units (fun _ => false)

/-! ## What holds -/

theorem loop_congr {σ α : Type} {f g : σ → α → Res σ} : ∀ (l : List α) (s : σ), (∀ s, ∀ a ∈ l, f s a = g s a) →
    Res.loop f s l = Res.loop g s l
  | [], _, _ => rfl
  | a :: l, s, h => by
    simp only [Res.loop]
    rw [h s a (by simp)]
    cases g s a with
    | ok s' =>
      show Res.loop f s' l = Res.loop g s' l
      exact loop_congr l s' (fun s x hx => h s x (by simp [hx]))
    | _ => rfl

theorem scan_congr {units : List DUnit} {p q : Str → Bool} (h : ∀ u ∈ units, p u.compDir = q u.compDir) :
    Dwarf.scan units p = Dwarf.scan units q := by
  unfold Dwarf.scan
  refine loop_congr units ({} : Scan) ?_
  intro s u hu
  unfold scanUnit
  rw [h u hu]

/-- Blank characters at the end of what rustc prints do not matter, if the directory has none at its ends. -/
theorem trim_line {s : Str} (h1 : ∀ c, s.head? = some c → Basic.isSpace c = false)
    (h2 : ∀ c, s.getLast? = some c → Basic.isSpace c = false) : Basic.trim (s ++ ['\n']) = s := by
  unfold Basic.trim
  cases s with
  | nil => decide
  | cons c s =>
    rw [List.cons_append, List.dropWhile_cons_of_neg (by simp [h1 c rfl])]
    rw [← List.cons_append, List.reverse_append]
    show (List.dropWhile Basic.isSpace ('\n' :: (c :: s).reverse)).reverse = _
    rw [List.dropWhile_cons_of_pos (by decide)]
    cases hr : (c :: s).reverse with
    | nil => simp at hr
    | cons d r =>
      have hl : (c :: s).getLast? = some d := by rw [List.getLast?_eq_head?_reverse, hr]; rfl
      rw [List.dropWhile_cons_of_neg (by simp [h2 d hl]), ← hr, List.reverse_reverse]

/-- C134 when rustc told the sysroot and no directory is below `/rustc`, `/cargo/registry` or `/rust`. -/
theorem C134_analysed_partial (o : Output) (sysroot : Str) (units : List DUnit) (ho : Honest o sysroot)
    (hok : o.status = some 0) (habs : sysroot.head? = some '/')
    (hend : ∀ c, sysroot.getLast? = some c → Basic.isSpace c = false) (hu : ∀ u ∈ units, Own sysroot u.compDir)
    (h1 : ∀ u ∈ units, ¬ [['/'], str! "rustc"] <+: pathOf u.compDir)
    (h2 : ∀ u ∈ units, ¬ [['/'], str! "cargo", str! "registry"] <+: pathOf u.compDir)
    (h3 : ∀ u ∈ units, ¬ [['/'], str! "rust"] <+: pathOf u.compDir) :
    scan o units = Dwarf.scan units (fun _ => false) := by
  have hs : determineSysroot o = pathOf sysroot := by
    rcases ho with ⟨_, h⟩ | ⟨h, _⟩
    · unfold determineSysroot
      rw [h, trim_line (by intro c hc; rw [habs] at hc; cases hc; decide) hend]
    · exact absurd hok h
  refine scan_congr ?_
  intro u hm
  cases hb : skipUnit o u.compDir with
  | false => rfl
  | true =>
    exfalso
    unfold skipUnit at hb
    rw [hs] at hb
    rcases (Checker.isInRustStd_iff _ _).mp hb with h | h | h | h
    · exact h1 u hm h
    · exact h2 u hm h
    · exact h3 u hm h
    · exact (hu u hm).2 h

/-- A unit like that of a crate: `api` is inlined into `main`. -/
def unitIn (dir : Str) : DUnit := { (unitI [.lowPc (some 100), .callLine (some 7)]).1 with compDir := dir }

/-- The output of rustc. -/
def good : Output := ⟨some 0, str! "/usr/lib/rust" ++ ['\n']⟩

example : Honest good (str! "/usr/lib/rust") ∧ Own (str! "/usr/lib/rust") (str! "/home/me/app") := by
  refine ⟨.inl ⟨rfl, rfl⟩, rfl, ?_⟩
  rw [← List.isPrefixOf_iff_prefix]
  decide

/-- In the directory of an ordinary project, the inlined call is found. -/
example : (match scan good [unitIn (str! "/home/me/app")] with | .ok st => st.inlined.length | _ => 0) = 1 := by
  decide +kernel

/-- Whatever is in them, nothing is learnt from units that are passed over. -/
theorem C134_nothing (o : Output) (units : List DUnit) (h : ∀ u ∈ units, skipUnit o u.compDir = true) :
    scan o units = .ok {} := by
  unfold scan Dwarf.scan
  have : ∀ (l : List DUnit) (s : Scan), (∀ u ∈ l, skipUnit o u.compDir = true) →
      Res.loop (scanUnit units (skipUnit o)) s l = .ok s := by
    intro l
    induction l with
    | nil => intro s _; rfl
    | cons u l ih =>
      intro s hl
      simp only [Res.loop, scanUnit, hl u (by simp)]
      exact ih s (fun x hx => hl x (by simp [hx]))
  exact this units {} h

/-- The distribution itself is exempt, wherever rustc says that it is. -/
theorem C134_distribution (o : Output) (sysroot : Str) (units : List DUnit) (ho : Honest o sysroot)
    (hok : o.status = some 0) (habs : sysroot.head? = some '/')
    (hend : ∀ c, sysroot.getLast? = some c → Basic.isSpace c = false)
    (hu : ∀ u ∈ units, pathOf sysroot <+: pathOf u.compDir) : scan o units = .ok {} := by
  refine C134_nothing o units (fun u hm => (Checker.isInRustStd_iff _ _).mpr (.inr (.inr (.inr ?_))))
  have hs : determineSysroot o = pathOf sysroot := by
    rcases ho with ⟨_, h⟩ | ⟨h, _⟩
    · unfold determineSysroot
      rw [h, trim_line (by intro c hc; rw [habs] at hc; cases hc; decide) hend]
    · exact absurd hok h
  rw [hs]
  exact hu u hm

example : pathOf (str! "/usr/lib/rust") <+: pathOf (unitIn (str! "/usr/lib/rust/lib/src/std")).compDir := by
  rw [← List.isPrefixOf_iff_prefix]
  decide

/-- With `CARGO_HOME=/cargo`, every dependency from the registry is compiled below `/cargo/registry`, and taken for a part of
the distribution: whatever is inlined there is not found. -/
theorem C134_cargo_home (o : Output) (units : List DUnit)
    (h : ∀ u ∈ units, [['/'], str! "cargo", str! "registry"] <+: pathOf u.compDir) : scan o units = .ok {} :=
  C134_nothing o units (fun u hu => (Checker.isInRustStd_iff _ _).mpr (.inr (.inl (h u hu))))

/-- The same for a project below `/rust`. -/
theorem C134_rust_dir (o : Output) (units : List DUnit) (h : ∀ u ∈ units, [['/'], str! "rust"] <+: pathOf u.compDir) :
    scan o units = .ok {} :=
  C134_nothing o units (fun u hu => (Checker.isInRustStd_iff _ _).mpr (.inr (.inr (.inl (h u hu)))))

/-- If `rustc --print sysroot` fails, every directory counts as a part of the distribution: nothing is learnt from the debug
information of any unit, … -/
theorem C134_failed_rustc (o : Output) (sysroot : Str) (ho : Honest o sysroot) (hf : o.status ≠ some 0)
    (units : List DUnit) : scan o units = .ok {} := by
  refine C134_nothing o units (fun u _ => (Checker.isInRustStd_iff _ _).mpr (.inr (.inr (.inr ?_))))
  rcases ho with ⟨h, _⟩ | ⟨_, h⟩
  · exact absurd h hf
  · have : determineSysroot o = [] := by unfold determineSysroot; rw [h]; decide
    rw [this]
    exact List.nil_prefix

/-- … and every file that no compilation listed belongs to no package, so that its uses of APIs are not looked at. -/
theorem C134_failed_rustc_files (o : Output) (sysroot : Str) (ho : Honest o sysroot) (hf : o.status ≠ some 0)
    (c : Checker.State) (hc : c.idx.sysroot = determineSysroot o) (p : PathC) (hp : c.paths.get? p = none) :
    Checker.pkgIdsFromPath c p = some [] := by
  have : determineSysroot o = [] := by
    rcases ho with ⟨h, _⟩ | ⟨_, h⟩
    · exact absurd h hf
    · unfold determineSysroot; rw [h]; decide
  have hs : Checker.isInRustStd c.idx.sysroot p = true := by
    rw [Checker.isInRustStd_iff, hc, this]
    exact .inr (.inr (.inr List.nil_prefix))
  simp [Checker.pkgIdsFromPath, hp, hs]

example : ∃ o, Honest o (str! "/usr/lib/rust") ∧ o.status ≠ some 0 := ⟨⟨some 1, []⟩, .inr ⟨by decide, rfl⟩, by decide⟩

/-- The claim fails, even when rustc succeeds: a dependency that was downloaded to `/cargo/registry` … -/
theorem C134_refuted : ¬ C134_Claim := by
  intro h
  have h1 := h good (str! "/usr/lib/rust") [unitIn (str! "/cargo/registry/src/index/dep-1.0.0")] (.inl ⟨rfl, rfl⟩) rfl (by
    intro u hu
    rw [List.mem_singleton.mp hu]
    refine ⟨rfl, ?_⟩
    rw [← List.isPrefixOf_iff_prefix]
    decide)
  rw [C134_cargo_home good _ (by
    intro u hu
    rw [List.mem_singleton.mp hu, ← List.isPrefixOf_iff_prefix]
    decide)] at h1
  have h2 := congrArg (fun r => match r with | Res.ok st => st.inlined.length | _ => 0) h1
  revert h2
  decide +kernel

/-- … or a project in `/rust`. -/
theorem C134_refuted_project : ∃ units, (∀ u ∈ units, Own (str! "/usr/lib/rust") u.compDir) ∧
    scan good units ≠ Dwarf.scan units (fun _ => false) := by
  refine ⟨[unitIn (str! "/rust/app")], ?_, ?_⟩
  · intro u hu
    rw [List.mem_singleton.mp hu]
    refine ⟨rfl, ?_⟩
    rw [← List.isPrefixOf_iff_prefix]
    decide
  · intro h1
    have h2 := congrArg (fun r => match r with | Res.ok st => st.inlined.length | _ => 0) h1
    revert h2
    decide +kernel

end Cackle.Std
