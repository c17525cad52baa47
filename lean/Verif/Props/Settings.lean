import Verif.Model.Settings
import Verif.Model.Fixes

/-!
# C173: cargo is run with the settings that are in force
-/

namespace Cackle.Settings
open Cackle Config Perm Toml ConfigFile Editor Fixes

/-! ## Specification -/

/-- The file has been changed by nothing but offered edits. -/
inductive Edited (bwrap : Bool) : Entries → Entries → Prop
  | refl (d : Entries) : Edited bwrap d d
  | step {a b c : Entries} (h : Edited bwrap a b) (f : Fix) (hf : f.apply bwrap b = some c) : Edited bwrap a c

/-- The contents of the file one after the other. -/
def Sequence (r : Entries → Entries → Prop) : Entries → List Entries → Prop
  | _, [] => True
  | a, b :: rest => r a b ∧ Sequence r b rest

/-- What is removed and built is according to the settings in force when the build begins. -/
def AsInForce (u : Used) : Prop := u.clean = u.inForce ∧ u.cargo = u.inForce

/-- The English claim C173. -/
def C173_Claim : Prop := ∀ doc1 reloads doc2 u, run doc1 reloads doc2 = some u → AsInForce u

/-! ## Lemmas -/

/-- The settings in a table that concern cargo. -/
def opts (es : Entries) : Option Cargo.Common :=
  (optField readStrs es (str! "build_flags")).bind fun buildFlags =>
  (field readStrs [] es (str! "features")).bind fun features =>
  (optField readStr es (str! "profile")).bind fun profile =>
  some { buildFlags, features, profile }

theorem opts_insert {es : Entries} {k : Str} (it : Item) (h1 : k ≠ str! "build_flags") (h2 : k ≠ str! "features")
    (h3 : k ≠ str! "profile") : opts (es.insert k it) = opts es := by
  unfold opts optField field
  simp only [AMap.get?_insert, if_neg (Ne.symm h1), if_neg (Ne.symm h2), if_neg (Ne.symm h3), if_neg h1, if_neg h2, if_neg h3]

theorem read_other {es : Entries} {p : Str} (it : Item) (h : p ≠ str! "common") :
    readBuildOpts (es.insert p it) = readBuildOpts es := by
  unfold readBuildOpts
  simp only [AMap.get?_insert, if_neg (Ne.symm h), if_neg h]

/-- What an edit keeps. -/
def Keeps (f : Entries → Option Entries) : Prop :=
  ∀ d d' o, readBuildOpts d = some o → f d = some d' → readBuildOpts d' = some o

theorem keeps_withTable {f : Entries → Option Entries} {p : Str} {ps : List Str} (h : p ≠ str! "common") :
    Keeps (withTable f (p :: ps)) := by
  intro d d' o hr he
  unfold withTable at he
  split at he
  · obtain ⟨s, -, rfl⟩ := Option.map_eq_some_iff.mp he
    rw [read_other _ h]
    exact hr
  · cases he

theorem keeps_withOptTable {f : Entries → Option Entries} {p : Str} {ps : List Str} (h : p ≠ str! "common") :
    Keeps (withOptTable f (p :: ps)) := by
  intro d d' o hr he
  unfold withOptTable at he
  split at he
  · cases he
    exact hr
  · obtain ⟨s, -, rfl⟩ := Option.map_eq_some_iff.mp he
    rw [read_other _ h]
    exact hr
  · cases he

theorem keeps_common {f : Entries → Option Entries} (h : ∀ t t', f t = some t' → opts t' = opts t) :
    Keeps (withTable f [str! "common"]) := by
  intro d d' o hr he
  unfold withTable at he
  have hc : ∃ it, AMap.get? d (str! "common") = some it := by
    unfold readBuildOpts at hr
    cases hg : AMap.get? d (str! "common") with
    | none => rw [hg] at hr; cases hr
    | some it => exact ⟨it, rfl⟩
  obtain ⟨it, hc⟩ := hc
  unfold readBuildOpts at hr ⊢
  rw [hc] at hr he
  simp only [Option.getD_some] at he
  split at he
  · rename_i sub
    obtain ⟨s, hs, rfl⟩ := Option.map_eq_some_iff.mp he
    simp only [withTable] at hs
    simp only [AMap.get?_insert, if_true, Option.bind_some, Item.entries]
    exact (h _ _ hs).trans hr
  · cases he

theorem keeps_bind {f g : Entries → Option Entries} (hf : Keeps f) (hg : Keeps g) : Keeps (fun d => (f d).bind g) := by
  intro d d' o hr he
  obtain ⟨m, h1, h2⟩ := Option.bind_eq_some_iff.mp he
  exact hg _ _ _ (hf _ _ _ hr h1) h2

theorem keeps_foldlM {α : Type} {g : Entries → α → Option Entries} (hg : ∀ x, Keeps (fun d => g d x)) :
    ∀ (l : List α), Keeps (fun d => l.foldlM g d)
  | [] => fun d d' o hr he => by cases he; exact hr
  | x :: l => fun d d' o hr he => by
    have he : List.foldlM g d (x :: l) = some d' := he
    rw [List.foldlM_cons] at he
    obtain ⟨m, h1, h2⟩ := Option.bind_eq_some_iff.mp he
    exact keeps_foldlM hg l _ _ _ (hg x _ _ _ hr h1) h2

theorem keeps_setVersion (n : Int) : Keeps (setVersion n) := by
  refine keeps_common fun t t' h => ?_
  cases h
  exact opts_insert _ (by decide) (by decide) (by decide)

theorem keeps_toggle (api : Str) : Keeps (toggleStdImport api) := by
  refine keeps_common fun t t' h => ?_
  split at h
  · cases h
    exact opts_insert _ (by decide) (by decide) (by decide)
  · cases h

theorem keeps_pkg {f : Entries → Option Entries} (sel : PermSel) (more : List Str) : Keeps (withTable f (pkgPath sel ++ more)) :=
  keeps_withTable (p := str! "pkg") (by decide)

theorem keeps_pkg' {f : Entries → Option Entries} (sel : PermSel) : Keeps (withTable f (pkgPath sel)) :=
  keeps_withTable (p := str! "pkg") (by decide)

theorem keeps_api {f : Entries → Option Entries} (ps : List Str) : Keeps (withTable f (str! "api" :: ps)) :=
  keeps_withTable (by decide)

theorem keeps_removeApis (sel : PermSel) (apis : List Str) : Keeps (removeUnusedAllowApis sel apis) :=
  keeps_withOptTable (p := str! "pkg") (by decide)

theorem keeps_edit : ∀ e : Edit, Keeps e.apply
  | .allowApi sel api => keeps_bind (keeps_pkg' sel) (keeps_foldlM (fun d => keeps_removeApis d [api]) _)
  | .removeUnusedAllowApis sel apis => keeps_removeApis sel apis
  | .removeUnusedPkgConfig ⟨p, scope⟩ => by
    cases scope <;> exact keeps_withOptTable (p := str! "pkg") (by decide)
  | .allowProcMacro sel => keeps_pkg' sel
  | .allowUnsafe sel => keeps_pkg' sel
  | .allowExtern sel => keeps_pkg' sel
  | .allowBuildInstruction sel _ => keeps_pkg' sel
  | .disableSandbox sel => keeps_pkg sel _
  | .allowNetwork sel => keeps_pkg sel _
  | .extendApi _ _ => keeps_api _
  | .excludeFromApi _ _ => keeps_api _
  | .noDetectApi _ _ => keeps_api _
  | .importApi _ _ => keeps_pkg' _
  | .inlineApi _ _ _ => keeps_bind (keeps_api _) (keeps_pkg' _)
  | .ignoreApi _ => keeps_pkg' _

/-- **C173, edits.** No offered edit changes the flags, features or profile with which cargo is run. -/
theorem C173_edit (bwrap : Bool) (f : Fix) (d d' : Entries) (o : Cargo.Common) (hr : readBuildOpts d = some o)
    (h : f.apply bwrap d = some d') : readBuildOpts d' = some o := by
  have key : Keeps (f.apply bwrap) := by
    cases f
    case createCustom => exact keeps_setVersion _
    case createRecommended =>
      exact keeps_bind (keeps_setVersion _) (keeps_bind (keeps_toggle _) (keeps_bind (keeps_toggle _) (keeps_toggle _)))
    case selectSandbox k =>
      intro d d' o hr he
      simp only [Fix.apply, setSandboxKind] at he
      split at he
      · cases he
      · exact keeps_withTable (p := str! "sandbox") (by decide) _ _ _ hr he
    case importStd api => exact keeps_toggle _
    case inlineStd api =>
      intro d d' o hr he
      simp only [Fix.apply, inlineStdApi] at he
      obtain ⟨cfg, -, he⟩ := Option.bind_eq_some_iff.mp he
      exact keeps_api _ _ _ _ hr he
    case ignoreStd => intro d d' o hr he; cases he; exact hr
    case updateVersion n => exact keeps_setVersion _
    case updatePreserving n =>
      refine keeps_bind ?_ (keeps_setVersion _)
      intro d d' o hr he
      split at he
      · exact keeps_withTable (p := str! "rustc") (by decide) _ _ _ hr he
      · cases he; exact hr
    all_goals
      intro d d' o hr he
      simp only [Fix.apply, Fix.edit, Option.bind_some] at he
      exact keeps_edit _ d d' o hr he
  exact key d d' o hr h

theorem edited_keeps {bwrap : Bool} {a b : Entries} {o : Cargo.Common} (hr : readBuildOpts a = some o) (h : Edited bwrap a b) :
    readBuildOpts b = some o := by
  induction h with
  | refl => exact hr
  | step _ f hf ih => exact C173_edit bwrap f _ _ o ih hf

theorem reloads_keep {bwrap : Bool} {o : Cargo.Common} {last : Entries} : ∀ {reloads : List Entries} {a : Entries},
    readBuildOpts a = some o → Sequence (Edited bwrap) a (reloads ++ [last]) →
    reloads.foldlM (fun _ d => readBuildOpts d) o = some o ∧ readBuildOpts last = some o
  | [], a, hr, h => ⟨rfl, edited_keeps hr h.1⟩
  | b :: reloads, a, hr, h => by
    have hb := edited_keeps hr h.1
    rw [List.foldlM_cons, hb]
    exact reloads_keep (a := b) hb h.2

/-- **C173 (partial).** If the file is changed by offered edits only, from when it is first loaded until the build begins, then cargo is
run with the settings in force, and they are those that were loaded first. Missing: other changes, see `C173_stale`. -/
theorem C173_settings_partial (bwrap : Bool) (doc1 : Entries) (reloads : List Entries) (doc2 : Entries) (o : Cargo.Common)
    (h1 : readBuildOpts doc1 = some o) (h2 : Sequence (Edited bwrap) doc1 (reloads ++ [doc2])) :
    run doc1 reloads doc2 = some ⟨o, o, o⟩ ∧ ∀ u, run doc1 reloads doc2 = some u → AsInForce u := by
  obtain ⟨h3, h4⟩ := reloads_keep h1 h2
  have h5 : run doc1 reloads doc2 = some ⟨o, o, o⟩ := by
    unfold run
    rw [h1]
    simp only [Option.bind_some, h3, h4]
  refine ⟨h5, fun u hu => ?_⟩
  rw [h5] at hu
  cases hu
  exact ⟨rfl, rfl⟩

private def file (more : Entries) : Entries := [(str! "common", .table ((str! "version", .int 3) :: more))]

/-- **C173, disagreement.** While the user is asked about unused imports they change the features in the file; that is then in force,
but cargo is run with the features from before. -/
theorem C173_stale : ¬ C173_Claim := by
  intro h
  have := (h (file []) [] (file [(str! "features", .array [.str (str! "x")])]) ⟨{}, {}, { features := [str! "x"] }⟩ rfl).2
  exact absurd (congrArg Cargo.Common.features this) (by decide)

/-- **C173, another disagreement.** While the user is asked about the first problems they change the profile: what was built before
with the new profile has not been removed. -/
theorem C173_clean_stale : ¬ C173_Claim := by
  intro h
  have := (h (file []) [file [(str! "profile", .str (str! "x"))]] (file [(str! "profile", .str (str! "x"))])
    ⟨{}, { profile := some (str! "x") }, { profile := some (str! "x") }⟩ rfl).1
  exact absurd (congrArg Cargo.Common.profile this) (by decide)

/-! Non-vacuity: an accepted edit between two loads, in a file with features. -/
example : ∃ d, Fix.apply false (.allowUnsafe ⟨str! "p", .all⟩) (file [(str! "features", .array [.str (str! "x")])]) = some d ∧
    run (file [(str! "features", .array [.str (str! "x")])]) [] d =
      some ⟨{ features := [str! "x"] }, { features := [str! "x"] }, { features := [str! "x"] }⟩ :=
  ⟨_, rfl, (C173_settings_partial false _ [] _ _ rfl ⟨.step (.refl _) (.allowUnsafe ⟨str! "p", .all⟩) rfl, trivial⟩).1⟩

end Cackle.Settings
