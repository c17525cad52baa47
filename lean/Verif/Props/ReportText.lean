import Verif.Props.Report
import Verif.Props.BuildScript
import Verif.Props.Messages
import Verif.Props.FixEffects

/-!
# C146: the text of a problem tells what the problem is
-/

namespace Cackle.Report
open Cackle Config Perm
open Cackle.ApiMap (Api)

/-! ## Specification -/

/-- A package as people refer to it: its name, and its version if there are several packages of this name. -/
def known (p : PkgId) : Str × Option Str := (p.name, if p.nameIsUnique then none else some p.version)

/-- What a problem is about. -/
inductive About where
  | message (text : Str)
  | noConfig (path : Str)
  | buildScript (pkg : Str × Option Str)
  | unsafe_ (pkg : Str × Option Str) (kind : CrateKind)
  | extern_ (pkg : Str × Option Str) (kind : CrateKind)
  | procMacro (pkg : Str × Option Str)
  | api (pkg : Str × Option Str) (api : Api) (scope : Scope)
  | offTree (pkg : Str × Option Str) (api : Api) (scope : Scope) (provider : Str × Option Str)
  | failed (pkg : Str × Option Str) (kind : CrateKind)
  | instruction (pkg : Str × Option Str) (text : Str)
  | noPackage (pkg : Str) (scope : Scope)
  | unused (pkg : Str) (scope : Scope)
  | sandbox
  | importStd (api : Api)
  | exports (pkg : Str × Option Str) (api : Api)
  | mayProvide (pkg : Str × Option Str) (api : Api)
  | noSandbox (pkg : Str) (scope : Scope)
  | newVersion (version : Int)

def about : Problem → About
  | .message t => .message t
  | .missingConfiguration p => .noConfig p
  | .usesBuildScript p => .buildScript (known p)
  | .disallowedUnsafe c _ => .unsafe_ (known c.pkgId) c.kind
  | .disallowedExtern c _ => .extern_ (known c.pkgId) c.kind
  | .isProcMacro p => .procMacro (known p)
  | .disallowedApiUsage u => .api (known u.pkg) u.api u.scope
  | .offTreeApiUsage u r => .offTree (known u.pkg) u.api u.scope (known r)
  | .executionFailed c _ => .failed (known c.pkgId) c.kind
  | .disallowedBuildInstruction p i => .instruction (known p) i
  | .unusedPackageConfig s => .noPackage s.pkg s.scope
  | .unusedAllowApi s _ => .unused s.pkg s.scope
  | .selectSandbox => .sandbox
  | .importStdApi a => .importStd a
  | .availableApi p a _ => .exports (known p) a
  | .possibleExportedApi p a _ => .mayProvide (known p) a
  | .unusedSandboxConfiguration s => .noSandbox s.pkg s.scope
  | .newConfigVersionAvailable v => .newVersion v

/-- What is not told: the scope of a use of an API of a package that is no dependency. -/
def About.told : About → About
  | .offTree p a _ r => .offTree p a .all r
  | x => x

/-- Names of packages as cargo allows them. -/
def PkgName (s : Str) : Prop := '`' ∉ s ∧ '[' ∉ s ∧ '.' ∉ s ∧ '\'' ∉ s

def PkgOk (p : PkgId) : Prop := PkgName p.name ∧ '`' ∉ p.version ∧ '\'' ∉ p.version

/-- Names in a problem are the names of packages and APIs. The text of an instruction and the path of the config file may
be anything. Messages are excluded. -/
def Sound : Problem → Prop
  | .message _ => False
  | .missingConfiguration _ => True
  | .usesBuildScript p => PkgOk p
  | .disallowedUnsafe c _ => PkgOk c.pkgId
  | .disallowedExtern c _ => PkgOk c.pkgId
  | .isProcMacro p => PkgOk p
  | .disallowedApiUsage u => PkgOk u.pkg ∧ '`' ∉ u.api
  | .offTreeApiUsage u r => PkgOk u.pkg ∧ '`' ∉ u.api ∧ PkgOk r
  | .executionFailed c _ => PkgOk c.pkgId
  | .disallowedBuildInstruction p _ => PkgOk p
  | .unusedPackageConfig s => PkgName s.pkg
  | .unusedAllowApi s _ => PkgName s.pkg
  | .selectSandbox => True
  | .importStdApi a => '`' ∉ a
  | .availableApi p a _ => PkgOk p ∧ '`' ∉ a
  | .possibleExportedApi p a _ => PkgOk p ∧ '`' ∉ a
  | .unusedSandboxConfiguration s => PkgName s.pkg
  | .newConfigVersionAvailable _ => True

/-- The claim: problems with the same text are about the same. -/
def C146_Claim : Prop := ∀ p q : Problem, Sound p → Sound q → shortText p = shortText q → about p = about q

/-! ## Lemmas -/

theorem crateText_inj {c d : CrateSel} (hc : PkgOk c.pkgId) (hd : PkgOk d.pkgId) (h : crateText c = crateText d) :
    known c.pkgId = known d.pkgId ∧ c.kind = d.kind := by
  obtain ⟨⟨p, pv, pu⟩, pk⟩ := c
  obtain ⟨⟨q, qv, qu⟩, qk⟩ := d
  obtain ⟨⟨_, p1, p2, _⟩, _, _⟩ := hc
  obtain ⟨⟨_, q1, q2, _⟩, _, _⟩ := hd
  have key : ∀ {a b x y : Str} {k l : CrateKind}, '[' ∉ a → '.' ∉ a → '[' ∉ b → '.' ∉ b →
      (x = [] ∨ ∃ v, x = '[' :: v) → (y = [] ∨ ∃ v, y = '[' :: v) → a ++ kindText k ++ x = b ++ kindText l ++ y →
      a = b ∧ k = l ∧ x = y := by
    intro a
    induction a with
    | nil =>
      intro b x y k l _ _ b1 b2 hx hy h
      cases b with
      | nil =>
        refine ⟨rfl, ?_⟩
        simp only [List.nil_append] at h
        rcases hx with rfl | ⟨v, rfl⟩ <;> rcases hy with rfl | ⟨w, rfl⟩ <;> cases k <;> cases l <;>
          simp only [kindText, List.append_nil, List.nil_append, List.cons_append, List.cons.injEq, reduceCtorEq, false_and,
            Char.reduceEq, true_and] at h
        all_goals first
          | exact ⟨rfl, rfl⟩
          | (subst h; exact ⟨rfl, rfl⟩)
      | cons c b =>
        simp only [List.mem_cons, not_or] at b1 b2
        rcases hx with rfl | ⟨v, rfl⟩ <;> cases k <;> simp [kindText] at h
        all_goals first
          | exact absurd h.1 b2.1
          | exact absurd h.1 b1.1
    | cons c a ih =>
      intro b x y k l a1 a2 b1 b2 hx hy h
      simp only [List.mem_cons, not_or] at a1 a2
      cases b with
      | nil =>
        rcases hy with rfl | ⟨v, rfl⟩ <;> cases l <;> simp [kindText] at h
        all_goals first
          | exact absurd h.1.symm a2.1
          | exact absurd h.1.symm a1.1
      | cons d b =>
        simp only [List.mem_cons, not_or] at b1 b2
        simp only [List.cons_append, List.cons.injEq] at h
        obtain ⟨h1, h2, h3⟩ := ih a1.2 a2.2 b1.2 b2.2 hx hy h.2
        exact ⟨by rw [h.1, h1], h2, h3⟩
  have hx : ∀ (u : Bool) (v : Str), (if u then ([] : Str) else '[' :: v ++ str! "]") = [] ∨
      ∃ w, (if u then ([] : Str) else '[' :: v ++ str! "]") = '[' :: w := by
    intro u v
    cases u
    · exact .inr ⟨_, rfl⟩
    · exact .inl rfl
  obtain ⟨h1, h2, h3⟩ := key p1 p2 q1 q2 (hx pu pv) (hx qu qv) h
  subst h1
  refine ⟨?_, h2⟩
  unfold known
  cases pu <;> cases qu <;> dsimp only at h3 ⊢
  · simp only [Bool.false_eq_true, if_false, List.cons_append, List.cons.injEq, true_and] at h3
    rw [List.append_cancel_right h3]
  · simp at h3
  · simp at h3
  · rfl

theorem pkgText_known {p q : PkgId} (hp : PkgOk p) (hq : PkgOk q) (h : pkgText p = pkgText q) : known p = known q :=
  (crateText_inj (c := ⟨p, .primary⟩) (d := ⟨q, .primary⟩) hp hq h).1

theorem selText_inj {s t : PermSel} (hs : PkgName s.pkg) (ht : PkgName t.pkg) (h : selText s = selText t) :
    s.pkg = t.pkg ∧ s.scope = t.scope := by
  obtain ⟨p, a⟩ := s
  obtain ⟨q, b⟩ := t
  obtain ⟨_, _, p2, _⟩ := hs
  obtain ⟨_, _, q2, _⟩ := ht
  dsimp only at p2 q2 ⊢
  cases a <;> cases b <;> simp only [selText, selector] at h
  all_goals first
    | exact ⟨h, rfl⟩
    | exact ⟨(split_at p2 q2 h).1, rfl⟩
    | exact absurd (split_at p2 q2 h).2 (by decide)
    | (exfalso
       first
        | (rw [h] at p2; exact p2 (List.mem_append_right _ (.head _)))
        | (rw [← h] at q2; exact q2 (List.mem_append_right _ (.head _))))

theorem crateText_quote {c : CrateSel} (h : PkgOk c.pkgId) : '`' ∉ crateText c := by
  have h1 := h.1.1
  have h2 := h.2.1
  unfold crateText kindText
  cases c.kind <;> dsimp only <;> split <;> simp [h1, h2]

theorem pkgText_quote {p : PkgId} (h : PkgOk p) : '`' ∉ pkgText p := crateText_quote (c := ⟨p, .primary⟩) h

theorem selText_quote {s : PermSel} (h : PkgName s.pkg) : '`' ∉ selText s := by
  have h1 := h.1
  obtain ⟨p, a⟩ := s
  dsimp only at h1
  cases a <;> simp [selText, selector, h1]

theorem pkgText_apostrophe {p : PkgId} (h : PkgOk p) : '\'' ∉ pkgText p := by
  have h1 := h.1.2.2.2
  have h2 := h.2.2
  unfold pkgText crateText kindText
  split <;> simp [h1, h2]

theorem showInt_inj {a b : Int} {r s : Str} (hr : ∀ c t, r = c :: t → Json.isDigit c = false)
    (hs : ∀ c t, s = c :: t → Json.isDigit c = false) (h : Json.showInt a ++ r = Json.showInt b ++ s) : a = b := by
  have hd : ∀ (n : Nat) (t u : Str), '-' :: t ≠ Wire.decimal n ++ u := by
    intro n t u e
    cases hn : Wire.decimal n with
    | nil => exact Json.decimal_ne_nil n hn
    | cons c l =>
      rw [hn] at e
      have := Json.decimal_digits n c (by rw [hn]; exact .head _)
      cases e
      revert this
      decide
  unfold Json.showInt at h
  split at h <;> split at h
  · simp only [List.cons_append, List.cons.injEq, true_and] at h
    have := (Cackle.Fixes.decimal_split hr hs h).1
    omega
  · exact absurd h (hd _ _ _)
  · exact absurd h.symm (hd _ _ _)
  · have := (Cackle.Fixes.decimal_split hr hs h).1
    omega

/-- The parts of the text between backquotes. -/
def parts (s : Str) : List Str := splitChar '`' s

theorem parts_cons {l s : Str} (h : '`' ∉ l) : parts (l ++ '`' :: s) = l :: parts s := BuildScript.splitChar_line h

theorem parts_last {l : Str} (h : '`' ∉ l) : parts l = [l] := BuildScript.splitChar_last h

theorem parts_quote {l n s : Str} (h : '`' ∉ l) (hn : '`' ∉ n) : parts (l ++ (quote n ++ s)) = l :: n :: parts s := by
  have : l ++ (quote n ++ s) = l ++ '`' :: (n ++ '`' :: s) := by simp [quote]
  rw [this, parts_cons h, parts_cons hn]

theorem parts_quote0 {n s : Str} (hn : '`' ∉ n) : parts (quote n ++ s) = [] :: n :: parts s :=
  parts_quote (l := []) (by decide) hn

theorem scopeText_quote (s : Scope) : '`' ∉ str! " API" ++ scopeText s := by
  cases s <;> decide

/-- The number of a kind of problem, read from its text. -/
def kindNo : Problem → Nat
  | .message _ => 0
  | .missingConfiguration _ => 1
  | .usesBuildScript _ => 2
  | .disallowedUnsafe _ _ => 3
  | .disallowedExtern _ _ => 4
  | .isProcMacro _ => 5
  | .disallowedApiUsage _ => 6
  | .offTreeApiUsage _ _ => 7
  | .executionFailed _ _ => 8
  | .disallowedBuildInstruction _ _ => 9
  | .unusedPackageConfig _ => 10
  | .unusedAllowApi _ _ => 11
  | .selectSandbox => 12
  | .importStdApi _ => 13
  | .availableApi _ _ _ => 14
  | .possibleExportedApi _ _ _ => 15
  | .unusedSandboxConfiguration _ => 16
  | .newConfigVersionAvailable _ => 17

def readKind (t : Str) : Nat :=
  match parts t with
  | [] => 0
  | [a] => if a = str! "Select sandbox kind" then 12 else 17
  | a :: _ :: r =>
    if '\'' ∈ a then 9
    else if a = str! "Config file " then 1
    else if a = str! "Config supplied for package " then 10
    else if a = str! "Optionally import std API " then 13
    else if a = str! "Package " then (if r.head? = some (str! " exports API ") then 14 else 15)
    else if a = str! "Having a sandbox configuration for " then 16
    else if a ≠ [] then 8
    else if r.head? = some (str! " has a build script") then 2
    else if r.head? = some (str! " uses unsafe") then 3
    else if r.head? = some (str! " uses extern") then 4
    else if r.head? = some (str! " is a proc macro") then 5
    else if r.head? = some (str! " uses the ") then 6
    else if r.head? = some (str! " uses ") then 7
    else 11

theorem parts_shortText {p : Problem} (h : Sound p) : parts (shortText p) =
    match p with
    | .message t => parts t
    | .missingConfiguration p => str! "Config file " :: parts (p ++ str! "` not found")
    | .usesBuildScript p => [[], pkgText p, str! " has a build script"]
    | .disallowedUnsafe c _ => [[], crateText c, str! " uses unsafe"]
    | .disallowedExtern c _ => [[], crateText c, str! " uses extern"]
    | .isProcMacro p => [[], pkgText p, str! " is a proc macro"]
    | .disallowedApiUsage u => [[], pkgText u.pkg, str! " uses the ", u.api, str! " API" ++ scopeText u.scope]
    | .offTreeApiUsage u r => [[], pkgText u.pkg, str! " uses ", u.api, str! " API from non-dependency ", pkgText r, []]
    | .executionFailed c _ => [match c.kind with
        | .primary => str! "Execution of binary for package "
        | .buildScript => str! "Build script for package "
        | .test => str! "Execution of test for package ", pkgText c.pkgId, str! " failed"]
    | .disallowedBuildInstruction p i =>
      (pkgText p ++ str! "'s build script emitted disallowed instruction ") :: parts (i ++ ['`'])
    | .unusedPackageConfig s => [str! "Config supplied for package ", selText s, str! " not in dependency tree"]
    | .unusedAllowApi s _ => [[], str! "pkg." ++ selText s, str! " allows APIs that aren't used"]
    | .selectSandbox => [str! "Select sandbox kind"]
    | .importStdApi a => [str! "Optionally import std API ", a, []]
    | .availableApi p a _ => [str! "Package ", pkgText p, str! " exports API ", a, []]
    | .possibleExportedApi p a _ => [str! "Package ", pkgText p, str! " may provide API ", a, []]
    | .unusedSandboxConfiguration s => [str! "Having a sandbox configuration for ", selText s,
        str! " doesn't make sense. Perhaps you meant to configure ", selText s ++ str! ".build.sandbox", []]
    | .newConfigVersionAvailable v => [str! "Newer config version " ++ Json.showInt v ++ str! " is available"] := by
  have e0 : parts [] = [[]] := rfl
  cases p with
  | message t => exact h.elim
  | missingConfiguration p =>
    have : shortText (.missingConfiguration p) = str! "Config file " ++ '`' :: (p ++ str! "` not found") := by
      simp [shortText, quote]
    rw [this, parts_cons (by decide)]
  | usesBuildScript p =>
    dsimp only [shortText]
    rw [parts_quote0 (pkgText_quote h), parts_last (by decide)]
  | disallowedUnsafe c l =>
    dsimp only [shortText]
    rw [parts_quote0 (crateText_quote h), parts_last (by decide)]
  | disallowedExtern c l =>
    dsimp only [shortText]
    rw [parts_quote0 (crateText_quote h), parts_last (by decide)]
  | isProcMacro p =>
    dsimp only [shortText]
    rw [parts_quote0 (pkgText_quote h), parts_last (by decide)]
  | disallowedApiUsage u =>
    dsimp only [shortText]
    rw [List.append_assoc, List.append_assoc, List.append_assoc, parts_quote0 (pkgText_quote h.1),
      parts_quote (by decide) h.2, parts_last (scopeText_quote _)]
  | offTreeApiUsage u r =>
    dsimp only [shortText]
    rw [List.append_assoc, List.append_assoc, List.append_assoc, parts_quote0 (pkgText_quote h.1),
      parts_quote (by decide) h.2.1, ← List.append_nil (quote (pkgText r)), parts_quote (by decide) (pkgText_quote h.2.2), e0]
  | executionFailed c o =>
    obtain ⟨p, k⟩ := c
    cases k <;> dsimp only [shortText, failedText] <;> rw [List.append_assoc, parts_quote (by decide) (pkgText_quote h), parts_last (by decide)]
  | disallowedBuildInstruction p i =>
    have : shortText (.disallowedBuildInstruction p i) =
        (pkgText p ++ str! "'s build script emitted disallowed instruction ") ++ '`' :: (i ++ ['`']) := by
      simp [shortText, quote]
    rw [this, parts_cons (by
      rw [List.mem_append, not_or]
      exact ⟨pkgText_quote h, by decide⟩)]
  | unusedPackageConfig s =>
    dsimp only [shortText]
    rw [List.append_assoc, parts_quote (by decide) (selText_quote h), parts_last (by decide)]
  | unusedAllowApi s l =>
    dsimp only [shortText]
    rw [parts_quote0 (by
      rw [List.mem_append, not_or]
      exact ⟨by decide, selText_quote h⟩), parts_last (by decide)]
  | selectSandbox => rfl
  | importStdApi a =>
    dsimp only [shortText]
    rw [← List.append_nil (quote a), parts_quote (by decide) h, e0]
  | availableApi p a c =>
    dsimp only [shortText]
    rw [List.append_assoc, List.append_assoc, parts_quote (by decide) (pkgText_quote h.1), ← List.append_nil (quote a),
      parts_quote (by decide) h.2, e0]
  | possibleExportedApi p a c =>
    dsimp only [shortText]
    rw [List.append_assoc, List.append_assoc, parts_quote (by decide) (pkgText_quote h.1), ← List.append_nil (quote a),
      parts_quote (by decide) h.2, e0]
  | unusedSandboxConfiguration s =>
    dsimp only [shortText]
    rw [List.append_assoc, List.append_assoc, parts_quote (by decide) (selText_quote h),
      ← List.append_nil (quote (selText s ++ _)),
      parts_quote (by decide) (by
        rw [List.mem_append, not_or]
        exact ⟨selText_quote h, by decide⟩), e0]
  | newConfigVersionAvailable v =>
    dsimp only [shortText]
    rw [parts_last]
    have hd : '`' ∉ Wire.decimal v.natAbs := fun hm => absurd (Json.decimal_digits _ _ hm) (by decide)
    rw [List.mem_append, List.mem_append, not_or, not_or]
    refine ⟨⟨by decide, ?_⟩, by decide⟩
    unfold Json.showInt
    split
    · rw [List.mem_cons, not_or]
      exact ⟨by decide, hd⟩
    · exact hd

theorem parts_ne (s : Str) : ∃ a r, parts s = a :: r := by
  cases h : parts s with
  | nil => exact absurd h (BuildScript.splitChar_ne_nil _ _)
  | cons a r => exact ⟨a, r, rfl⟩

theorem readKind_shortText {p : Problem} (h : Sound p) : readKind (shortText p) = kindNo p := by
  unfold readKind
  rw [parts_shortText h]
  cases p with
  | message t => exact h.elim
  | missingConfiguration p =>
    obtain ⟨a, r, e⟩ := parts_ne (p ++ str! "` not found")
    simp only [e, kindNo]
    rfl
  | disallowedBuildInstruction p i =>
    obtain ⟨a, r, e⟩ := parts_ne (i ++ ['`'])
    simp only [e, kindNo]
    exact if_pos (List.mem_append_right _ (.head _))
  | executionFailed c o =>
    obtain ⟨p, k⟩ := c
    cases k <;> rfl
  | newConfigVersionAvailable v => rfl
  | _ => rfl

/-! ## The property -/

/-- **C146 (partial).** Problems with the same text are of the same kind and about the same package (also the same version,
if there are several), the same API, scope, instruction and so on; except for the scope of uses of an API of a package that is no
dependency, see `C146_off_tree`. -/
theorem C146_partial {p q : Problem} (hp : Sound p) (hq : Sound q) (h : shortText p = shortText q) :
    (about p).told = (about q).told := by
  have hk : kindNo p = kindNo q := by rw [← readKind_shortText hp, ← readKind_shortText hq, h]
  have hs := (parts_shortText hp).symm.trans ((congrArg parts h).trans (parts_shortText hq))
  cases p <;> cases q <;> first
    | (exfalso; simp [kindNo] at hk; done)
    | skip
  · exact hp.elim
  · rename_i a b
    have : a = b := by simpa [shortText, quote] using h
    rw [this]
  · rename_i a b
    simp only [List.cons.injEq] at hs
    simp only [about, pkgText_known hp hq hs.2.1]
  · rename_i a _ b _
    simp only [List.cons.injEq] at hs
    have := crateText_inj hp hq hs.2.1
    simp only [about, this.1, this.2]
  · rename_i a _ b _
    simp only [List.cons.injEq] at hs
    have := crateText_inj hp hq hs.2.1
    simp only [about, this.1, this.2]
  · rename_i a b
    simp only [List.cons.injEq] at hs
    simp only [about, pkgText_known hp hq hs.2.1]
  · rename_i u v
    simp only [List.cons.injEq] at hs
    have h1 := scopeText_inj (List.append_cancel_left hs.2.2.2.2.1)
    simp only [about, pkgText_known hp.1 hq.1 hs.2.1, hs.2.2.2.1, h1]
  · rename_i u r v t
    simp only [List.cons.injEq] at hs
    simp only [about, About.told, pkgText_known hp.1 hq.1 hs.2.1, hs.2.2.2.1, pkgText_known hp.2.2 hq.2.2 hs.2.2.2.2.2.1]
  · rename_i c _ d _
    simp only [List.cons.injEq] at hs
    have h1 := pkgText_known hp hq hs.2.1
    have h2 : c.kind = d.kind := by
      have := hs.1
      revert this
      cases c.kind <;> cases d.kind <;> dsimp only <;> decide
    simp only [about, h1, h2]
  · rename_i a i b j
    have ha := pkgText_apostrophe hp
    have hb := pkgText_apostrophe hq
    simp only [shortText, List.append_assoc, List.cons_append] at h
    obtain ⟨h1, h2⟩ := split_at ha hb h
    have h2 : i = j := by simpa [quote] using h2
    simp only [about, pkgText_known hp hq h1, h2]
  · rename_i s t
    simp only [List.cons.injEq] at hs
    have := selText_inj hp hq hs.2.1
    simp only [about, this.1, this.2]
  · rename_i s _ t _
    simp only [List.cons.injEq] at hs
    have := selText_inj hp hq (List.append_cancel_left hs.2.1)
    simp only [about, this.1, this.2]
  · rfl
  · simp only [List.cons.injEq] at hs
    simp only [about, hs.2.1]
  · simp only [List.cons.injEq] at hs
    simp only [about, pkgText_known hp.1 hq.1 hs.2.1, hs.2.2.2.1]
  · simp only [List.cons.injEq] at hs
    simp only [about, pkgText_known hp.1 hq.1 hs.2.1, hs.2.2.2.1]
  · simp only [List.cons.injEq] at hs
    have := selText_inj hp hq hs.2.1
    simp only [about, this.1, this.2]
  · rename_i v w
    have hd : ∀ c t, str! " is available" = c :: t → Json.isDigit c = false := by
      intro c t e
      cases e
      decide
    have : v = w := by
      dsimp only [shortText] at h
      rw [List.append_assoc, List.append_assoc] at h
      exact showInt_inj hd hd (List.append_cancel_left h)
    rw [this]

/-- What was not told: the scope of a use of an API of a package that is no dependency. -/
theorem C146_off_tree : ∃ p q : Problem, Sound p ∧ Sound q ∧ shortText p = shortText q ∧ about p ≠ about q :=
  ⟨.offTreeApiUsage inLib pkgA, .offTreeApiUsage inBuild pkgA,
    ⟨⟨⟨by decide, by decide, by decide, by decide⟩, by decide, by decide⟩, by decide,
      ⟨by decide, by decide, by decide, by decide⟩, by decide, by decide⟩,
    ⟨⟨⟨by decide, by decide, by decide, by decide⟩, by decide, by decide⟩, by decide,
      ⟨by decide, by decide, by decide, by decide⟩, by decide, by decide⟩, rfl, fun h => by cases h⟩

/-- **C146, disagreement.** -/
theorem C146_refuted : ¬ C146_Claim := fun h =>
  let ⟨p, q, hp, hq, he, hn⟩ := C146_off_tree
  hn (h p q hp hq he)

/-- The places of a report about unsafe code can be read from it. -/
theorem locText_inj {a b : SourceLoc} (h : locText a = locText b) : a = b := by
  obtain ⟨f, l, c⟩ := a
  obtain ⟨g, m, d⟩ := b
  have hd : ∀ (n : Nat) (x : Char), x ∈ Wire.decimal n → Json.isDigit x = true := fun n x hx => Json.decimal_digits n x hx
  have hns : ∀ (l : Nat) (c : Option Nat), ' ' ∉ posText ⟨[], l, c⟩ := by
    intro l c hm
    unfold posText at hm
    simp only [List.cons_append, List.mem_cons, List.mem_append, List.not_mem_nil, or_false] at hm
    rcases hm with hm | (hm | hm) | hm
    · revert hm; decide
    · exact absurd (hd _ _ hm) (by decide)
    · cases c with
      | none => cases hm
      | some c =>
        dsimp only at hm
        rcases List.mem_cons.mp hm with hm | hm
        · revert hm; decide
        · exact absurd (hd _ _ hm) (by decide)
    · revert hm; decide
  have hr := congrArg List.reverse (show f ++ ' ' :: posText ⟨[], l, c⟩ = g ++ ' ' :: posText ⟨[], m, d⟩ from h)
  simp only [List.reverse_append, List.reverse_cons, List.append_assoc, List.cons_append, List.nil_append] at hr
  obtain ⟨h1, h2⟩ := split_at (fun hm => hns l c (List.mem_reverse.mp hm)) (fun hm => hns m d (List.mem_reverse.mp hm)) hr
  have h1 := List.reverse_inj.mp h1
  have h2 := List.reverse_inj.mp h2
  subst h2
  unfold posText at h1
  simp only [List.cons_append, List.append_assoc, List.cons.injEq, true_and] at h1
  have stop : ∀ c : Option Nat, ∀ x s, (match c with
      | none => ([] : Str)
      | some c => ':' :: Wire.decimal c) ++ str! "]" = x :: s → Json.isDigit x = false := by
    intro c x s e
    cases c <;> simp only [List.nil_append, List.cons_append, List.cons.injEq] at e <;> rw [← e.1] <;> decide
  obtain ⟨h3, h4⟩ := Fixes.decimal_split (stop c) (stop d) h1
  subst h3
  have close : ∀ x s, str! "]" = x :: s → Json.isDigit x = false := by
    intro x s e
    cases e
    decide
  cases c with
  | none =>
    cases d with
    | none => rfl
    | some d => simp at h4
  | some c =>
    cases d with
    | none => simp at h4
    | some d =>
      simp only [List.cons_append, List.cons.injEq, true_and] at h4
      rw [(Fixes.decimal_split close close h4).1]

theorem unlines_inj : ∀ {a b : List Str}, (∀ l ∈ a, '\n' ∉ l) → (∀ l ∈ b, '\n' ∉ l) → unlines a = unlines b → a = b
  | [], [], _, _, _ => rfl
  | [], x :: b, _, _, h => by simp [unlines] at h
  | x :: a, [], _, _, h => by simp [unlines] at h
  | x :: a, y :: b, ha, hb, h => by
    have e : ∀ (x : Str) (a : List Str), unlines (x :: a) = x ++ '\n' :: unlines a := by
      intro x a
      simp [unlines]
    rw [e, e] at h
    obtain ⟨h1, h2⟩ := split_at (ha x (.head _)) (hb y (.head _)) h
    rw [h1, unlines_inj (fun l hl => ha l (.tail _ hl)) (fun l hl => hb l (.tail _ hl)) h2]

theorem map_inj_list {α β : Type} {f : α → β} (hf : ∀ a b, f a = f b → a = b) : ∀ {l m : List α}, l.map f = m.map f → l = m
  | [], [], _ => rfl
  | [], _ :: _, h => by simp at h
  | _ :: _, [], h => by simp at h
  | a :: l, b :: m, h => by
    simp only [List.map_cons, List.cons.injEq] at h
    rw [hf a b h.1, map_inj_list hf h.2]

theorem locText_line {l : SourceLoc} (h : '\n' ∉ l.file) : '\n' ∉ locText l := by
  have h1 : ∀ n, '\n' ∉ Wire.decimal n := decimal_plain
  unfold locText posText
  cases l.column <;> simp [h, h1]

/-- **C146: reports of unsafe code.** The report of a run without user interaction determines the crate and all places. -/
theorem C146_unsafe (env : Names) {c d : CrateSel} {ls ms : List SourceLoc} (hc : PkgOk c.pkgId) (hd : PkgOk d.pkgId)
    (hc' : '\n' ∉ crateText c) (hd' : '\n' ∉ crateText d) (hl : ∀ l ∈ ls, '\n' ∉ l.file) (hm : ∀ l ∈ ms, '\n' ∉ l.file) :
    (longText env (.disallowedUnsafe c ls) = longText env (.disallowedUnsafe d ms) →
      known c.pkgId = known d.pkgId ∧ c.kind = d.kind ∧ ls = ms) ∧
    (longText env (.disallowedExtern c ls) = longText env (.disallowedExtern d ms) →
      known c.pkgId = known d.pkgId ∧ c.kind = d.kind ∧ ls = ms) := by
  have key : ∀ w : Str, '\n' ∉ w → '`' ∉ w → quote (crateText c) ++ w ++ '\n' :: unlines (ls.map locText) =
      quote (crateText d) ++ w ++ '\n' :: unlines (ms.map locText) → known c.pkgId = known d.pkgId ∧ c.kind = d.kind ∧ ls = ms := by
    intro w hw _ h
    have hq : ∀ c : CrateSel, '\n' ∉ crateText c → '\n' ∉ quote (crateText c) ++ w := by
      intro c hc
      simp [quote, hc, hw]
    obtain ⟨h1, h2⟩ := split_at (hq c hc') (hq d hd') h
    have h1 : crateText c = crateText d := by simpa [quote] using h1
    have h1 := crateText_inj hc hd h1
    have hline : ∀ {ls : List SourceLoc}, (∀ l ∈ ls, '\n' ∉ l.file) → ∀ x ∈ ls.map locText, '\n' ∉ x := by
      intro ls h x hx
      obtain ⟨l, hl, rfl⟩ := List.mem_map.mp hx
      exact locText_line (h l hl)
    have h2 := unlines_inj (hline hl) (hline hm) h2
    exact ⟨h1.1, h1.2, map_inj_list (fun a b => locText_inj) h2⟩
  exact ⟨key (str! " uses unsafe") (by decide) (by decide), key (str! " uses extern") (by decide) (by decide)⟩

/-- **C146: reports of unused permissions.** The report of a run without user interaction determines the table of the config file
and all APIs that can be removed. -/
theorem C146_unused (env : Names) {s t : PermSel} {a b : List Api} (hs : PkgName s.pkg) (ht : PkgName t.pkg)
    (ha : ∀ x ∈ a, '\n' ∉ x) (hb : ∀ x ∈ b, '\n' ∉ x) (h : longText env (.unusedAllowApi s a) = longText env (.unusedAllowApi t b)) :
    s.pkg = t.pkg ∧ s.scope = t.scope ∧ a = b := by
  have e : ∀ (s : PermSel) (a : List Api), longText env (.unusedAllowApi s a) =
      '`' :: ((str! "pkg." ++ selText s) ++ '`' :: (str! " allows APIs that aren't used:\n" ++
        unlines (a.map (fun a => str! "    " ++ a)))) := by
    intro s a
    simp [longText, shortText, quote]
  have hq : ∀ {s : PermSel}, PkgName s.pkg → '`' ∉ str! "pkg." ++ selText s := by
    intro s h
    rw [List.mem_append, not_or]
    exact ⟨by decide, selText_quote h⟩
  have hline : ∀ {l : List Api}, (∀ x ∈ l, '\n' ∉ x) → ∀ x ∈ l.map (fun a => str! "    " ++ a), '\n' ∉ x := by
    intro l h x hx
    obtain ⟨y, hy, rfl⟩ := List.mem_map.mp hx
    rw [List.mem_append, not_or]
    exact ⟨by decide, h y hy⟩
  rw [e, e, List.cons.injEq] at h
  obtain ⟨h1, h2⟩ := split_at (hq hs) (hq ht) h.2
  have h1 := selText_inj hs ht (List.append_cancel_left h1)
  have h2 := unlines_inj (hline ha) (hline hb) (List.append_cancel_left h2)
  exact ⟨h1.1, h1.2, map_inj_list (fun a b h => List.append_cancel_left h) h2⟩

/-! ## Examples -/

/-- An instruction that looks like another problem is not taken for it. -/
example : shortText (.disallowedBuildInstruction pkgA (str! "x` and `b` is a proc macro")) =
    str! "a's build script emitted disallowed instruction `x` and `b` is a proc macro`" ∧
    Sound (.disallowedBuildInstruction pkgA (str! "x` and `b` is a proc macro")) :=
  ⟨rfl, ⟨by decide, by decide, by decide, by decide⟩, by decide, by decide⟩

example : shortText (.disallowedUnsafe ⟨⟨str! "a", str! "1.0.0", false⟩, .buildScript⟩ []) = str! "`a.build[1.0.0]` uses unsafe" ∧
    shortText (.unusedAllowApi ⟨str! "a", .fromBuild⟩ []) = str! "`pkg.a.from.build` allows APIs that aren't used" :=
  ⟨by decide +kernel, by decide +kernel⟩

example : longText plainEnv (.disallowedUnsafe ⟨pkgA, .primary⟩ [⟨str! "src/lib.rs", 12, some 3⟩, ⟨str! "a b.rs", 1, none⟩]) =
    str! "`a` uses unsafe\nsrc/lib.rs [12:3]\na b.rs [1]\n" := by decide +kernel

end Cackle.Report
