import Verif.Model.Places
import Verif.Props.Help
import Verif.Props.FixEffects
import Verif.Lemmas.Link
import Verif.Props.Report

/-!
# C150, C151 and parts of C43 and C126: the rows of the list of places, the details of a package, the frames of a backtrace
-/

namespace Cackle.Ui
open Cackle Store

/-! ## C150: rows of the list of places -/

/-- **C150 (the claim).** Places of a problem that look the same in the list are the same place. -/
def C150_Claim : Prop :=
  ∀ (env : Report.Names) (dir : Option Str) (p : Problem) (x y : Place), IsPlace p x → IsPlace p y → x.row env dir = y.row env dir →
    x.location = y.location

/-- The names of the examples. -/
def placesNames : Report.Names := ⟨fun s => s, fun s => s⟩

/-- A crate of the examples. -/
def placesCrate : Perm.CrateSel := ⟨⟨str! "foo", str! "1.0.0", true⟩, .primary⟩

/-- **C150 is false:** of two pieces of unsafe code in the same line, the rows are the same; the column is not shown. -/
theorem C150_refuted : ¬ C150_Claim := by
  intro h
  have h1 := h placesNames none (.disallowedUnsafe placesCrate [⟨str! "/p/a.rs", 7, some 3⟩, ⟨str! "/p/a.rs", 7, some 40⟩])
    (.unsafeAt ⟨str! "/p/a.rs", 7, some 3⟩) (.unsafeAt ⟨str! "/p/a.rs", 7, some 40⟩) (.unsafeCode (by simp)) (.unsafeCode (by simp)) rfl
  simp [Place.location] at h1

/-- Uses of an API: neither the file nor the line is shown. -/
theorem C150_api_refuted : ∃ (env : Report.Names) (p : Problem) (x y : Place), IsPlace p x ∧ IsPlace p y ∧
    x.row env (some (str! "/p")) = y.row env (some (str! "/p")) ∧ x.location.file ≠ y.location.file ∧ x.location.line ≠ y.location.line := by
  let a : ApiUsage := ⟨7, 1, str! "/bin", .all, ⟨str! "/p/a.rs", 7, none⟩, none, .symbol (str! "f"), .symbol (str! "write"), [str! "std", str! "fs"], .symbol (str! "write")⟩
  let b : ApiUsage := ⟨9, 1, str! "/bin", .all, ⟨str! "/p/b.rs", 9, none⟩, none, .symbol (str! "f"), .symbol (str! "write"), [str! "std", str! "fs"], .symbol (str! "write")⟩
  exact ⟨placesNames, .disallowedApiUsage ⟨placesCrate.pkgId, .all, str! "fs", [a, b]⟩, .usage a, .usage b, .usage (by simp), .usage (by simp),
    rfl, by decide, by decide⟩

/-- An absolute path. -/
def Absolute (s : Str) : Prop := s.head? = some '/'

theorem colon_not_decimal (n : Nat) : ':' ∉ Wire.decimal n := by
  intro h
  have := Json.decimal_digits n _ h
  exact absurd this (by decide)

theorem row_split {a b : Str} {n m : Nat} (h : a ++ ':' :: Wire.decimal n = b ++ ':' :: Wire.decimal m) : a = b ∧ n = m := by
  have h1 := congrArg List.reverse h
  simp only [List.reverse_append, List.reverse_cons, List.append_assoc, List.cons_append, List.nil_append] at h1
  obtain ⟨h2, h3⟩ := Fixes.split_at (by simpa using colon_not_decimal n) (by simpa using colon_not_decimal m) h1
  refine ⟨by simpa using congrArg List.reverse h3, ?_⟩
  have h4 : Wire.decimal n ++ [] = Wire.decimal m ++ [] := by simpa using h2
  exact (Fixes.decimal_split (fun c s e => by cases e) (fun c s e => by cases e) h4).1

theorem splitChar_slashes : ∀ (ns : List Str), ns ≠ [] → (∀ n ∈ ns, '/' ∉ n) → splitChar '/' (joinWith ['/'] ns) = ns
  | [], h, _ => absurd rfl h
  | [a], _, h => BuildScript.splitChar_last (h a (by simp))
  | a :: b :: rest, _, h => by
    rw [joinWith, List.append_assoc, List.singleton_append, BuildScript.splitChar_line (h a (by simp)),
      splitChar_slashes (b :: rest) (by simp) (fun n hn => h n (by simp [hn]))]

theorem joinWith_slash_inj {a b : List Str} (ha : ∀ n ∈ a, n ≠ [] ∧ '/' ∉ n) (hb : ∀ n ∈ b, n ≠ [] ∧ '/' ∉ n)
    (h : joinWith ['/'] a = joinWith ['/'] b) : a = b := by
  have key : ∀ (c : List Str), (∀ n ∈ c, n ≠ [] ∧ '/' ∉ n) → joinWith ['/'] c = [] → c = [] := by
    intro c hc h0
    match c, hc, h0 with
    | [], _, _ => rfl
    | [x], hc, h0 => exact absurd h0 (hc x (by simp)).1
    | x :: y :: r, hc, h0 => exfalso; simp [joinWith] at h0
  by_cases h1 : a = []
  · subst h1
    exact (key b hb h.symm).symm
  · by_cases h2 : b = []
    · subst h2
      exact absurd (key a ha h) h1
    · rw [← splitChar_slashes a h1 (fun n hn => (ha n hn).2), h, splitChar_slashes b h2 (fun n hn => (hb n hn).2)]

/-- What an absolute path consists of. -/
theorem pathOf_absolute {s : Str} (h : Absolute s) : ∃ rest, pathOf s = ['/'] :: rest ∧ ∀ n ∈ rest, n ≠ [] ∧ '/' ∉ n := by
  cases s with
  | nil => cases h
  | cons c s =>
    obtain rfl : c = '/' := by simpa [Absolute] using h
    refine ⟨_, rfl, ?_⟩
    intro n hn
    simp only [List.mem_filter, decide_eq_true_eq] at hn
    exact ⟨hn.1.2, Link.splitChar_not_mem n hn.1.1⟩

theorem shownFile_cases {dir : Option Str} (hd : ∀ d, dir = some d → Absolute d) {f : Str} (hf : Absolute f) :
    (shownFile dir f = f) ∨ ∃ d, dir = some d ∧ ∃ rest, pathOf f = pathOf d ++ rest ∧ shownFile dir f = joinWith ['/'] rest ∧
      ∀ n ∈ rest, n ≠ [] ∧ '/' ∉ n := by
  cases dir with
  | none => exact Or.inl rfl
  | some d =>
    unfold shownFile
    dsimp only
    split
    · next h =>
      right
      obtain ⟨rest, hr⟩ := List.isPrefixOf_iff_prefix.mp h
      refine ⟨d, rfl, rest, hr.symm, by rw [← hr, List.drop_left], ?_⟩
      obtain ⟨r1, h1, _⟩ := pathOf_absolute (hd d rfl)
      obtain ⟨r2, h2, h3⟩ := pathOf_absolute hf
      rw [h1, h2, List.cons_append, List.cons.injEq] at hr
      intro n hn
      exact h3 n (by rw [← hr.2]; simp [hn])
    · exact Or.inl rfl

theorem joinWith_no_slash {rest : List Str} (h : ∀ n ∈ rest, n ≠ [] ∧ '/' ∉ n) : (joinWith ['/'] rest).head? ≠ some '/' := by
  have key : ∀ (a t : Str), a ≠ [] → '/' ∉ a → (a ++ t).head? ≠ some '/' := by
    intro a t h1 h2
    cases a with
    | nil => exact absurd rfl h1
    | cons c a => simp only [List.cons_append, List.head?_cons, ne_eq, Option.some.injEq]; intro e; exact h2 (by simp [e])
  match rest, h with
  | [], _ => simp [joinWith]
  | [a], h =>
    have h1 := h a (by simp)
    have := key a [] h1.1 h1.2
    simpa [joinWith] using this
  | a :: b :: r, h =>
    have h1 := h a (by simp)
    have := key a (['/'] ++ joinWith ['/'] (b :: r)) h1.1 h1.2
    simpa [joinWith] using this

theorem shownFile_inj {dir : Option Str} (hd : ∀ d, dir = some d → Absolute d) {f g : Str} (hf : Absolute f) (hg : Absolute g)
    (h : shownFile dir f = shownFile dir g) : pathOf f = pathOf g := by
  rcases shownFile_cases hd hf with h1 | ⟨d, e1, r1, p1, s1, c1⟩
  · rcases shownFile_cases hd hg with h2 | ⟨d', e2, r2, p2, s2, c2⟩
    · rw [← h1, h, h2]
    · rw [h1, s2] at h
      exact absurd (h ▸ hf) (joinWith_no_slash c2)
  · rcases shownFile_cases hd hg with h2 | ⟨d', e2, r2, p2, s2, c2⟩
    · rw [h2, s1] at h
      exact absurd (h ▸ hg) (joinWith_no_slash c1)
    · rw [e1] at e2
      cases e2
      rw [s1, s2] at h
      rw [p1, p2, joinWith_slash_inj c1 c2 h]

/-- A place with unsafe code or an extern block. -/
def Place.InSource : Place → Prop
  | .usage _ => False
  | _ => True

/-- **C150 (part).** Places with unsafe code (or extern blocks) that look the same in the list are in the same line of the same file. File
names are absolute, and so is the directory of the package if it is known.

What is missing, because it is false: the same for places in the same line, and for uses of an API. -/
theorem C150_rows_partial (env : Report.Names) (dir : Option Str) (hd : ∀ d, dir = some d → Absolute d) (p : Problem) (x y : Place)
    (hx : IsPlace p x) (hy : IsPlace p y) (hs : x.InSource) (fx : Absolute x.location.file) (fy : Absolute y.location.file)
    (h : x.row env dir = y.row env dir) : pathOf x.location.file = pathOf y.location.file ∧ x.location.line = y.location.line := by
  cases hx with
  | usage _ => exact hs.elim
  | offTree _ => exact hs.elim
  | unsafeCode _ =>
    cases hy with
    | unsafeCode _ =>
      obtain ⟨h1, h2⟩ := row_split h
      exact ⟨shownFile_inj hd fx fy h1, h2⟩
  | externBlock _ =>
    cases hy with
    | externBlock _ =>
      obtain ⟨h1, h2⟩ := row_split h
      exact ⟨shownFile_inj hd fx fy h1, h2⟩

/-- **C150 (part).** The row of a place in a file of the package gives the file within the package and the line; for other files, the whole
path. For uses of an API, the row gives the function it is used from and what is used. -/
theorem C150_row_says (env : Report.Names) (u : ApiUsage) (l : SourceLoc) (d : Str) (rest : List Str) (hne : rest ≠ [])
    (hf : l.file = joinWith ['/'] (d :: rest)) (hd : Absolute d) (hn : ∀ n ∈ rest, n ≠ [] ∧ '/' ∉ n ∧ n ≠ ['.']) (other : SourceLoc)
    (ho : Absolute other.file) (hout : ¬ pathOf d <+: pathOf other.file) :
    Place.row env (some d) (.unsafeAt l) = joinWith ['/'] rest ++ ':' :: Wire.decimal l.line ∧
    Place.row env (some d) (.externAt l) = joinWith ['/'] rest ++ ':' :: Wire.decimal l.line ∧
    Place.row env (some d) (.unsafeAt other) = other.file ++ ':' :: Wire.decimal other.line ∧
    Place.row env (some d) (.externAt other) = other.file ++ ':' :: Wire.decimal other.line ∧
    Place.row env (some d) (.usage u) = env.sym u.from_ ++ str! " -> " ++ env.sym u.toSource := by
  have h1 : shownFile (some d) other.file = other.file := by
    unfold shownFile
    dsimp only
    rw [if_neg (by rw [List.isPrefixOf_iff_prefix]; exact hout)]
  have hsplit : ∀ (a b : Str), splitChar '/' (a ++ '/' :: b) = splitChar '/' a ++ splitChar '/' b := by
    intro a b
    induction a with
    | nil => simp [splitChar]
    | cons c a ih =>
      rw [List.cons_append, splitChar, splitChar, ih]
      split
      · simp
      · cases hs : splitChar '/' a with
        | nil => exact absurd hs (BuildScript.splitChar_ne_nil _ _)
        | cons x t => simp
  have h2 : pathOf l.file = pathOf d ++ rest := by
    cases rest with
    | nil => exact absurd rfl hne
    | cons r rs =>
      cases d with
      | nil => cases hd
      | cons c d =>
        obtain rfl : c = '/' := by simpa [Absolute] using hd
        have e : l.file = '/' :: d ++ '/' :: joinWith ['/'] (r :: rs) := by rw [hf]; simp [joinWith]
        have e2 := hsplit ('/' :: d) (joinWith ['/'] (r :: rs))
        rw [splitChar_slashes (r :: rs) (by simp) (fun n hh => (hn n hh).2.1)] at e2
        rw [e]
        show ['/'] :: _ = (['/'] :: _) ++ _
        rw [List.cons_append] at e2 ⊢
        rw [e2]
        simp only [List.filter_append]
        congr 2
        have e3 : (r :: rs).filter (fun c => decide (c ≠ [])) = r :: rs := List.filter_eq_self.mpr (fun n hh => by simpa using (hn n hh).1)
        have e4 : (r :: rs).filter (fun c => decide (c ≠ ['.'])) = r :: rs := List.filter_eq_self.mpr (fun n hh => by simpa using (hn n hh).2.2)
        rw [e3, e4]
  have h3 : shownFile (some d) l.file = joinWith ['/'] rest := by
    unfold shownFile
    dsimp only
    rw [if_pos (by rw [List.isPrefixOf_iff_prefix, h2]; exact ⟨rest, rfl⟩), h2, List.drop_left]
  refine ⟨?_, ?_, ?_, ?_, rfl⟩ <;> simp only [Place.row, h1, h3]

/-- A concrete case. -/
example : Place.row placesNames (some (str! "/home/u/foo/")) (.unsafeAt ⟨str! "/home/u/foo/src/a.rs", 12, some 3⟩) = str! "src/a.rs:12" ∧
    Place.row placesNames (some (str! "/home/u/foo")) (.unsafeAt ⟨str! "/home/u/foobar/src/a.rs", 12, some 3⟩) =
      str! "/home/u/foobar/src/a.rs:12" := by decide +kernel

/-! ## C126: where the source of the standard library is -/

/-- **C126 (part).** For code of the standard library, whose debug information has `/rustc/<commit>/…`, the file in the source that comes
with the toolchain is shown; for other files, the file itself. -/
theorem C126_std_source (sysroot rest file : PathC) (commit : Str) :
    withSysroot sysroot (str! "/" :: str! "rustc" :: commit :: rest) =
      sysroot ++ [str! "lib", str! "rustlib", str! "src", str! "rust"] ++ rest ∧
    ((∀ r, file ≠ str! "/" :: str! "rustc" :: r) → withSysroot sysroot file = file) := by
  have e : pathOf (str! "/rustc/") = [str! "/", str! "rustc"] := by decide
  constructor
  · unfold withSysroot
    rw [e, if_pos (by simp)]
    have e2 : pathOf (str! "lib/rustlib/src/rust") = [str! "lib", str! "rustlib", str! "src", str! "rust"] := by decide
    rw [e2]
    rfl
  · intro h
    unfold withSysroot
    rw [e, if_neg]
    intro hp
    obtain ⟨r, hr⟩ := List.isPrefixOf_iff_prefix.mp hp
    exact h r hr.symm

/-- A concrete case. -/
example : withSysroot (pathOf (str! "/tc")) (pathOf (str! "/rustc/0ab/library/std/src/fs.rs")) =
    pathOf (str! "/tc/lib/rustlib/src/rust/library/std/src/fs.rs") ∧
    withSysroot (pathOf (str! "/tc")) (pathOf (str! "/rustcode/0ab/fs.rs")) = pathOf (str! "/rustcode/0ab/fs.rs") := by decide

/-! ## C43: the frames -/

/-- What users expect to see for the code at an address, in which functions are inlined into each other: all of them, from the innermost
on; all but the outermost, which is the one that exists in the binary, are marked. -/
def shownFrames (env : Report.Names) (sysroot : PathC) : List RawFrame → List Frame
  | [] => []
  | [f] => [⟨match f.1 with | some n => env.demangle n | none => str! "??", f.2.map (fun l => (withSysroot sysroot l.1, l.2)), false⟩]
  | f :: g :: fs =>
    ⟨match f.1 with | some n => env.demangle n | none => str! "??", f.2.map (fun l => (withSysroot sysroot l.1, l.2)), true⟩ ::
      shownFrames env sysroot (g :: fs)

theorem markLast_snoc (fs : List Frame) (f : Frame) : markLast (fs ++ [f]) = fs ++ [{ f with inlined := true }] := by
  simp [markLast]

theorem addFrames_false (env : Report.Names) (sysroot : PathC) : ∀ (fs : List RawFrame) (acc : List Frame) (f : RawFrame),
    addFrames env sysroot false (acc ++ [newFrame env sysroot f]) fs = acc ++ shownFrames env sysroot (f :: fs)
  | [], acc, f => by
    rw [addFrames, shownFrames, newFrame]
    cases f.1 <;> rfl
  | g :: fs, acc, f => by
    rw [addFrames, markLast_snoc, addFrames_false env sysroot fs, shownFrames, List.append_assoc, List.singleton_append, newFrame]
    cases f.1 <;> rfl

/-- **C43 (part).** A backtrace shows, for each of its addresses, all functions that are inlined there, the innermost first, and marks
exactly those which are inlined into the next. -/
theorem C43_frames (env : Report.Names) (sysroot : PathC) (find : Nat → List RawFrame) (addresses : List Nat) :
    frames env sysroot find addresses = addresses.flatMap (fun a => shownFrames env sysroot (find a)) := by
  have h1 : ∀ (a : Nat) (acc : List Frame), addFrames env sysroot true acc (find a) = acc ++ shownFrames env sysroot (find a) := by
    intro a acc
    cases find a with
    | nil => simp [addFrames, shownFrames]
    | cons f fs => rw [addFrames, addFrames_false]
  have h2 : ∀ (l : List Nat) (acc : List Frame), l.foldl (fun acc a => addFrames env sysroot true acc (find a)) acc =
      acc ++ l.flatMap (fun a => shownFrames env sysroot (find a)) := by
    intro l
    induction l with
    | nil => intro acc; simp
    | cons a l ih => intro acc; rw [List.foldl_cons, ih, h1, List.flatMap_cons, List.append_assoc]
  simpa [frames] using h2 addresses []

/-- The rows of a backtrace for the code at an address. -/
def shownRows (env : Report.Names) : List RawFrame → List Str
  | [] => []
  | [f] => [(f.1.map env.demangle).getD (str! "??")]
  | f :: g :: fs => ((f.1.map env.demangle).getD (str! "??") ++ str! " (inlined)") :: shownRows env (g :: fs)

/-- **C43 (part).** The rows of a backtrace are the names of these functions, `??` if a name is unknown, with `(inlined)` after those that
are. -/
theorem C43_rows (env : Report.Names) (sysroot : PathC) (find : Nat → List RawFrame) (addresses : List Nat) :
    (frames env sysroot find addresses).map Frame.text = addresses.flatMap (fun a => shownRows env (find a)) := by
  have h : ∀ fs : List RawFrame, (shownFrames env sysroot fs).map Frame.text = shownRows env fs := by
    intro fs
    induction fs with
    | nil => rfl
    | cons f fs ih =>
      cases fs with
      | nil => simp only [shownFrames, shownRows, List.map_cons, List.map_nil, Frame.text]; cases f.1 <;> simp
      | cons g fs => rw [shownFrames, shownRows, List.map_cons, ih]; simp only [Frame.text]; cases f.1 <;> simp
  rw [C43_frames, List.map_flatMap]
  simp only [h]

/-- A concrete case: `write` is inlined into `save`, which is called by `main`. -/
example : (frames placesNames (pathOf (str! "/tc")) (fun a => if a = 16 then [(some (str! "write"), none), (some (str! "save"), none)] else
    [(some (str! "main"), some (pathOf (str! "/p/main.rs"), 3, none)), (none, none)]) [16, 32]).map Frame.text =
    [str! "write (inlined)", str! "save", str! "main (inlined)", str! "??"] := by decide

/-! ## C151: the details of the package -/

/-- The package that this text is about: it is the first that is named, with its version if there are several. -/
def IsAbout (t : Str) (q : Perm.PkgId) : Prop :=
  ∃ pre kind post, pre ∈ [[], str! "`", str! "Package `", str! "Execution of binary for package `", str! "Build script for package `",
      str! "Execution of test for package `"] ∧ kind ∈ [[], str! ".build", str! ".test"] ∧
    t = pre ++ q.name ++ kind ++ (if q.nameIsUnique then [] else str! "[" ++ q.version ++ str! "]") ++ post

/-- Problems that are not about a package, but about the config or something else. -/
def NoPackage : Problem → Prop
  | .message _ | .missingConfiguration _ | .unusedPackageConfig _ | .unusedAllowApi _ _ | .selectSandbox | .importStdApi _
  | .unusedSandboxConfiguration _ | .newConfigVersionAvailable _ => True
  | _ => False

theorem crate_about (c : Perm.CrateSel) (pre post : Str) (hp : pre ∈ [[], str! "`", str! "Package `", str! "Execution of binary for package `",
      str! "Build script for package `", str! "Execution of test for package `"]) : IsAbout (pre ++ Report.crateText c ++ post) c.pkgId := by
  refine ⟨pre, Report.kindText c.kind, post, hp, ?_, ?_⟩
  · cases c.kind <;> simp [Report.kindText]
  · unfold Report.crateText
    cases c.pkgId.nameIsUnique <;> simp

theorem pkg_about (q : Perm.PkgId) (pre post : Str) (hp : pre ∈ [[], str! "`", str! "Package `", str! "Execution of binary for package `",
      str! "Build script for package `", str! "Execution of test for package `"]) : IsAbout (pre ++ Report.pkgText q ++ post) q :=
  crate_about ⟨q, .primary⟩ pre post hp

theorem quoted_about (q : Perm.PkgId) (l post : Str) (hp : l ++ ['`'] ∈ [[], str! "`", str! "Package `", str! "Execution of binary for package `",
      str! "Build script for package `", str! "Execution of test for package `"]) : IsAbout (l ++ Report.quote (Report.pkgText q) ++ post) q := by
  have := pkg_about q (l ++ ['`']) ('`' :: post) hp
  simpa [Report.quote] using this

/-- **C151.** Every problem but those about the config has a package; it is the one that the row of the problem is about. -/
theorem C151_package (p : Problem) : (pkgOf p = none ↔ NoPackage p) ∧ ∀ q, pkgOf p = some q → IsAbout (Report.shortText p) q := by
  have hq : ∀ (c : Perm.CrateSel) (t : Str), IsAbout (Report.quote (Report.crateText c) ++ t) c.pkgId := by
    intro c t
    have := crate_about c ['`'] ('`' :: t) (by simp)
    simpa [Report.quote] using this
  have hq2 : ∀ (c : Perm.PkgId) (t : Str), IsAbout (Report.quote (Report.pkgText c) ++ t) c := fun c t => hq ⟨c, .primary⟩ t
  constructor
  · cases p <;> simp [pkgOf, NoPackage]
  · intro q h
    cases p <;> simp only [pkgOf, Option.some.injEq, reduceCtorEq] at h
    all_goals subst h
    case usesBuildScript p => exact hq2 p _
    case disallowedUnsafe c ls => exact hq c _
    case disallowedExtern c ls => exact hq c _
    case isProcMacro p => exact hq2 p _
    case disallowedApiUsage u =>
      have := hq2 u.pkg (str! " uses the " ++ Report.quote u.api ++ str! " API" ++ Report.scopeText u.scope)
      simpa only [Report.shortText, List.append_assoc] using this
    case offTreeApiUsage u r =>
      have := hq2 u.pkg (str! " uses " ++ Report.quote u.api ++ str! " API from non-dependency " ++ Report.quote (Report.pkgText r))
      simpa only [Report.shortText, List.append_assoc] using this
    case executionFailed c o =>
      obtain ⟨pk, k⟩ := c
      cases k
      · exact quoted_about pk (str! "Execution of binary for package ") (str! " failed") (by simp)
      · exact quoted_about pk (str! "Build script for package ") (str! " failed") (by simp)
      · exact quoted_about pk (str! "Execution of test for package ") (str! " failed") (by simp)
    case disallowedBuildInstruction p i =>
      have := pkg_about p [] (str! "'s build script emitted disallowed instruction " ++ Report.quote i) (by simp)
      simpa only [Report.shortText, List.append_assoc, List.nil_append] using this
    case availableApi p a c =>
      have := quoted_about p (str! "Package ") (str! " exports API " ++ Report.quote a) (by simp)
      rw [← List.append_assoc] at this
      exact this
    case possibleExportedApi p a s =>
      have := quoted_about p (str! "Package ") (str! " may provide API " ++ Report.quote a) (by simp)
      rw [← List.append_assoc] at this
      exact this

/-- **C151 (the claim).** If a line of the details says where the package is, that is where it is; if a line says which version it is, that
is its version. -/
def C151_Claim : Prop :=
  ∀ (i : PkgInfo) (q : Perm.PkgId), '\n' ∉ i.directory → '\n' ∉ q.version → ∀ v,
    ((str! "Local path: " ++ v) ∈ splitChar '\n' (packageText (some i) q) → v = i.directory) ∧
    ((str! "Version: " ++ v) ∈ splitChar '\n' (packageText (some i) q) → v = q.version)

/-- **C151 is false:** the description, which the author of the package writes, can have several lines. -/
theorem C151_refuted : ¬ C151_Claim := by
  intro h
  have h1 := (h ⟨some (str! "Good.\nVersion: 9.9.9\nLocal path: /trusted/foo"), none, str! "/registry/foo-1.0.0"⟩ placesCrate.pkgId (by decide)
    (by decide) (str! "9.9.9")).2 (by decide +kernel)
  revert h1
  decide

/-- The lines that users expect. -/
def detailLines (i : PkgInfo) (q : Perm.PkgId) (description : Option Str) : List Str :=
  (match description with | some d => [str! "Description: " ++ d] | none => []) ++ [str! "Version: " ++ q.version] ++
  (match i.documentation with | some d => [str! "Documentation: " ++ d] | none => []) ++ [str! "Local path: " ++ i.directory]

/-- `d` is the text without white space at its end. -/
def WithoutEnd (d s : Str) : Prop := ∃ w, s = d ++ w ∧ (∀ c ∈ w, c ∈ [' ', '\n', '\t', '\r']) ∧ ∀ c, d.getLast? = some c → c ∉ [' ', '\n', '\t', '\r']

theorem trimEnd_spec (s : Str) : WithoutEnd (trimEnd s) s := by
  let f : Char → Bool := fun c => c = ' ' || c = '\n' || c = '\t' || c = '\r'
  have hf : ∀ c, f c = true ↔ c ∈ [' ', '\n', '\t', '\r'] := by intro c; simp [f, or_assoc]
  refine ⟨(s.reverse.takeWhile f).reverse, ?_, ?_, ?_⟩
  · have := congrArg List.reverse (List.takeWhile_append_dropWhile (p := f) (l := s.reverse))
    rw [List.reverse_append, List.reverse_reverse] at this
    exact this.symm
  · intro c hc
    rw [List.mem_reverse] at hc
    have hall := List.all_takeWhile (p := f) (l := s.reverse)
    exact (hf c).mp (List.all_eq_true.mp hall c hc)
  · intro c hc hm
    have h1 : trimEnd s = (s.reverse.dropWhile f).reverse := rfl
    rw [h1, List.getLast?_reverse] at hc
    have h2 := List.head?_dropWhile_not f s.reverse
    rw [hc] at h2
    dsimp only at h2
    rw [(hf c).mpr hm] at h2
    exact absurd h2 (by simp)

theorem without_unique {d e s : Str} (hd : WithoutEnd d s) (he : WithoutEnd e s) : d = e := by
  obtain ⟨w, h1, h2, h3⟩ := hd
  obtain ⟨v, h4, h5, h6⟩ := he
  have key : ∀ (a b x y : Str), a ++ x = b ++ y → (∀ c ∈ x, c ∈ [' ', '\n', '\t', '\r']) → (∀ c, b.getLast? = some c → c ∉ [' ', '\n', '\t', '\r']) →
      b.length ≤ a.length := by
    intro a b x y e hx hb
    by_cases hl : b.length ≤ a.length
    · exact hl
    · exfalso
      have hlt : a.length < b.length := Nat.lt_of_not_le hl
      obtain ⟨z, hz⟩ : a <+: b := List.prefix_of_prefix_length_le ⟨x, e⟩ ⟨y, rfl⟩ (Nat.le_of_lt hlt)
      subst hz
      rw [List.append_assoc, List.append_cancel_left_eq] at e
      cases hz : z.getLast? with
      | none =>
        rw [List.getLast?_eq_none_iff] at hz
        subst hz
        simp at hlt
      | some c =>
        have hc : c ∈ z := List.mem_of_getLast? hz
        exact hb c (by rw [List.getLast?_append, hz]; rfl) (hx c (by rw [e]; simp [hc]))
  have eq : d ++ w = e ++ v := by rw [← h1, h4]
  exact (List.append_inj eq (Nat.le_antisymm (key e d v w (by rw [← h1, h4]) h5 h3) (key d e w v (by rw [← h1, h4]) h2 h6))).1

theorem split_line {l : Str} (h : '\n' ∉ l) (s : Str) : splitChar '\n' (l ++ '\n' :: s) = l :: splitChar '\n' s := BuildScript.splitChar_line h

theorem split_after (a l : Str) (h : '\n' ∉ l) : ∃ pre, splitChar '\n' (a ++ '\n' :: (l ++ ['\n'])) = pre ++ [l, []] := by
  refine ⟨splitChar '\n' a, ?_⟩
  induction a with
  | nil =>
    rw [List.nil_append]
    simp only [splitChar, if_true]
    rw [split_line h]
    rfl
  | cons c a ih =>
    rw [List.cons_append, splitChar, splitChar, ih]
    split
    · simp
    · cases hs : splitChar '\n' a with
      | nil => exact absurd hs (BuildScript.splitChar_ne_nil _ _)
      | cons x t => simp

/-- **C151 (part).** Whatever the description is, the last line says where the package is. If neither the description (apart from its end)
nor the other values have line breaks, the lines are the description, the version, where the documentation is, and where the package is,
as far as they are known.

What is missing, because it is false: that such lines cannot be in the description as well. -/
theorem C151_text_partial (i : PkgInfo) (q : Perm.PkgId) (hd : '\n' ∉ i.directory) :
    (∃ pre, splitChar '\n' (packageText (some i) q) = pre ++ [str! "Local path: " ++ i.directory, []]) ∧
    (∀ description : Option Str, (∀ s, i.description = some s → ∃ d, description = some d ∧ WithoutEnd d s ∧ '\n' ∉ d) →
      (i.description = none → description = none) → '\n' ∉ q.version → (∀ s, i.documentation = some s → '\n' ∉ s) →
      splitChar '\n' (packageText (some i) q) = detailLines i q description ++ [[]]) := by
  have hdir : '\n' ∉ str! "Local path: " ++ i.directory := by
    rw [List.mem_append]; exact fun h => h.elim (by decide) hd
  constructor
  · unfold packageText
    dsimp only
    cases i.documentation with
    | none =>
      obtain ⟨pre, h⟩ := split_after ((match i.description with | none => [] | some d => str! "Description: " ++ trimEnd d ++ ['\n']) ++
        (str! "Version: " ++ q.version)) (str! "Local path: " ++ i.directory) hdir
      refine ⟨pre, ?_⟩
      rw [← h]
      cases i.description <;> simp
    | some d =>
      obtain ⟨pre, h⟩ := split_after ((match i.description with | none => [] | some d => str! "Description: " ++ trimEnd d ++ ['\n']) ++
        (str! "Version: " ++ q.version) ++ ['\n'] ++ (str! "Documentation: " ++ d)) (str! "Local path: " ++ i.directory) hdir
      refine ⟨pre, ?_⟩
      rw [← h]
      cases i.description <;> simp
  · intro description h1 h2 h3 h4
    have hv : '\n' ∉ str! "Version: " ++ q.version := by
      rw [List.mem_append]; exact fun h => h.elim (by decide) h3
    have hall : ∀ l ∈ detailLines i q description, '\n' ∉ l := by
      intro l hl
      simp only [detailLines, List.mem_append, List.mem_singleton] at hl
      rcases hl with ((hl | rfl) | hl) | rfl
      · cases hi : i.description with
        | none => rw [h2 hi] at hl; cases hl
        | some s =>
          obtain ⟨d, e, hw, hn⟩ := h1 s hi
          rw [e] at hl
          obtain rfl := List.mem_singleton.mp hl
          rw [List.mem_append]; exact fun h => h.elim (by decide) hn
      · exact hv
      · cases hi : i.documentation with
        | none => rw [hi] at hl; cases hl
        | some s =>
          rw [hi] at hl
          obtain rfl := List.mem_singleton.mp hl
          rw [List.mem_append]; exact fun h => h.elim (by decide) (h4 s hi)
      · exact hdir
    rw [← Report.splitChar_unlines _ hall]
    congr 1
    unfold packageText detailLines Report.unlines
    dsimp only
    cases hi : i.description with
    | none =>
      rw [h2 hi]
      cases i.documentation <;> simp
    | some s =>
      obtain ⟨d, e, hw, hn⟩ := h1 s hi
      have ed : trimEnd s = d := without_unique (trimEnd_spec s) hw
      subst e
      dsimp only
      rw [ed]
      cases i.documentation <;> simp

/-- A concrete case. -/
example : splitChar '\n' (packageText (some ⟨some (str! "Does things.\n"), none, str! "/r/foo-1.0.0"⟩) placesCrate.pkgId) =
    [str! "Description: Does things.", str! "Version: 1.0.0", str! "Local path: /r/foo-1.0.0", []] := by decide +kernel

variable {F C : Type}

/-- **C151.** The details are those of the package that the selected problem is about, and its name is above them; the tree of packages
that depend on it is asked for by its name and version. For a problem that is not about a package there are none. -/
theorem C151_shown (infos : Perm.PkgId → Option PkgInfo) (manifest : Str) (s : State F C) (id : Nat) (p : Problem)
    (h : (live s.store)[s.problemIndex]? = some (id, p)) :
    (NoPackage p → s.packageDetails infos = none ∧ s.treeArgs manifest = none) ∧
    (¬ NoPackage p → ∃ q, IsAbout (Report.shortText p) q ∧
      s.packageDetails infos = some (str! "Details for package " ++ Report.pkgText q, packageText (infos q) q) ∧
      s.treeArgs manifest = some [str! "tree", str! "--manifest-path", manifest, str! "-i", q.name ++ '@' :: q.version]) := by
  have hs : s.selected = some (id, p) := h
  obtain ⟨h1, h2⟩ := C151_package p
  unfold State.packageDetails State.treeArgs
  rw [hs]
  dsimp only
  constructor
  · intro hn
    rw [h1.mpr hn]
    exact ⟨rfl, rfl⟩
  · intro hn
    cases hq : pkgOf p with
    | none => exact absurd (h1.mp hq) hn
    | some q => exact ⟨q, h2 q hq, rfl, rfl⟩

/-- A concrete case. -/
example : pkgOf (.disallowedExtern ⟨⟨str! "foo", str! "2.0.0", false⟩, .buildScript⟩ []) = some ⟨str! "foo", str! "2.0.0", false⟩ ∧
    Report.shortText (.disallowedExtern ⟨⟨str! "foo", str! "2.0.0", false⟩, .buildScript⟩ []) = str! "`foo.build[2.0.0]` uses extern" := by decide

end Cackle.Ui
