import Verif.Lemmas.Link
import Verif.Props.Identity

/-!
# C101 to C104: object files, wrapper scripts and roles

The vocabulary is in `Verif/Props/LinkSpec.lean`.
-/

namespace Cackle.Link
open Cackle Perm Identity

/-! ## C101: all object files of the target directory are scanned -/

/-- C101: each object file or Rust library that the linker is given and that really is in the target directory is
scanned. `args` are the arguments of the wrapper, `response` the contents of response files, `menv` the environment of the
main process. -/
def C101_Claim : Prop :=
  ∀ (d : Disk) (root : PathC) (menv env : AMap Str Str) (response : Str → List Str) (args : List Str) (info : LinkInfo),
    resolve d root = root → fromEnv env args = some info →
    ∀ a ∈ expand response args, NamesObject a →
    ∀ p, canonicalize d (pathOf a) = some p → Inside (resolve d (targetDir root menv)) p → p ∈ scanned d root menv info

/-- C101, partial: object files are scanned if the path of the target directory has no symbolic links (and no `..`), and the
argument is not in a response file. Missing: target directories behind symbolic links, response files. -/
theorem C101_objects_are_scanned_partial {d : Disk} {root : PathC} {menv env : AMap Str Str} {args : List Str}
    {info : LinkInfo} (hd : resolve d (targetDir root menv) = targetDir root menv) (h : fromEnv env args = some info) {a : Str}
    (ha : a ∈ args) (ho : NamesObject a) {p : PathC} (hp : canonicalize d (pathOf a) = some p)
    (hin : Inside (resolve d (targetDir root menv)) p) : p ∈ scanned d root menv info := by
  have hobj : info.objects = args.filter hasSupportedExtension := by
    unfold fromEnv at h
    split at h
    · cases h; rfl
    · cases h
  rw [hd] at hin
  obtain ⟨rest, hr⟩ := hin
  unfold scanned objectPathsUnder
  refine List.mem_filter.mpr ⟨List.mem_filterMap.mpr ⟨a, ?_, hp⟩, ?_⟩
  · rw [hobj]
    exact List.mem_filter.mpr ⟨ha, supported_of_names ho⟩
  · rw [hr]
    simp [PathC.startsWith]

/-- C101, the other direction: only files that the linker is given and that are in the target directory are scanned. -/
theorem C101_nothing_else_is_scanned {d : Disk} {root : PathC} {menv env : AMap Str Str} {args : List Str} {info : LinkInfo}
    (h : fromEnv env args = some info) {p : PathC} (hp : p ∈ scanned d root menv info) :
    Inside (targetDir root menv) p ∧ ∃ a ∈ args, canonicalize d (pathOf a) = some p := by
  have hobj : info.objects = args.filter hasSupportedExtension := by
    unfold fromEnv at h
    split at h
    · cases h; rfl
    · cases h
  unfold scanned objectPathsUnder at hp
  obtain ⟨h1, h2⟩ := List.mem_filter.mp hp
  obtain ⟨a, ha, hc⟩ := List.mem_filterMap.mp h1
  rw [hobj] at ha
  obtain ⟨t, ht⟩ := List.isPrefixOf_iff_prefix.mp h2
  exact ⟨⟨t, ht.symm⟩, a, (List.mem_filter.mp ha).1, hc⟩

/-- C101: the target directory is the one that cargo, which is run in the workspace, uses: `target` in the workspace, or the
directory in the variable, which may be relative to the workspace. -/
theorem C101_target_dir (root : PathC) (menv : AMap Str Str) :
    (AMap.get? menv (str! "CARGO_TARGET_DIR") = none → targetDir root menv = root ++ [str! "target"]) ∧
    (∀ v, AMap.get? menv (str! "CARGO_TARGET_DIR") = some ('/' :: v) → targetDir root menv = pathOf ('/' :: v)) ∧
    (∀ v, AMap.get? menv (str! "CARGO_TARGET_DIR") = some v → v.head? ≠ some '/' → str! "." ∉ pathOf v →
      targetDir root menv = root ++ pathOf v) := by
  refine ⟨?_, ?_, ?_⟩
  · intro h
    unfold targetDir
    rw [h]
    rfl
  · intro v h
    unfold targetDir
    rw [h]
    rfl
  · intro v h h1 h2
    unfold targetDir
    rw [h, Option.getD_some]
    split
    · rename_i cs hp
      exfalso
      have hs : ∀ x ∈ splitChar '/' v, '/' ∉ x := splitChar_not_mem
      have hm : (['/'] : Str) ∈ splitChar '/' v := by
        unfold pathOf at hp
        split at hp
        · exact absurd rfl h1
        · revert hp
          cases hf : (splitChar '/' v).filter (fun c => c ≠ []) with
          | nil => intro hp; cases hp
          | cons p rest =>
            intro hp
            have e : p = ['/'] := (List.cons.inj hp).1
            rw [← e]
            exact (List.mem_filter.mp (by rw [hf]; simp : p ∈ (splitChar '/' v).filter (fun c => c ≠ []))).1
      exact hs _ hm (by simp)
    · rw [List.filter_eq_self.mpr]
      intro c hc
      have : c ≠ str! "." := fun e => h2 (by rw [← e]; exact hc)
      simpa using this

example : targetDir [str! "/", str! "w"] [(str! "CARGO_TARGET_DIR", str! "a/b")] = [str! "/", str! "w", str! "a", str! "b"] :=
  (C101_target_dir _ _).2.2 (str! "a/b") (by decide) (by decide) (by decide +kernel)

/-- The environment of a linker. -/
def exEnv : AMap Str Str :=
  [(envPkgName, str! "foo"), (envPkgVersion, str! "1.0"), (envMultiple, str! ""), (envSocket, str! "/tmp/s")]

/-- A linker command line. -/
def exArgs : List Str := [str! "-m64", str! "/w/target/debug/a.o", str! "/lib/b.rlib", str! "-o", str! "/w/target/debug/foo"]

/-- What the wrapper finds out about it. -/
def exInfo : LinkInfo :=
  ⟨⟨⟨str! "foo", str! "1.0", true⟩, .primary⟩, [str! "/w/target/debug/a.o", str! "/lib/b.rlib"], str! "/w/target/debug/foo", false⟩

/-- The object file. -/
def exObject : PathC := [str! "/", str! "w", str! "target", str! "debug", str! "a.o"]

theorem exObject_names : NamesObject (str! "/w/target/debug/a.o") :=
  ⟨str! "/w/target/debug/", str! "a", str! "o", rfl, Or.inl rfl, Or.inr ⟨str! "/w/target/debug", rfl⟩, by decide, by decide⟩

/-- One of the files is in the target directory and is scanned, the other is not. -/
example : exObject ∈ scanned { files := [exObject, [str! "/", str! "lib", str! "b.rlib"]] } [str! "/", str! "w"] [] exInfo ∧
    scanned { files := [exObject, [str! "/", str! "lib", str! "b.rlib"]] } [str! "/", str! "w"] [] exInfo = [exObject] :=
  ⟨C101_objects_are_scanned_partial (env := exEnv) (args := exArgs) (a := str! "/w/target/debug/a.o") (by decide +kernel)
    (by decide +kernel) (by decide) exObject_names (by decide +kernel) ⟨[str! "debug", str! "a.o"], by decide +kernel⟩,
    by decide +kernel⟩

/-- The target directory is a symbolic link to another disk. -/
def exLink : Disk :=
  { links := [([str! "/", str! "w", str! "target"], [str! "/", str! "big"])]
    files := [[str! "/", str! "big", str! "debug", str! "a.o"]] }

/-- C101 is false: if `target` is a symbolic link, nothing at all is scanned, and no API usage is ever found. -/
theorem C101_fails : ¬ C101_Claim := by
  intro h
  have h1 := h exLink [str! "/", str! "w"] [] exEnv (fun _ => []) exArgs exInfo (by decide +kernel) (by decide +kernel)
    (str! "/w/target/debug/a.o") (by decide +kernel) exObject_names [str! "/", str! "big", str! "debug", str! "a.o"]
    (by decide +kernel) ⟨[str! "debug", str! "a.o"], by decide +kernel⟩
  revert h1
  decide +kernel

/-- The same with `..` in `CARGO_TARGET_DIR`, without any link. -/
theorem C101_dotdot :
    scanned { files := [[str! "/", str! "out", str! "a.o"]] } [str! "/", str! "w"]
        [(str! "CARGO_TARGET_DIR", str! "../out")] { exInfo with objects := [str! "/out/a.o"] } = [] ∧
      resolve {} (targetDir [str! "/", str! "w"] [(str! "CARGO_TARGET_DIR", str! "../out")]) = [str! "/", str! "out"] := by
  decide +kernel

/-- Nothing is scanned whatever the linker is given, as long as no file is below the unresolved path of the target
directory. -/
theorem C101_unresolved_target_scans_nothing {d : Disk} {root : PathC} {menv : AMap Str Str} {info : LinkInfo}
    (h : ∀ p ∈ d.files, ¬ Inside (targetDir root menv) p) : scanned d root menv info = [] := by
  unfold scanned objectPathsUnder
  rw [List.filter_eq_nil_iff]
  intro p hp hs
  obtain ⟨o, _, ho⟩ := List.mem_filterMap.mp hp
  unfold canonicalize at ho
  split at ho
  · rename_i hm
    cases ho
    obtain ⟨t, ht⟩ := List.isPrefixOf_iff_prefix.mp hs
    exact h _ hm ⟨t, ht.symm⟩
  · cases ho

example : scanned exLink [str! "/", str! "w"] [] exInfo = [] :=
  C101_unresolved_target_scans_nothing (by
    intro p hp
    simp only [exLink, List.mem_singleton] at hp
    subst hp
    rintro ⟨rest, h⟩
    have e : targetDir [str! "/", str! "w"] [] = [str! "/", str! "w", str! "target"] := by decide +kernel
    rw [e] at h
    exact absurd (List.cons.inj (List.cons.inj h).2).1 (by decide))

/-- C101 is also false for response files, which rustc uses if the command line is too long. -/
theorem C101_response_file :
    ¬ ∀ (d : Disk) (root : PathC) (menv env : AMap Str Str) (response : Str → List Str) (args : List Str) (info : LinkInfo),
      resolve d (targetDir root menv) = targetDir root menv → fromEnv env args = some info →
      ∀ a ∈ expand response args, NamesObject a →
      ∀ p, canonicalize d (pathOf a) = some p → Inside (targetDir root menv) p → p ∈ scanned d root menv info := by
  intro h
  have h1 := h { files := [exObject] } [str! "/", str! "w"] [] exEnv (fun _ => [str! "/w/target/debug/a.o"])
    [str! "@/tmp/linker-arguments", str! "-o", str! "x"] { exInfo with objects := [], output := str! "x" } (by decide +kernel)
    (by decide +kernel) (str! "/w/target/debug/a.o") (by decide +kernel) exObject_names exObject (by decide +kernel)
    ⟨[str! "debug", str! "a.o"], by decide +kernel⟩
  revert h1
  decide +kernel

/-! ## C102: what is run is what was analysed -/

/-- C102: after a program has been linked, running it with the arguments `xs` runs the linked program with these arguments (or is
an error), and that program is the one that the main process was told about. With a socket and an executable cackle, it is run
by the wrapper for programs, which knows the kind of crate that was linked. -/
def C102_Claim : Prop :=
  ∀ (exe : Str) (info : LinkInfo) (files : Str → Option Str) (content : Str),
    info.shared = false → files info.output = some content → exe ≠ origBinPath info.output →
    ∀ (env : AMap Str Str) (vars : Str → Str) (executable : Str → Bool) (xs : List Str),
    ∃ text cmd role,
      (proxyLinker exe info (some 0) files true true).files info.output = some text ∧
      bashRuns executable vars text xs = some cmd ∧ commandRole exe env cmd = some role ∧
      (role = .error ∨ ∃ prog, role.program = some (prog, xs) ∧
        (proxyLinker exe info (some 0) files true true).files prog = some content ∧
        (proxyLinker exe info (some 0) files true true).request.map (·.output) = some prog ∧
        ((AMap.get? env envSocket).getD [] ≠ [] → executable exe = true →
          ∃ crate, crate.kind = info.crate.kind ∧ role = .bin crate prog xs))

/-- C102, partial: it holds if bash takes the paths of cackle and of the program literally. Missing: paths with `"`, `$`, a
back quote, a backslash or a line break. -/
theorem C102_runs_what_was_analysed_partial {exe : Str} {info : LinkInfo} {files : Str → Option Str} {content : Str}
    (hs : info.shared = false) (hf : files info.output = some content) (hne : exe ≠ origBinPath info.output)
    (he : Literal exe) (ho : Literal info.output) (env : AMap Str Str) (vars : Str → Str) (executable : Str → Bool)
    (xs : List Str) :
    ∃ text cmd role,
      (proxyLinker exe info (some 0) files true true).files info.output = some text ∧
      bashRuns executable vars text xs = some cmd ∧ commandRole exe env cmd = some role ∧
      (role = .error ∨ ∃ prog, role.program = some (prog, xs) ∧
        (proxyLinker exe info (some 0) files true true).files prog = some content ∧
        (proxyLinker exe info (some 0) files true true).request.map (·.output) = some prog ∧
        ((AMap.get? env envSocket).getD [] ≠ [] → executable exe = true →
          ∃ crate, crate.kind = info.crate.kind ∧ role = .bin crate prog xs)) := by
  have hr := bashRuns_script (xs := xs) (vars := vars) (k := info.crate.kind) he (origBinPath_literal ho) executable
  have hl : proxyLinker exe info (some 0) files true true =
      ⟨put (put files (origBinPath info.output) content) info.output
          (script exe (toToken info.crate.kind) (origBinPath info.output)),
        some { info with output := origBinPath info.output }, some 0⟩ := by
    unfold proxyLinker
    simp [hs, hf]
  have hprog : (proxyLinker exe info (some 0) files true true).files (origBinPath info.output) = some content := by
    rw [hl]
    simp [put, origBinPath_ne]
  have htext : (proxyLinker exe info (some 0) files true true).files info.output =
      some (script exe (toToken info.crate.kind) (origBinPath info.output)) := by
    rw [hl]
    exact if_pos rfl
  cases hx : executable exe with
  | false =>
    rw [hx] at hr
    refine ⟨_, _, _, htext, hr, rfl, ?_⟩
    right
    rw [if_neg hne.symm]
    exact ⟨origBinPath info.output, rfl, hprog, by rw [hl]; rfl, fun _ h => absurd h (by simp)⟩
  | true =>
    rw [hx] at hr
    refine ⟨_, _, _, htext, hr, rfl, ?_⟩
    rw [if_pos rfl]
    unfold role
    split
    · simp only [wrapperRole, if_true]
      cases hc : (crateFromEnv env).bind (fun c => withToken c (toToken info.crate.kind)) with
      | none => left; rfl
      | some crate =>
        right
        refine ⟨origBinPath info.output, rfl, hprog, by rw [hl]; rfl, fun _ _ => ⟨crate, ?_, rfl⟩⟩
        obtain ⟨c, _, h2⟩ := Option.bind_eq_some_iff.mp hc
        rw [withToken, token_round_trip] at h2
        cases h2
        rfl
    · rename_i hsock
      right
      simp only [List.head?_cons, if_true, List.drop]
      exact ⟨origBinPath info.output, rfl, hprog, by rw [hl]; rfl, fun h => absurd h hsock⟩

/-- The files after linking. -/
def exFiles : Str → Option Str := fun p => if p = str! "/w/target/debug/foo" then some (str! "ELF") else none

example : ∃ text cmd role,
    (proxyLinker (str! "/bin/cackle") exInfo (some 0) exFiles true true).files (str! "/w/target/debug/foo") = some text ∧
    bashRuns (fun _ => true) (fun _ => []) text [str! "a b", str! "$c"] = some cmd ∧
    commandRole (str! "/bin/cackle") exEnv cmd = some role ∧
    role = .bin exInfo.crate (str! "/w/target/debug/foo.orig") [str! "a b", str! "$c"] :=
  ⟨script (str! "/bin/cackle") (str! "primary") (str! "/w/target/debug/foo.orig"),
    [str! "/bin/cackle", str! "proxy-bin", str! "primary", str! "/w/target/debug/foo.orig", str! "a b", str! "$c"],
    .bin exInfo.crate (str! "/w/target/debug/foo.orig") [str! "a b", str! "$c"],
    by decide +kernel, by decide +kernel, by decide +kernel, rfl⟩

example : Literal (str! "/bin/cackle") ∧ Literal exInfo.output ∧ str! "/bin/cackle" ≠ origBinPath exInfo.output := by
  unfold Literal
  decide +kernel

/-- C102 is false: in a directory with a dollar sign in its name the script does not run the program. -/
theorem C102_fails : ¬ C102_Claim := by
  intro h
  obtain ⟨text, cmd, role, h1, h2, h3, h4⟩ := h (str! "/bin/cackle") { exInfo with output := str! "/w/$a/x" }
    (fun p => if p = str! "/w/$a/x" then some (str! "ELF") else none) (str! "ELF") rfl (by decide) (by decide +kernel) []
    (fun _ => []) (fun _ => true) []
  have e1 : text = script (str! "/bin/cackle") (str! "primary") (str! "/w/$a/x.orig") := by
    have : some text = some (script (str! "/bin/cackle") (str! "primary") (str! "/w/$a/x.orig")) := by
      rw [← h1]
      decide +kernel
    exact Option.some.inj this
  subst e1
  have e2 : cmd = [str! "/bin/cackle", str! "proxy-bin", str! "primary", str! "/w//x.orig"] := by
    have : some cmd = some [str! "/bin/cackle", str! "proxy-bin", str! "primary", str! "/w//x.orig"] := by
      rw [← h2]
      decide +kernel
    exact Option.some.inj this
  subst e2
  have e3 : role = .direct (str! "/w//x.orig") [] := by
    have : some role = some (.direct (str! "/w//x.orig") []) := by
      rw [← h3]
      decide +kernel
    exact Option.some.inj this
  subst e3
  rcases h4 with h4 | ⟨prog, h4, h5, _⟩
  · cases h4
  · cases h4
    revert h5
    decide +kernel

/-- Worse: a directory name can make the script run another program, here `b` instead of what is in `x`. -/
theorem C102_other_program :
    bashRuns (fun _ => true) (fun _ => []) (script (str! "/bin/cackle") (str! "primary") (str! "/w/\" \"/b")) [] =
      some [str! "/bin/cackle", str! "proxy-bin", str! "primary", str! "/w/", str! "/b"] := by
  decide +kernel

/-- A linker that fails, or a library, leaves all files as they are; the main process is told about it, and the exit status is
that of the linker. -/
theorem C102_otherwise_nothing_is_changed {exe : Str} {info : LinkInfo} {files : Str → Option Str} {code : Int}
    (h : code ≠ 0 ∨ info.shared = true) (w : Bool) :
    (proxyLinker exe info (some code) files w true).files = files ∧
    (proxyLinker exe info (some code) files w true).request = some info ∧
    (proxyLinker exe info (some code) files w true).exit = some code := by
  unfold proxyLinker
  have : ¬ (code = 0 ∧ info.shared = false) := by
    rintro ⟨h1, h2⟩
    rcases h with h | h
    · exact h h1
    · rw [h2] at h; cases h
  simp [this]

example : (proxyLinker (str! "/bin/cackle") { exInfo with shared := true } (some 0) exFiles true true).request =
    some { exInfo with shared := true } :=
  (C102_otherwise_nothing_is_changed (Or.inr rfl) true).2.1

/-! ## C103: originals are kept apart -/

/-- C103: the original is never kept under the name of the program itself, and the originals of different programs are
kept under different names. -/
theorem C103_originals_are_kept_apart (p q : Str) : origBinPath p ≠ p ∧ (p ≠ q → origBinPath p ≠ origBinPath q) :=
  ⟨origBinPath_ne p, fun h e => h (origBinPath_inj e)⟩

/-- C103: linking another program keeps the script and the original of the first one, unless one of the two programs is
named like the original of the other. -/
theorem C103_linking_keeps_other_programs {exe : Str} {info : LinkInfo} {status : Option Int} {files : Str → Option Str}
    {w a : Bool} {p : Str} (h1 : p ≠ info.output) (h2 : p ≠ origBinPath info.output) (h3 : origBinPath p ≠ info.output) :
    (proxyLinker exe info status files w a).files p = files p ∧
    (proxyLinker exe info status files w a).files (origBinPath p) = files (origBinPath p) := by
  have h4 : origBinPath p ≠ origBinPath info.output := fun e => h1 (origBinPath_inj e)
  unfold proxyLinker
  repeat' split
  all_goals simp [put, h1, h2, h3, h4]

example : origBinPath (str! "/w/foo") = str! "/w/foo.orig" ∧ origBinPath (str! "/w/foo.exe") = str! "/w/foo.orig.exe" ∧
    origBinPath (str! "/w/foo.orig") = str! "/w/foo.orig.orig" ∧ origBinPath (str! "/w.d/foo") = str! "/w.d/foo.orig" := by
  decide +kernel

example : (proxyLinker (str! "/c") exInfo (some 0) exFiles true true).files (str! "/w/target/debug/bar") =
    exFiles (str! "/w/target/debug/bar") :=
  (C103_linking_keeps_other_programs (by decide +kernel) (by decide +kernel) (by decide +kernel)).1

/-! ## C104: roles -/

/-- C104: a process that is started during the build is never a second main process; if cargo runs it as a wrapper of
`rustc`, it wraps `rustc`; if it acts as linker, it reports the output file that follows the first `-o` and whether a shared
library is linked; and outside of a
build, arguments that do not start with `proxy-bin` are those of the user. -/
theorem C104_roles (env : AMap Str Str) (args : List Str) :
    ((AMap.get? env envSocket).getD [] ≠ [] →
      (∀ us, role env args ≠ .cackle us) ∧
      (∀ prog us, role env args ≠ .direct prog us) ∧
      (∀ dir rest, (dir = [] ∨ ∃ d, dir = d ++ ['/']) → args = (dir ++ str! "rustc") :: rest → role env args = .rustc) ∧
      (∀ info, role env args = .linker info →
        (∃ pre post, args = pre ++ str! "-o" :: info.output :: post ∧ str! "-o" ∉ pre) ∧
        (info.shared = true ↔ str! "-shared" ∈ args))) ∧
    ((AMap.get? env envSocket).getD [] = [] → args.head? ≠ some (str! "proxy-bin") → role env args = .cackle args) := by
  have hout : ∀ {args out}, outputFile args = some out → ∃ pre post, args = pre ++ str! "-o" :: out :: post ∧
      str! "-o" ∉ pre := by
    intro args out
    induction args with
    | nil => intro h; cases h
    | cons a rest ih =>
      intro h
      cases rest with
      | nil => cases h
      | cons b rest =>
        rw [outputFile] at h
        split at h
        · rename_i e
          cases h
          exact ⟨[], rest, by rw [e]; rfl, by simp⟩
        · rename_i e
          obtain ⟨pre, post, h1, h2⟩ := ih h
          refine ⟨a :: pre, post, by rw [h1]; rfl, ?_⟩
          simp only [List.mem_cons, not_or]
          exact ⟨fun x => e x.symm, h2⟩
  have hfrom : ∀ {info}, fromEnv env args = some info → outputFile args = some info.output ∧
      (info.shared = true ↔ str! "-shared" ∈ args) := by
    intro info h
    unfold fromEnv at h
    split at h
    · rename_i h2
      cases h
      exact ⟨h2, decide_eq_true_iff⟩
    · cases h
  refine ⟨fun hs => ?_, fun hs hh => ?_⟩
  · unfold role
    rw [if_pos hs]
    refine ⟨?_, ?_, ?_, ?_⟩
    · intro us h
      unfold wrapperRole at h
      repeat' split at h
      all_goals cases h
    · intro prog us h
      unfold wrapperRole at h
      repeat' split at h
      all_goals cases h
    · rintro dir rest hd rfl
      have hl := pathOf_last (name := str! "rustc") hd (by decide) (by decide) (by decide)
      simp only [wrapperRole]
      rw [if_neg, if_pos]
      · simp only [isPathToRustc, hl]
        simp
      · intro e
        have := congrArg List.getLast? e
        rw [List.getLast?_append] at this
        exact absurd this (by simp [proxyBinArg])
    · intro info h
      unfold wrapperRole at h
      repeat' split at h
      all_goals first | cases h; done | skip
      all_goals
        obtain ⟨hf1, hf2⟩ := hfrom (by assumption)
        cases h
        exact ⟨hout hf1, hf2⟩
  · unfold role
    rw [if_neg (by simpa using hs), if_neg (show ¬ args.head? = some proxyBinArg from hh)]

/-- **C104 (linking).** In a build of cackle, a process that is told where to write its output and whose first argument names
neither the compiler nor `proxy-bin` links that output, for the crate that the environment names. -/
theorem C104_linker (env : AMap Str Str) (dir name : Str) (pre post rest : List Str) (output : Str) (crate : CrateSel)
    (hs : (AMap.get? env envSocket).getD [] ≠ []) (hc : crateFromEnv env = some crate)
    (hd : dir = [] ∨ ∃ d, dir = d ++ ['/']) (hn : '/' ∉ name) (hn1 : name ≠ []) (hn2 : name ≠ str! ".") (hr : name ≠ str! "rustc")
    (hp : dir ++ name ≠ str! "proxy-bin") (ha : (dir ++ name) :: rest = pre ++ str! "-o" :: output :: post) (ho : str! "-o" ∉ pre) :
    ∃ info, role env ((dir ++ name) :: rest) = .linker info ∧ info.crate = crate ∧ info.output = output := by
  have hout : ∀ pre : List Str, str! "-o" ∉ pre → outputFile (pre ++ str! "-o" :: output :: post) = some output := by
    intro pre
    induction pre with
    | nil => intro _; rw [List.nil_append, outputFile, if_pos rfl]
    | cons a pre ih =>
      intro h
      simp only [List.mem_cons, not_or] at h
      cases pre with
      | nil =>
        rw [List.cons_append, List.nil_append, outputFile, if_neg (fun e => h.1 e.symm)]
        exact ih h.2
      | cons b pre =>
        rw [List.cons_append, List.cons_append, outputFile, if_neg (fun e => h.1 e.symm)]
        exact ih h.2
  refine ⟨⟨crate, ((dir ++ name) :: rest).filter hasSupportedExtension, output, decide (str! "-shared" ∈ (dir ++ name) :: rest)⟩,
    ?_, rfl, rfl⟩
  have hf : fromEnv env ((dir ++ name) :: rest) =
      some ⟨crate, ((dir ++ name) :: rest).filter hasSupportedExtension, output, decide (str! "-shared" ∈ (dir ++ name) :: rest)⟩ := by
    unfold fromEnv
    rw [hc, ha, hout pre ho]
  unfold role
  rw [if_pos hs]
  simp only [wrapperRole]
  rw [if_neg (show ¬ dir ++ name = proxyBinArg from hp), if_neg, hf]
  simp only [isPathToRustc, pathOf_last hd hn hn1 hn2]
  simpa using hr

example : role exEnv exArgs = .linker exInfo ∧ role exEnv [str! "/usr/bin/rustc", str! "-vV"] = .rustc ∧
    role [] [str! "check"] = .cackle [str! "check"] ∧
    role exEnv [str! "proxy-bin", str! "test", str! "/p", str! "x"] =
      .bin ⟨exInfo.crate.pkgId, .test⟩ (str! "/p") [str! "x"] := by
  decide +kernel

end Cackle.Link
