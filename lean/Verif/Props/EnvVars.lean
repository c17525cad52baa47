import Verif.Props.Sandbox
import Verif.Props.Identity

/-!
# C35, C62: variables set by build scripts reach the sandboxed rustc
-/

namespace Cackle.Sandboxing
open Cackle Config Perm BuildScript Identity

/-! ## Specification -/

/-- The line sets variable `n`. -/
def Declares (line n : Str) : Prop := '=' ∉ n ∧ ∃ value, line = str! "cargo:rustc-env=" ++ n ++ '=' :: value

/-- Runs of build scripts, in order, with their standard output. -/
abbrev Runs := List (Package × Option Str)

/-- The files after the runs. -/
def filesAfter (perms : PermMap) (pkgs : List Package) (files : AMap Str Str) (runs : Runs) : AMap Str Str :=
  runs.foldl (fun fs r => recordRun perms fs ⟨indexId pkgs r.1, .buildScript⟩ r.2) files

/-! ## Lemmas -/

theorem beforeEquals_iff {s n : Str} : beforeEquals s = some n ↔ '=' ∉ n ∧ ∃ v, s = n ++ '=' :: v := by
  induction s generalizing n with
  | nil => simp [beforeEquals]
  | cons c s ih =>
    unfold beforeEquals
    split
    · rename_i hc
      subst hc
      constructor
      · intro h
        simp only [Option.some.injEq] at h
        subst h
        exact ⟨by simp, s, rfl⟩
      · rintro ⟨h1, v, h2⟩
        cases n with
        | nil => rfl
        | cons a n =>
          simp only [List.cons_append, List.cons.injEq] at h2
          exact absurd (h2.1 ▸ List.mem_cons_self) h1
    · rename_i hc
      rw [Option.map_eq_some_iff]
      constructor
      · rintro ⟨m, h, rfl⟩
        obtain ⟨h1, v, rfl⟩ := ih.mp h
        refine ⟨?_, v, rfl⟩
        simp only [List.mem_cons, not_or]
        exact ⟨fun e => hc e.symm, h1⟩
      · rintro ⟨h1, v, h2⟩
        cases n with
        | nil =>
          simp only [List.nil_append, List.cons.injEq] at h2
          exact absurd h2.1 hc
        | cons a n =>
          simp only [List.cons_append, List.cons.injEq] at h2
          obtain ⟨rfl, rfl⟩ := h2
          simp only [List.mem_cons, not_or] at h1
          exact ⟨n, ih.mpr ⟨h1.2, v, rfl⟩, rfl⟩

theorem envVar_iff {line n : Str} : envVar line = some n ↔ Declares line n := by
  unfold envVar Declares
  rw [Option.bind_eq_some_iff]
  constructor
  · rintro ⟨r, h1, h2⟩
    obtain ⟨h3, v, rfl⟩ := beforeEquals_iff.mp h2
    exact ⟨h3, v, by rw [stripPrefix_eq.mp h1, List.append_assoc]⟩
  · rintro ⟨h1, v, rfl⟩
    exact ⟨n ++ '=' :: v, stripPrefix_eq.mpr (by rw [List.append_assoc]), beforeEquals_iff.mpr ⟨h1, v, rfl⟩⟩

theorem splitChar_joinLines {ns : List Str} (hne : ns ≠ []) (h : ∀ n ∈ ns, '\n' ∉ n) :
    splitChar '\n' (joinWith (str! "\n") ns) = ns := by
  induction ns with
  | nil => exact absurd rfl hne
  | cons a rest ih =>
    cases rest with
    | nil => exact splitChar_last (h a (by simp))
    | cons b rest =>
      have := ih (by simp) (fun n hn => h n (by simp [hn]))
      simp only [joinWith, List.append_assoc, List.cons_append, List.nil_append]
      rw [splitChar_line (h a (by simp)), this]

theorem mem_read {ns : List Str} (h : ∀ n ∈ ns, '\n' ∉ n) {n : Str} :
    n ∈ (splitChar '\n' (joinWith (str! "\n") ns)).filter (fun l => l ≠ []) ↔ n ≠ [] ∧ n ∈ ns := by
  by_cases hne : ns = []
  · subst hne
    simp [joinWith, splitChar]
  · rw [splitChar_joinLines hne h]
    simp [and_comm]

/-- A name has no `[`. -/
def NoBracket (pkgs : List Package) : Prop := ∀ q ∈ pkgs, '[' ∉ q.name

theorem takeWhile_display {n v : Str} (h : '[' ∉ n) : (n ++ str! "[" ++ v).takeWhile (· ≠ '[') = n := by
  induction n with
  | nil => simp
  | cons a n ih =>
    simp only [List.mem_cons, not_or] at h
    have ha : a ≠ '[' := fun e => h.1 e.symm
    simp only [List.cons_append, List.takeWhile_cons, ha, ne_eq, not_false_eq_true, decide_true, if_true]
    rw [ih h.2]

theorem display_injective {pkgs : List Package} (hb : NoBracket pkgs) {p q : Package} (hp : p ∈ pkgs)
    (hq : q ∈ pkgs) (h : display (indexId pkgs p) = display (indexId pkgs q)) : p = q := by
  have hname : ∀ r : Package, (indexId pkgs r).name = r.name := fun _ => rfl
  have hver : ∀ r : Package, (indexId pkgs r).version = r.version := fun _ => rfl
  unfold display at h
  simp only [hname, hver] at h
  cases up : (indexId pkgs p).nameIsUnique <;> cases uq : (indexId pkgs q).nameIsUnique <;>
    simp only [up, uq, if_true, if_false, Bool.false_eq_true, List.append_nil] at h
  · have h1 := congrArg (List.takeWhile (· ≠ '[')) h
    rw [← List.append_assoc, ← List.append_assoc, ← List.append_assoc, ← List.append_assoc] at h1
    rw [List.append_assoc (_ ++ _), List.append_assoc (_ ++ _)] at h1
    rw [takeWhile_display (hb p hp), takeWhile_display (hb q hq)] at h1
    rw [h1, List.append_cancel_left_eq] at h
    have h2 : p.version = q.version := by
      have := h
      simp only [List.append_assoc, List.cons_append, List.nil_append, List.cons.injEq, true_and] at this
      exact (List.append_inj' this rfl).1
    cases p; cases q; simp_all
  · exfalso
    exact hb q hq (h ▸ by simp)
  · exfalso
    exact hb p hp (h.symm ▸ by simp)
  · have h1 := ((indexId_isId hp).2.2.mp up)
    unfold Unique at h1
    have : q ∈ pkgs.filter (fun r => r.name = p.name) := by simp [hq, h]
    rw [h1] at this
    exact (List.mem_singleton.mp this).symm

theorem get?_record_other {perms : PermMap} {pkgs : List Package} (hb : NoBracket pkgs) {p : Package}
    (hp : p ∈ pkgs) {runs : Runs} (hr : ∀ r ∈ runs, r.1 ∈ pkgs) (hne : ∀ r ∈ runs, r.1 ≠ p)
    (files : AMap Str Str) :
    (filesAfter perms pkgs files runs).get? (display (indexId pkgs p)) =
      files.get? (display (indexId pkgs p)) := by
  induction runs generalizing files with
  | nil => rfl
  | cons r runs ih =>
    unfold filesAfter at ih ⊢
    rw [List.foldl_cons, ih (fun r hr' => hr r (by simp [hr'])) (fun r hr' => hne r (by simp [hr']))]
    unfold recordRun varsFile
    rw [AMap.get?_insert, if_neg]
    intro e
    exact hne r (by simp) (display_injective hb (hr r (by simp)) hp e)

/-! ## C35 -/

/-- **C35, recording.** After any sequence of build script runs of the packages of a workspace, in which
the last run of `p` printed the given text, the names read for `p`'s compilations are exactly the
non-empty names that text declares, whatever other packages printed. -/
theorem C35_recorded (perms : PermMap) (pkgs : List Package) (hb : NoBracket pkgs) (files : AMap Str Str)
    (before after : Runs) (p : Package) (hp : p ∈ pkgs) (ls : List (Str × Bool)) (rest : Str)
    (hls : ∀ l ∈ ls, '\n' ∉ l.1) (hcr : ∀ l ∈ ls, l.2 = false → l.1.getLast? ≠ some '\r')
    (hrest : '\n' ∉ rest) (hafter : ∀ r ∈ after, r.1 ∈ pkgs ∧ r.1 ≠ p) (kind : CrateKind) (n : Str) :
    n ∈ readVars (filesAfter perms pkgs files (before ++ (p, some (text ls rest)) :: after))
        ⟨indexId pkgs p, kind⟩ ↔
      n ≠ [] ∧ ∃ line ∈ ls.map Prod.fst ++ [rest], Declares line n := by
  unfold readVars
  have hsplit : filesAfter perms pkgs files (before ++ (p, some (text ls rest)) :: after) =
      filesAfter perms pkgs (recordRun perms (filesAfter perms pkgs files before)
        ⟨indexId pkgs p, .buildScript⟩ (some (text ls rest))) after := by
    simp [filesAfter]
  rw [hsplit, get?_record_other hb hp (fun r hr => (hafter r hr).1) (fun r hr => (hafter r hr).2)]
  unfold recordRun varsFile
  rw [AMap.get?_insert, if_pos rfl]
  simp only [build, lines_text ls rest hls hcr hrest]
  have hmem : ∀ m, m ∈ (ls.map Prod.fst ++ (if rest = [] then [] else [rest])).filterMap envVar ↔
      ∃ line ∈ ls.map Prod.fst ++ [rest], Declares line m := by
    intro m
    rw [List.mem_filterMap]
    constructor
    · rintro ⟨l, hl, h⟩
      refine ⟨l, ?_, envVar_iff.mp h⟩
      rcases List.mem_append.mp hl with hl | hl
      · exact List.mem_append_left _ hl
      · split at hl
        · simp at hl
        · exact List.mem_append_right _ hl
    · rintro ⟨l, hl, h⟩
      refine ⟨l, ?_, envVar_iff.mpr h⟩
      rcases List.mem_append.mp hl with hl | hl
      · exact List.mem_append_left _ hl
      · have hne : rest ≠ [] := by
          intro e
          rw [List.mem_singleton] at hl
          obtain ⟨-, v, h⟩ := h
          rw [hl, e] at h
          simp at h
        rw [if_neg hne]
        exact List.mem_append_right _ hl
  rw [mem_read, hmem]
  intro m hm
  obtain ⟨l, hl, -, v, h⟩ := (hmem m).mp hm
  have hl' : '\n' ∉ l := by
    rcases List.mem_append.mp hl with hl | hl
    · obtain ⟨x, hx, rfl⟩ := List.mem_map.mp hl
      exact hls x hx
    · rw [List.mem_singleton.mp hl]; exact hrest
  intro hnl
  apply hl'
  rw [h]
  simp [hnl]

/-- What is passed on to the compiler has inside the sandbox the value that it has outside. -/
theorem rustc_env (w : World) (cfg : Sandbox) (inp : RustcInputs) (exe : Str) (args : List Str)
    (extra : List Op) (hx : ∀ o ∈ extra, OkOp o) (he : cfg.extraArgs = extra.flatMap enc)
    (h : forRustc w cfg inp exe = some (some args)) (vars : List (Str × Option Str)) (prog : Str)
    (pargs : List Str) (v x : Str)
    (hv : v ∈ [str! "CACKLE_SOCKET_PATH", str! "CACKLE_CONFIG_PATH", envMultiple] ∨ v ∈ inp.buildScriptEnv)
    (hval : w.env.get? v = some x) (hvars : ∀ e ∈ vars, e.1 ≠ v) :
    ∃ ops, parse (command args vars prog pargs) = some (ops, prog :: pargs) ∧
      (envOf w.env ops).get? v = some x := by
  obtain ⟨home, manifest, -, -, hp⟩ := rustc_ops hx he h
  refine ⟨_, hp vars prog pargs, ?_⟩
  rw [← List.append_assoc, List.append_assoc _ (rustcTailO w inp exe), envOf_append]
  apply envOf_keeps
  · intro o ho
    rcases List.mem_append.mp ho with ho | ho
    · rcases mem_rustcTailO ho with ⟨d, -, -, rfl⟩ | ⟨d, -, rfl⟩ | ⟨u, y, h1, rfl, -⟩
      · exact Or.inl (Or.inr ⟨by simp, by simp, by simp⟩)
      · exact Or.inl (Or.inr ⟨by simp, by simp, by simp⟩)
      · by_cases hu : u = v
        · subst hu
          rw [hval, Option.some.injEq] at h1
          rw [h1]; exact Or.inr rfl
        · refine Or.inl (Or.inl ⟨by simp, ?_⟩)
          intro e
          simp only [List.head?_cons, Option.some.injEq] at e
          exact hu e
    · rcases mem_tailOps ho with rfl | rfl | ⟨u, y, h1, rfl⟩ | ⟨u, h1, rfl⟩
      · exact Or.inl (Or.inr ⟨by simp, by simp, by simp⟩)
      · exact Or.inl (Or.inr ⟨by simp, by simp, by simp⟩)
      · refine Or.inl (Or.inl ⟨by simp, ?_⟩)
        intro e
        simp only [List.head?_cons, Option.some.injEq] at e
        exact hvars _ h1 e
      · refine Or.inl (Or.inl ⟨by simp, ?_⟩)
        intro e
        simp only [List.head?_cons, Option.some.injEq] at e
        exact hvars _ h1 e
  · left
    apply List.mem_append_left
    unfold rustcTailO
    apply List.mem_append_left
    rcases hv with hv | hv
    · apply List.mem_append_left
      apply List.mem_append_right
      exact List.mem_flatMap.mpr ⟨v, hv, mem_passEnvO.mpr ⟨x, hval, rfl⟩⟩
    · apply List.mem_append_right
      exact List.mem_flatMap.mpr ⟨v, hv, mem_passEnvO.mpr ⟨x, hval, rfl⟩⟩

/-- **C35, reaching the compiler.** Each recorded variable has inside the sandbox the value cargo gave it
outside, unless cackle itself sets a variable of that name for the compiler. -/
theorem C35_reaches (w : World) (cfg : Sandbox) (inp : RustcInputs) (exe : Str) (args : List Str)
    (extra : List Op) (hx : ∀ o ∈ extra, OkOp o) (he : cfg.extraArgs = extra.flatMap enc)
    (h : forRustc w cfg inp exe = some (some args)) (vars : List (Str × Option Str)) (prog : Str)
    (pargs : List Str) (v x : Str) (hv : v ∈ inp.buildScriptEnv) (hval : w.env.get? v = some x)
    (hvars : ∀ e ∈ vars, e.1 ≠ v) :
    ∃ ops, parse (command args vars prog pargs) = some (ops, prog :: pargs) ∧
      (envOf w.env ops).get? v = some x :=
  rustc_env w cfg inp exe args extra hx he h vars prog pargs v x (Or.inr hv) hval hvars

private def exWorld : World :=
  { env := [(str! "HOME", str! "/h"), (str! "CARGO_MANIFEST_DIR", str! "/h/p"), (str! "FOO", str! "1")]
    pathExists := fun _ => true, isDir := fun _ => true, mkdir := fun _ => true }

/-- Non-vacuity of `C35_reaches`: a world in which the build script set `FOO`. -/
example : ∃ args, forRustc exWorld { kind := some .bubblewrap }
      { outputDirs := [], inputDirs := [], buildScriptEnv := [str! "FOO"] } (str! "/cackle") = some (some args) ∧
    ∃ ops, parse (command args [(str! "CACKLE_CRATE_KIND", some (str! "primary"))] (str! "rustc") []) =
        some (ops, [str! "rustc"]) ∧ (envOf exWorld.env ops).get? (str! "FOO") = some (str! "1") := by
  obtain ⟨args, h⟩ : ∃ args, forRustc exWorld { kind := some .bubblewrap }
      { outputDirs := [], inputDirs := [], buildScriptEnv := [str! "FOO"] } (str! "/cackle") =
        some (some args) := ⟨_, rfl⟩
  exact ⟨args, h, C35_reaches exWorld { kind := some .bubblewrap } _ _ args [] (by simp) rfl h
    [(str! "CACKLE_CRATE_KIND", some (str! "primary"))] _ _ (str! "FOO") (str! "1") (by simp)
    (by decide +kernel) (by decide)⟩

/-- Non-vacuity of `C35_recorded`: two packages; the second prints an instruction and an ordinary line. -/
example : str! "FOO" ∈ readVars
    (filesAfter [] [⟨str! "a", str! "1"⟩, ⟨str! "b", str! "1"⟩] []
      ([] ++ (⟨str! "b", str! "1"⟩, some (text [(str! "hello", false), (str! "cargo:rustc-env=FOO=1=2", true)] [])) ::
        [(⟨str! "a", str! "1"⟩, some (text [(str! "cargo:rustc-env=BAR=1", false)] []))]))
    ⟨indexId [⟨str! "a", str! "1"⟩, ⟨str! "b", str! "1"⟩] ⟨str! "b", str! "1"⟩, .primary⟩ :=
  (C35_recorded [] _ (by unfold NoBracket; decide) [] [] _ _ (by decide) _ [] (by decide) (by decide) (by decide)
    (by decide) .primary _).mpr
    ⟨by decide, str! "cargo:rustc-env=FOO=1=2", by decide, by decide, str! "1=2", rfl⟩

/-! ## C62: both spellings of the instruction -/

/-- Cargo sets variable `n` for the compiler because of this line (cargo accepts both spellings). -/
def CargoSets (line n : Str) : Prop :=
  '=' ∉ n ∧ n ≠ [] ∧ ∃ value, line = str! "cargo:rustc-env=" ++ n ++ '=' :: value ∨
    line = str! "cargo::rustc-env=" ++ n ++ '=' :: value

/-- The English claim C62. -/
def C62_Claim : Prop :=
  ∀ (perms : PermMap) (pkgs : List Package) (files : AMap Str Str) (p : Package) (line n : Str),
    NoBracket pkgs → p ∈ pkgs → '\n' ∉ line → CargoSets line n →
    n ∈ readVars (filesAfter perms pkgs files [(p, some (text [(line, false)] []))]) ⟨indexId pkgs p, .primary⟩

/-- **C62, disagreement.** A variable set with the newer spelling `cargo::rustc-env` is not made available. -/
theorem C62_new_spelling_ignored : ¬ C62_Claim := by
  intro h
  have := h [] [⟨str! "a", str! "1"⟩] [] ⟨str! "a", str! "1"⟩ (str! "cargo::rustc-env=FOO=1") (str! "FOO")
    (by unfold NoBracket; decide) (by decide) (by decide) ⟨by decide, by decide, str! "1", Or.inr rfl⟩
  revert this
  decide +kernel

/-- **C62 (the older spelling).** Missing: the newer spelling, for which the claim is false. -/
theorem C62_old_spelling_partial (perms : PermMap) (pkgs : List Package) (files : AMap Str Str) (p : Package)
    (line n : Str) (hb : NoBracket pkgs) (hp : p ∈ pkgs) (hl : '\n' ∉ line) (hcr : line.getLast? ≠ some '\r')
    (hs : CargoSets line n) (hold : ¬ str! "cargo::" <+: line) :
    n ∈ readVars (filesAfter perms pkgs files [(p, some (text [(line, false)] []))])
      ⟨indexId pkgs p, .primary⟩ := by
  obtain ⟨h1, h2, v, h3⟩ := hs
  refine (C35_recorded perms pkgs hb files [] [] p hp [(line, false)] [] (by simpa using hl)
    (by simpa using hcr) (by simp) (by simp) .primary n).mpr ⟨h2, line, by simp, h1, v, ?_⟩
  rcases h3 with h3 | h3
  · exact h3
  · exfalso
    apply hold
    rw [h3]
    exact ⟨str! "rustc-env=" ++ n ++ '=' :: v, by simp⟩

end Cackle.Sandboxing
