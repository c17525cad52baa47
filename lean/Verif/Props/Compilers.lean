import Verif.Props.BuildDir
import Verif.Props.Products

/-!
# C179: packages are compiled only through cackle

Specification of cargo: which programs it starts to compile code. Most of them are compilers, in front of which it puts the wrappers that
are set; the examples in the documentation of libraries are left to `rustdoc`, which has no wrapper, and which compiles, links and
runs them by itself.
-/

namespace Cackle.Compilers
open Cackle Cargo Perm Link BuildDir

/-! ## Specification of cargo -/

/-- A program that cargo uses: its variable, then the setting. -/
def tool (c : Cmd) (site : Site) (key variable_ : Str) : Option Str :=
  (AMap.get? c.env variable_).or (valueOf c site [str! "build", key] (str! "CARGO_BUILD_" ++ variable_))

/-- A wrapper: the empty text means that there is none. -/
def wrapper (c : Cmd) (site : Site) (key variable_ : Str) : List Str :=
  (tool c site key variable_).toList.filter (fun p => p ≠ [])

/-- The command with which a crate is compiled; `member` is whether it belongs to the workspace. -/
def compile (c : Cmd) (site : Site) (member : Bool) (args : List Str) : List Str :=
  wrapper c site (str! "rustc-wrapper") (str! "RUSTC_WRAPPER") ++
    (if member then wrapper c site (str! "rustc-workspace-wrapper") (str! "RUSTC_WORKSPACE_WRAPPER") else []) ++
    (tool c site (str! "rustc") (str! "RUSTC")).getD (str! "rustc") :: args

/-- Options that say which targets are meant. -/
def selecting : List Str :=
  [str! "--lib", str! "--bins", str! "--bin", str! "--examples", str! "--example", str! "--tests", str! "--test", str! "--benches",
   str! "--bench", str! "--all-targets"]

/-- Whether cargo runs the examples in the documentation: for `cargo test`, unless it is told to run nothing or which targets to test. -/
def runsExamples (w : View) : Bool :=
  w.others.head? = some (str! "test") && !(w.others.contains (str! "--no-run")) && !(w.others.any (fun a => selecting.contains a)) &&
    !(w.opts.any (fun o => selecting.contains o.1))

/-- The commands with which cargo has the examples in the documentation of these libraries compiled and run. -/
def examples (c : Cmd) (site : Site) (libs : List (List Str)) : List (List Str) :=
  if runsExamples (view c.args) then
    libs.map (fun args => (tool c site (str! "rustdoc") (str! "RUSTDOC")).getD (str! "rustdoc") :: str! "--test" :: args)
  else []

/-! ## The claim -/

/-- The command runs cackle, as a wrapper of the compiler, whatever else cargo puts into the environment. -/
def Through (exe : Str) (env : AMap Str Str) (argv : List Str) : Prop :=
  ∃ rest, argv = exe :: rest ∧
    ∀ env', AMap.get? env' (str! "CACKLE_SOCKET_PATH") = AMap.get? env (str! "CACKLE_SOCKET_PATH") → role env' rest = .rustc

/-- The English claim C179: whatever cargo starts to compile code of packages is cackle, and cackle wraps the compiler. -/
def C179_Claim : Prop :=
  ∀ (site : Site) (dir target : Str) (args : Args) (config : Common) (su : Setup) (menv : AMap Str Str), su.socket ≠ [] → su.exe ≠ [] →
    let c := buildCommand dir target args config su menv
    (∀ member as, Through su.exe c.env (compile c site member as)) ∧
    ∀ libs, ∀ argv ∈ examples c site libs, Through su.exe c.env argv

/-! ## Lemmas -/

theorem wrapper_first {site : Site} {dir target : Str} {args : Args} {config : Common} {su : Setup} {menv : AMap Str Str} (he : su.exe ≠ []) :
    wrapper (buildCommand dir target args config su menv) site (str! "rustc-wrapper") (str! "RUSTC_WRAPPER") = [su.exe] := by
  have : AMap.get? (buildCommand dir target args config su menv).env (str! "RUSTC_WRAPPER") = some su.exe := by
    unfold buildCommand command
    simp only [AMap.get?_erase, AMap.get?_insert]
    rfl
  unfold wrapper tool
  rw [this]
  simp [he]

theorem socket {dir target : Str} {args : Args} {config : Common} {su : Setup} {menv : AMap Str Str} (hs : su.socket ≠ []) :
    (AMap.get? (buildCommand dir target args config su menv).env (str! "CACKLE_SOCKET_PATH")).getD [] ≠ [] := by
  have : AMap.get? (buildCommand dir target args config su menv).env (str! "CACKLE_SOCKET_PATH") = some su.socket := by
    unfold buildCommand command
    simp only [AMap.get?_erase, AMap.get?_insert]
    rfl
  rw [this]
  exact hs

/-- More arguments do not make cargo see less. -/
theorem view_more (xs ys : List Str) :
    (∀ a ∈ (view xs).others, a ∈ (view (xs ++ ys)).others) ∧ (∀ o ∈ (view xs).opts, o ∈ (view (xs ++ ys)).opts) := by
  induction xs using view.induct with
  | case1 => exact ⟨fun _ h => (by cases h), fun _ h => (by cases h)⟩
  | case2 => exact ⟨fun _ h => (by cases h), fun _ h => (by cases h)⟩
  | case3 a h1 h2 =>
    rw [view, if_neg h1, if_pos h2]
    exact ⟨fun _ h => (by cases h), fun _ h => (by cases h)⟩
  | case4 a h1 h2 h3 =>
    have : view ([a] ++ ys) = View.opt (a.takeWhile (· ≠ '=')) ((a.dropWhile (· ≠ '=')).drop 1) (view ys) := by
      cases ys with
      | nil => show view [a] = View.opt _ _ {}; rw [view, if_neg h1, if_neg h2, if_pos h3]
      | cons y ys => rw [List.singleton_append, view, if_neg h1, if_neg h2, if_pos h3]
    rw [this, view, if_neg h1, if_neg h2, if_pos h3]
    refine ⟨fun _ h => (by cases h), fun o h => ?_⟩
    rw [List.mem_singleton.mp h]
    exact List.mem_cons_self
  | case5 a h1 h2 h3 =>
    have : view ([a] ++ ys) = View.other a (view ys) := by
      cases ys with
      | nil => show view [a] = View.other _ {}; rw [view, if_neg h1, if_neg h2, if_neg h3]
      | cons y ys => rw [List.singleton_append, view, if_neg h1, if_neg h2, if_neg h3]
    rw [this, view, if_neg h1, if_neg h2, if_neg h3]
    refine ⟨fun o h => ?_, fun _ h => (by cases h)⟩
    rw [List.mem_singleton.mp h]
    exact List.mem_cons_self
  | case6 b rest =>
    exact ⟨fun _ h => (by cases h), fun _ h => (by cases h)⟩
  | case7 a b rest h1 h2 ih =>
    rw [List.cons_append, List.cons_append, view, view, if_neg h1, if_pos h2, if_neg h1, if_pos h2]
    refine ⟨ih.1, fun o h => ?_⟩
    rcases List.mem_cons.mp h with rfl | h
    · exact List.mem_cons_self
    · exact List.mem_cons_of_mem _ (ih.2 o h)
  | case8 a b rest h1 h2 h3 ih =>
    rw [List.cons_append, List.cons_append, view, view, if_neg h1, if_neg h2, if_pos h3, if_neg h1, if_neg h2, if_pos h3]
    refine ⟨ih.1, fun o h => ?_⟩
    rcases List.mem_cons.mp h with rfl | h
    · exact List.mem_cons_self
    · exact List.mem_cons_of_mem _ (ih.2 o h)
  | case9 a b rest h1 h2 h3 ih =>
    rw [List.cons_append, List.cons_append, view, view, if_neg h1, if_neg h2, if_neg h3, if_neg h1, if_neg h2, if_neg h3]
    refine ⟨fun o h => ?_, ih.2⟩
    rcases List.mem_cons.mp h with rfl | h
    · exact List.mem_cons_self
    · exact List.mem_cons_of_mem _ (ih.1 o h)

theorem view_whole (dir target : Str) (args : Args) (config : Common) (su : Setup) (menv : AMap Str Str) :
    ∃ rest, view (buildCommand dir target args config su menv).args =
      (view (start (str! "build") args)).append ((View.opt (str! "--profile") (profileName args config) {}).append
        (view (extraArgs args ++ rest))) := by
  have hp : view [str! "--profile", profileName args config] = View.opt (str! "--profile") (profileName args config) {} :=
    view_opt (by decide) (by decide) _
  have hpc : Closed [str! "--profile", profileName args config] := by unfold Closed; rw [hp]; exact ⟨rfl, rfl⟩
  rw [buildCommand_args, view_append _ _ (closed_start (Or.inl rfl) args), view_append _ _ hpc, hp]
  exact ⟨_, rfl⟩

theorem head_whole (dir target : Str) (args : Args) (config : Common) (su : Setup) (menv : AMap Str Str) :
    (view (buildCommand dir target args config su menv).args).others.head? = some (wantedSubcommand args) := by
  obtain ⟨rest, h⟩ := view_whole dir target args config su menv
  rw [h, view_start (Or.inl rfl)]
  show some (subcommand (str! "build") args) = _
  unfold subcommand wantedSubcommand
  cases args.command with
  | none => rfl
  | some s => cases s <;> rfl

/-- **C179, first half.** Whatever is configured, cargo starts cackle each time it compiles a crate. -/
theorem C179_first (site : Site) (dir target : Str) (args : Args) (config : Common) (su : Setup) (menv : AMap Str Str) (he : su.exe ≠ [])
    (member : Bool) (as : List Str) : (compile (buildCommand dir target args config su menv) site member as).head? = some su.exe := by
  unfold compile
  rw [wrapper_first he]
  rfl

/-- The user asks for a build or a run, or for tests without running them or with an option that says which ones. -/
def NoExamples (args : Args) : Prop :=
  ∀ r, args.command = some (.test r) →
    str! "--no-run" ∈ (view r).others ∨ (∃ a ∈ (view r).others, a ∈ selecting) ∨ ∃ o ∈ (view r).opts, o.1 ∈ selecting

theorem no_examples {dir target : Str} {args : Args} {config : Common} {su : Setup} {menv : AMap Str Str} (h : NoExamples args) :
    runsExamples (view (buildCommand dir target args config su menv).args) = false := by
  cases hc : runsExamples (view (buildCommand dir target args config su menv).args) with
  | false => rfl
  | true =>
    exfalso
    simp only [runsExamples, Bool.and_eq_true, decide_eq_true_eq, head_whole, Option.some.injEq, Bool.not_eq_true', List.contains_eq_mem,
      List.any_eq_false, decide_eq_false_iff_not] at hc
    obtain ⟨⟨⟨h1, h2⟩, h3⟩, h4⟩ := hc
    obtain ⟨r, hr⟩ : ∃ r, args.command = some (.test r) := by
      unfold wantedSubcommand at h1
      split at h1
      · exact ⟨_, by assumption⟩
      · exact absurd h1 (by decide)
      · exact absurd h1 (by decide)
    have hx : extraArgs args = r := by simp [extraArgs, hr]
    obtain ⟨rest, hw⟩ := view_whole dir target args config su menv
    rw [hx] at hw
    have ho : ∀ a ∈ (view r).others, a ∈ (view (buildCommand dir target args config su menv).args).others := by
      intro a ha
      rw [hw]
      exact List.mem_append_right _ (List.mem_append_right _ ((view_more r rest).1 a ha))
    have hp : ∀ a ∈ (view r).opts, a ∈ (view (buildCommand dir target args config su menv).args).opts := by
      intro a ha
      rw [hw]
      exact List.mem_append_right _ (List.mem_append_right _ ((view_more r rest).2 a ha))
    rcases h r hr with h | ⟨a, ha, hs⟩ | ⟨o, ha, hs⟩
    · exact h2 (ho _ h)
    · exact absurd hs (h3 a (ho a ha))
    · exact absurd hs (h4 o (hp o ha))

/-- **C179 (partial).** If the compiler that cargo is told to use is called `rustc`, there is no other wrapper for the workspace, and no
examples in documentation are run, everything that is compiled is compiled through cackle. -/
theorem C179_partial (site : Site) (dir target : Str) (args : Args) (config : Common) (su : Setup) (menv : AMap Str Str)
    (hs : su.socket ≠ []) (he : su.exe ≠ []) (hx : NoExamples args)
    (hw : wrapper (buildCommand dir target args config su menv) site (str! "rustc-workspace-wrapper") (str! "RUSTC_WORKSPACE_WRAPPER") = [])
    (hr : ∃ d, (d = [] ∨ ∃ e, d = e ++ ['/']) ∧
      (tool (buildCommand dir target args config su menv) site (str! "rustc") (str! "RUSTC")).getD (str! "rustc") = d ++ str! "rustc") :
    (∀ member as, Through su.exe (buildCommand dir target args config su menv).env
      (compile (buildCommand dir target args config su menv) site member as)) ∧
    ∀ libs, examples (buildCommand dir target args config su menv) site libs = [] := by
  refine ⟨fun member as => ?_, fun libs => ?_⟩
  · obtain ⟨d, hd, hr⟩ := hr
    refine ⟨(d ++ str! "rustc") :: as, ?_, fun env' h => ((C104_roles env' _).1 (h ▸ socket hs)).2.2.1 d as hd rfl⟩
    unfold compile
    rw [wrapper_first he, hw, hr]
    cases member <;> rfl
  · unfold examples
    rw [no_examples hx]
    rfl

/-- **C179, disagreement.** A wrapper for the workspace, or a compiler of another name, is not taken for a compiler: nothing is compiled
without being checked, but cackle fails, unless an argument is `-o`: then it takes itself for a linker. -/
theorem C179_other_name (env : AMap Str Str) (hs : (AMap.get? env (str! "CACKLE_SOCKET_PATH")).getD [] ≠ []) (d name : Str) (rest : List Str)
    (hd : d = [] ∨ ∃ e, d = e ++ ['/']) (hn : '/' ∉ name) (hn1 : name ≠ []) (hn2 : name ≠ str! ".") (hr : name ≠ str! "rustc")
    (hp : d ++ name ≠ str! "proxy-bin") :
    role env ((d ++ name) :: rest) ≠ .rustc ∧ (role env ((d ++ name) :: rest) = .error ∨ str! "-o" ∈ (d ++ name) :: rest) := by
  have hf : ∀ info, fromEnv env ((d ++ name) :: rest) = some info → str! "-o" ∈ (d ++ name) :: rest := by
    intro info hi
    have key : ∀ (l : List Str) (o : Str), outputFile l = some o → str! "-o" ∈ l := by
      intro l o
      induction l with
      | nil => intro h; cases h
      | cons a l ih =>
        cases l with
        | nil => intro h; cases h
        | cons b l =>
          intro h
          rw [outputFile] at h
          split at h
          · rename_i e
            rw [e]
            exact List.mem_cons_self
          · exact List.mem_cons_of_mem _ (ih h)
    unfold fromEnv at hi
    split at hi
    · rename_i h2
      exact key _ _ h2
    · cases hi
  unfold role
  rw [if_pos (show (AMap.get? env envSocket).getD [] ≠ [] from hs)]
  simp only [wrapperRole]
  have hnr : ¬ isPathToRustc (some (d ++ name)) = true := by
    simp only [isPathToRustc, pathOf_last hd hn hn1 hn2]
    simpa using hr
  rw [if_neg (show ¬ d ++ name = proxyBinArg from hp), if_neg hnr]
  cases h : fromEnv env ((d ++ name) :: rest) with
  | none => exact ⟨(by intro h; cases h), .inl rfl⟩
  | some info => exact ⟨(by intro h; cases h), .inr (hf info h)⟩

/-- **C179, disagreement.** If the user asks for tests and does not say which ones, cargo starts `rustdoc` for each library, and not cackle:
the examples are compiled, linked with all code that they use and run without any check and outside of any sandbox. -/
theorem C179_examples (site : Site) (dir target : Str) (args : Args) (config : Common) (su : Setup) (menv : AMap Str Str) (r : List Str)
    (hc : args.command = some (.test r)) (hcl : Closed r) (hn : ¬ NoExamples args) (libs : List (List Str))
    (hd : (tool (buildCommand dir target args config su menv) site (str! "rustdoc") (str! "RUSTDOC")).getD (str! "rustdoc") ≠ su.exe) :
    (examples (buildCommand dir target args config su menv) site libs).length = libs.length ∧
    ∀ argv ∈ examples (buildCommand dir target args config su menv) site libs,
      ¬ Through su.exe (buildCommand dir target args config su menv).env argv := by
  have hx : extraArgs args = r := by simp [extraArgs, hc]
  have hfl : flags args config = [] := by simp [flags, hc]
  have hruns : runsExamples (view (buildCommand dir target args config su menv).args) = true := by
    have hv := view_build dir target args config su menv (by rw [hx]; exact hcl) (by rw [hfl]; exact ⟨rfl, rfl⟩)
    rw [hx, hfl, view_start (Or.inl rfl)] at hv
    have hn' : str! "--no-run" ∉ (view r).others ∧ (∀ a ∈ (view r).others, a ∉ selecting) ∧ ∀ o ∈ (view r).opts, o.1 ∉ selecting := by
      unfold NoExamples at hn
      rw [hc] at hn
      refine ⟨fun h => hn ?_, fun a h1 h2 => hn ?_, fun o h1 h2 => hn ?_⟩
      · intro r' e; cases e; exact .inl h
      · intro r' e; cases e; exact .inr (.inl ⟨a, h1, h2⟩)
      · intro r' e; cases e; exact .inr (.inr ⟨o, h1, h2⟩)
    have hsub : subcommand (str! "build") args = str! "test" := by simp [subcommand, hc]
    have ho : (view (buildCommand dir target args config su menv).args).others = str! "test" :: (view r).others := by
      rw [hv]
      simp [View.append, View.opt, hsub, view]
    have hp : ∀ o ∈ (view (buildCommand dir target args config su menv).args).opts, o ∈ (view r).opts ∨
        o.1 ∈ [str! "--color", str! "--config", str! "--profile", str! "-p", str! "--target", str! "--features"] := by
      intro o ho
      rw [hv] at ho
      simp only [View.append, View.opt, List.mem_append, startSettings, view, List.mem_cons, List.not_mem_nil, or_false, false_or,
        List.mem_map] at ho
      rcases ho with (h | h) | h | h | ⟨p, _, h⟩ | ⟨t, _, h⟩ | h
      · split at h
        · rw [List.mem_singleton.mp h]; exact .inr (by simp)
        · cases h
      · rcases h with h | h | h | h | h <;> (rw [h]; exact .inr (by simp))
      · rw [h]; exact .inr (by simp)
      · exact .inl h
      · rw [← h]; exact .inr (by simp)
      · rw [← h]; exact .inr (by simp)
      · split at h
        · rw [List.mem_singleton.mp h]; exact .inr (by simp)
        · cases h
    simp only [runsExamples, Bool.and_eq_true, decide_eq_true_eq, ho, List.head?_cons, Bool.not_eq_true', List.contains_eq_mem,
      List.any_eq_false, decide_eq_false_iff_not, true_and, List.mem_cons, not_or]
    refine ⟨⟨⟨by decide, hn'.1⟩, fun a ha => ?_⟩, fun o ha => ?_⟩
    · rcases ha with rfl | ha
      · decide
      · exact hn'.2.1 a ha
    · rcases hp o ha with h | h
      · exact hn'.2.2 o h
      · have : ∀ x ∈ [str! "--color", str! "--config", str! "--profile", str! "-p", str! "--target", str! "--features"], x ∉ selecting := by
          decide
        exact this _ h
  unfold examples
  rw [if_pos hruns]
  refine ⟨by simp, ?_⟩
  intro argv ha
  obtain ⟨as, _, rfl⟩ := List.mem_map.mp ha
  rintro ⟨rest, he, _⟩
  simp only [List.cons.injEq] at he
  exact hd he.1

/-- **C179, disagreement.** `cargo acl test` compiles and runs the examples in the documentation with `rustdoc`. -/
theorem C179_refuted : ¬ C179_Claim := by
  intro h
  have h := (h { knowsBuildDir := true, workspace := str! "/w" } (str! "/w") (str! "/w/target") { command := some (.test []) } {} exSetup []
    (by decide) (by decide)).2 [[str! "src/lib.rs"]]
  have hx := C179_examples { knowsBuildDir := true, workspace := str! "/w" } (str! "/w") (str! "/w/target")
    { command := some (.test []) } {} exSetup [] [] rfl ⟨rfl, rfl⟩ (by
      intro h
      rcases h [] rfl with h | ⟨_, h, _⟩ | ⟨_, h, _⟩ <;> cases h) [[str! "src/lib.rs"]] (by decide +kernel)
  cases he : examples (buildCommand (str! "/w") (str! "/w/target") { command := some (.test []) } {} exSetup [])
      { knowsBuildDir := true, workspace := str! "/w" } [[str! "src/lib.rs"]] with
  | nil => rw [he] at hx; exact absurd hx.1 (by decide)
  | cons a l =>
    rw [he] at h hx
    exact hx.2 a List.mem_cons_self (h a List.mem_cons_self)

/-! ## Examples -/

def exHere : Site := { knowsBuildDir := true, workspace := str! "/w" }

/-- A build meets the hypotheses; cargo starts cackle with the compiler as its first argument. -/
example : NoExamples {} ∧
    compile (buildCommand (str! "/w") (str! "/w/target") {} {} exSetup []) exHere true [str! "--crate-name", str! "a"] =
      [str! "/bin/cackle", str! "rustc", str! "--crate-name", str! "a"] :=
  ⟨(by intro r h; cases h), by decide +kernel⟩

/-- So does a build for which the environment names a wrapper and a compiler: the wrapper is replaced, the compiler is not. -/
example : compile (buildCommand (str! "/w") (str! "/w/target") {} {} exSetup [(str! "RUSTC_WRAPPER", str! "sccache"),
      (str! "RUSTC", str! "/opt/bin/rustc")]) exHere true [str! "--crate-name", str! "a"] =
      [str! "/bin/cackle", str! "/opt/bin/rustc", str! "--crate-name", str! "a"] := by decide +kernel

/-- Tests of the library and of nothing else. -/
example : NoExamples { command := some (.test [str! "--lib", str! "--", str! "--nocapture"]) } ∧
    examples (buildCommand (str! "/w") (str! "/w/target") { command := some (.test [str! "--lib", str! "--", str! "--nocapture"]) } {} exSetup [])
      exHere [[str! "src/lib.rs"]] = [] := by
  have hn : NoExamples { command := some (.test [str! "--lib", str! "--", str! "--nocapture"]) } := by
    intro r h
    cases h
    exact .inr (.inl ⟨str! "--lib", by decide +kernel, by decide⟩)
  exact ⟨hn, (C179_partial exHere _ _ _ {} exSetup [] (by decide) (by decide) hn (by decide +kernel) ⟨[], .inl rfl, by decide +kernel⟩).2 _⟩

/-- All tests: the examples of the library are compiled by `rustdoc`. -/
example : examples (buildCommand (str! "/w") (str! "/w/target") { command := some (.test []) } {} exSetup []) exHere [[str! "src/lib.rs"]] =
    [[str! "rustdoc", str! "--test", str! "src/lib.rs"]] := by decide +kernel

/-- A wrapper for the workspace: cackle does not know that it wraps a compiler. -/
example : compile (buildCommand (str! "/w") (str! "/w/target") {} {} exSetup [(str! "RUSTC_WORKSPACE_WRAPPER", str! "clippy-driver")]) exHere
      true [str! "--crate-name", str! "a"] =
      [str! "/bin/cackle", str! "clippy-driver", str! "rustc", str! "--crate-name", str! "a"] ∧
    role [(str! "CACKLE_SOCKET_PATH", str! "/s")] [str! "clippy-driver", str! "rustc", str! "--crate-name", str! "a"] = .error :=
  ⟨by decide +kernel, (C179_other_name _ (by decide) [] (str! "clippy-driver") _ (.inl rfl) (by decide) (by decide) (by decide) (by decide)
    (by decide)).2.resolve_right (by decide)⟩

end Cackle.Compilers
