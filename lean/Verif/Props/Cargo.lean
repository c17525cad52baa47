import Verif.Lemmas.Cargo

/-!
# C105 to C108: how cargo is run

The vocabulary is in `Verif/Props/CargoSpec.lean`.
-/

namespace Cackle.Cargo
open Cackle Perm Identity

/-! ## C105: the options of the user are in force -/

/-- What the user asked for is what cargo is told. -/
def Obeyed (args : Args) (config : Common) (w : View) : Prop :=
  (∀ p, WantsProfile args config p → p ∈ w.values (str! "--profile")) ∧
  (∀ f, WantsFeature args config f → f ∈ w.features) ∧
  (∀ t, args.target = some t → t ∈ w.values (str! "--target")) ∧
  (∀ p ∈ args.package, p ∈ w.values (str! "-p")) ∧
  w.others = wantedSubcommand args :: (view (passedOn args config)).others ∧
  (∀ x ∈ (view (passedOn args config)).opts, x ∈ w.opts) ∧
  w.after = (view (passedOn args config)).after

/-- C105: profile, features, target, packages and flags of the user are what cargo is told, for each subcommand; the
program that is run gets its own arguments and no others. -/
def C105_Claim : Prop :=
  ∀ (dir targetDir : Str) (args : Args) (config : Common) (su : Setup) (menv : AMap Str Str),
    (∀ f ∈ config.features, FeatureName f) → Obeyed args config (view (buildCommand dir targetDir args config su menv).args)

/-- C105, partial: it holds if the arguments for `cargo test` or `cargo run`, and the flags of the config file, do not contain
`--` and do not end in an option that lacks its value. Missing: such arguments. -/
theorem C105_options_partial {dir targetDir : Str} {args : Args} {config : Common} {su : Setup} {menv : AMap Str Str}
    (hn : ∀ f ∈ config.features, FeatureName f) (he : Closed (extraArgs args)) (hf : Closed (flags args config)) :
    Obeyed args config (view (buildCommand dir targetDir args config su menv).args) := by
  have hcases : (passedOn args config = extraArgs args ∧ flags args config = [] ∧
        subcommand (str! "build") args = wantedSubcommand args) ∨
      (extraArgs args = [] ∧ passedOn args config = flags args config ∧
        subcommand (str! "build") args = wantedSubcommand args) := by
    unfold passedOn extraArgs flags subcommand wantedSubcommand
    cases args.command with
    | none => right; cases config.buildFlags <;> exact ⟨rfl, rfl, rfl⟩
    | some c => left; cases c <;> exact ⟨rfl, rfl, rfl⟩
  rw [view_build _ _ _ _ _ _ he hf]
  refine ⟨?_, ?_, ?_, ?_, ?_, ?_, ?_⟩
  · intro p hp
    rw [values_append, values_append, profile_wanted hp]
    exact List.mem_append_right _ (List.mem_append_left _ (by simp [View.values, View.opt]))
  · intro f hw
    have hfeat : f ∈ featureNames (features args config) := by
      unfold features
      rcases hw with ⟨v, h1, h2⟩ | ⟨h1, h2⟩
      · rw [h1]; exact h2
      · rw [h1, Option.getD_none, features_join hn]; exact h2
    have hne : features args config ≠ [] := by
      intro h
      rw [h] at hfeat
      simp [featureNames, splitChar] at hfeat
    unfold View.features
    simp only [values_append, List.flatMap_append, List.mem_append]
    right; right; right; right; right; right
    simp [View.values, hne, hfeat]
  · intro t ht
    simp only [values_append, List.mem_append]
    right; right; right; right; right; left
    simp [View.values, ht]
  · intro p hp
    simp only [values_append, List.mem_append]
    right; right; right; left
    simpa [View.values] using hp
  · rw [view_start (Or.inl rfl)]
    rcases hcases with ⟨h1, h2, h3⟩ | ⟨h1, h2, h3⟩
    · simp only [View.append, View.opt, h1, h2]
      rw [List.append_nil]
      simp only [h3, view, List.nil_append, List.append_nil]
      rfl
    · simp only [View.append, View.opt, h1, h2, h3, view, List.nil_append, List.append_nil]
      rfl
  · intro x hx
    rcases hcases with ⟨h1, h2, h3⟩ | ⟨h1, h2, h3⟩
    · rw [h1] at hx
      simp only [View.append, List.mem_append]
      right; right; left; exact hx
    · rw [h2] at hx
      simp only [View.append, List.mem_append]
      right; right; right; right; left; exact hx
  · rcases hcases with ⟨h1, h2, h3⟩ | ⟨h1, h2, h3⟩
    · rw [h1]; exact he.1.symm
    · rw [h2]; exact hf.1.symm

/-- C105, the other direction: in a full run whose flags set neither, the only profile is the one that was asked for, and the
only features are those that were asked for. -/
theorem C105_nothing_else {dir targetDir : Str} {args : Args} {config : Common} {su : Setup} {menv : AMap Str Str}
    (hn : ∀ f ∈ config.features, FeatureName f) (hc : args.command = none) (hf : Closed (flags args config))
    (h1 : (view (flags args config)).values (str! "--profile") = [])
    (h2 : (view (flags args config)).values (str! "--features") = []) :
    (∀ p ∈ (view (buildCommand dir targetDir args config su menv).args).values (str! "--profile"),
      WantsProfile args config p) ∧
    (∀ f ∈ (view (buildCommand dir targetDir args config su menv).args).features, WantsFeature args config f) := by
  have hx : extraArgs args = [] := by simp [extraArgs, hc]
  have he : Closed (extraArgs args) := by rw [hx]; exact ⟨rfl, rfl⟩
  rw [view_build _ _ _ _ _ _ he hf]
  refine ⟨?_, ?_⟩
  · intro p hp
    simp only [values_append, h1, hx, start_values (o := str! "--profile") (by decide) (Or.inl rfl)] at hp
    have hpk : ∀ ps : List Str, View.values { opts := ps.map (fun p => (str! "-p", p)) } (str! "--profile") = [] := by
      intro ps; simp [View.values]
    have ht : ∀ ps : List Str, View.values { opts := ps.map (fun p => (str! "--target", p)) } (str! "--profile") = [] := by
      intro ps; simp [View.values]
    have hfe : View.values { opts := if features args config ≠ [] then [(str! "--features", features args config)] else [] }
        (str! "--profile") = [] := by
      unfold View.values; split <;> simp
    rw [hpk, ht, hfe] at hp
    have hp' : p = profileName args config := by simpa [View.values, View.opt, view] using hp
    subst hp'
    unfold WantsProfile profileName
    cases args.profile <;> cases config.profile <;> simp [defaultProfile]
  · intro f hp
    unfold View.features at hp
    simp only [values_append, h2, hx, start_values (o := str! "--features") (by decide) (Or.inl rfl)] at hp
    have hpk : ∀ ps : List Str, View.values { opts := ps.map (fun p => (str! "-p", p)) } (str! "--features") = [] := by
      intro ps; simp [View.values]
    have ht : ∀ ps : List Str, View.values { opts := ps.map (fun p => (str! "--target", p)) } (str! "--features") = [] := by
      intro ps; simp [View.values]
    have hpr : View.values (View.opt (str! "--profile") (profileName args config) {}) (str! "--features") = [] := by
      simp [View.values, View.opt]
    have hem : View.values (view []) (str! "--features") = [] := rfl
    rw [hpk, ht, hpr, hem] at hp
    simp only [List.nil_append] at hp
    have hfe : f ∈ featureNames (features args config) := by
      unfold View.values at hp
      split at hp
      · simpa using hp
      · simp at hp
    unfold features at hfe
    cases hfs : args.features with
    | some v => rw [hfs] at hfe; exact Or.inl ⟨v, hfs, hfe⟩
    | none => rw [hfs, Option.getD_none, features_join hn] at hfe; exact Or.inr ⟨hfs, hfe⟩

/-- A set-up. -/
def exSetup : Setup := ⟨str! "/tmp/c/cackle.socket", str! "/tmp/c/flat.toml", str! "/r/rustc", str! "/bin/cackle", []⟩

example : (view (buildCommand (str! "/w") (str! "/w/target") { profile := some (str! "p"), package := [str! "a"] }
    { features := [str! "f", str! "g"] } exSetup []).args).features = [str! "f", str! "g"] ∧
    (buildCommand (str! "/w") (str! "/w/target") { profile := some (str! "p"), package := [str! "a"] }
      { features := [str! "f", str! "g"] } exSetup []).args.drop 11 =
        [str! "--profile", str! "p", str! "-p", str! "a", str! "--all-targets", str! "--features", str! "f,g"] := by
  decide +kernel

example : Obeyed { features := some (str! "f") , command := some (.test [str! "--lib"]) } {}
    (view (buildCommand (str! "/w") (str! "/w/target") { features := some (str! "f"), command := some (.test [str! "--lib"]) }
      {} exSetup []).args) :=
  C105_options_partial (by simp) (by unfold Closed; decide +kernel) (by unfold Closed; decide +kernel)

/-- C105 is false: `cargo acl --features f run -- -- x` gives `--features f` to the program instead of cargo. -/
theorem C105_double_dash : ¬ C105_Claim := by
  intro h
  have h1 := (h (str! "/w") (str! "/w/target")
    { features := some (str! "f"), command := some (.run [str! "--", str! "x"]) } {} exSetup [] (by simp)).2.1 (str! "f")
    (Or.inl ⟨str! "f", rfl, by decide +kernel⟩)
  revert h1
  decide +kernel

/-! ## C106: nothing is reused -/

/-- C106: after the clean that a full run starts with, there is nothing left that its build could reuse. -/
def C106_Claim : Prop :=
  ∀ (dir targetDir : Str) (args : Args) (config : Common) (su : Setup) (menv : AMap Str Str) (cfgTargets : List Str)
    (files : List PathC), args.command = none →
    ∀ f ∈ cleaned (pathOf targetDir) (view (cleanCommand dir targetDir args config menv).args) files,
    ∀ d ∈ buildDirs (pathOf targetDir) cfgTargets (view (buildCommand dir targetDir args config su menv).args),
      ¬ Link.Inside d f

/-- C106, partial: it holds if there is no target, neither on the command line nor in cargo's config, and the flags of the
config file set neither target nor profile. Missing: builds for a target. -/
theorem C106_nothing_is_reused_partial {dir targetDir : Str} {args : Args} {config : Common} {su : Setup} {menv : AMap Str Str}
    {files : List PathC} (hc : args.command = none) (ht : args.target = none) (hf : Closed (flags args config))
    (h1 : (view (flags args config)).values (str! "--profile") = [])
    (h2 : (view (flags args config)).values (str! "--target") = []) :
    ∀ f ∈ cleaned (pathOf targetDir) (view (cleanCommand dir targetDir args config menv).args) files,
    ∀ d ∈ buildDirs (pathOf targetDir) [] (view (buildCommand dir targetDir args config su menv).args),
      ¬ Link.Inside d f := by
  have hx : extraArgs args = [] := by simp [extraArgs, hc]
  have he : Closed (extraArgs args) := by rw [hx]; exact ⟨rfl, rfl⟩
  have hp : view [str! "--profile", profileName args config] = View.opt (str! "--profile") (profileName args config) {} :=
    view_opt (by decide) (by decide) _
  have hclean : (view (cleanCommand dir targetDir args config menv).args).values (str! "--profile") =
      [profileName args config] := by
    rw [cleanCommand_args, hx, List.append_nil, view_append _ _ (closed_start (Or.inr rfl) args), values_append, hp,
      start_values (by decide) (Or.inr rfl)]
    simp [View.values, View.opt]
  have hpk : ∀ (o : Str) (ps : List Str), o = str! "--profile" ∨ o = str! "--target" →
      View.values { opts := ps.map (fun p => (str! "-p", p)) } o = [] := by
    rintro o ps (rfl | rfl) <;> simp [View.values]
  have hfe : ∀ (o : Str), o = str! "--profile" ∨ o = str! "--target" →
      View.values { opts := if features args config ≠ [] then [(str! "--features", features args config)] else [] } o = [] := by
    rintro o (rfl | rfl) <;> unfold View.values <;> split <;> simp
  have hbuild : (view (buildCommand dir targetDir args config su menv).args).values (str! "--profile") =
      [profileName args config] := by
    rw [view_build _ _ _ _ _ _ he hf]
    simp only [values_append, h1, hx, start_values (o := str! "--profile") (by decide) (Or.inl rfl), ht,
      hpk _ _ (Or.inl rfl), hfe _ (Or.inl rfl)]
    simp [View.values, View.opt, view]
  have htarget : (view (buildCommand dir targetDir args config su menv).args).values (str! "--target") = [] := by
    rw [view_build _ _ _ _ _ _ he hf]
    simp only [values_append, h2, hx, start_values (o := str! "--target") (by decide) (Or.inl rfl), ht,
      hpk _ _ (Or.inr rfl), hfe _ (Or.inr rfl)]
    simp [View.values, View.opt, view]
  have hsub : (view (cleanCommand dir targetDir args config menv).args).others = [str! "clean"] := by
    rw [cleanCommand_args, hx, List.append_nil, view_append _ _ (closed_start (Or.inr rfl) args), hp,
      view_start (Or.inr rfl)]
    simp only [View.append, View.opt, subcommand, hc, List.append_nil]
  intro f hf d hd
  unfold cleaned at hf
  rw [if_pos hsub] at hf
  unfold buildDirs at hd
  rw [hclean] at hf
  rw [hbuild, htarget] at hd
  simp only [if_true, List.map_nil, List.flatMap_cons, List.flatMap_nil, List.append_nil, List.mem_singleton] at hd
  subst hd
  rintro ⟨rest, rfl⟩
  obtain ⟨_, h⟩ := List.mem_filter.mp hf
  have hpre : PathC.startsWith (pathOf targetDir ++ [profileDir (profileName args config)] ++ rest)
      (pathOf targetDir ++ [profileDir (profileName args config)]) = true :=
    List.isPrefixOf_iff_prefix.mpr ⟨rest, rfl⟩
  simp only [List.any_cons, hpre, Bool.true_or, Bool.not_true, Bool.false_eq_true] at h

/-- Two files of an earlier build. -/
def exArtifacts : List PathC :=
  [[str! "/", str! "w", str! "target", str! "cackle", str! "deps", str! "a.o"],
   [str! "/", str! "w", str! "target", str! "arm", str! "cackle", str! "deps", str! "a.o"]]

example : cleaned (pathOf (str! "/w/target")) (view (cleanCommand (str! "/w") (str! "/w/target") {} {} []).args) exArtifacts =
    exArtifacts.drop 1 ∧ buildDirs (pathOf (str! "/w/target")) []
      (view (buildCommand (str! "/w") (str! "/w/target") {} {} exSetup []).args) =
        [[str! "/", str! "w", str! "target", str! "cackle"]] := by
  decide +kernel

example : ∀ f ∈ cleaned (pathOf (str! "/w/target")) (view (cleanCommand (str! "/w") (str! "/w/target") {} {} []).args) exArtifacts,
    ∀ d ∈ buildDirs (pathOf (str! "/w/target")) [] (view (buildCommand (str! "/w") (str! "/w/target") {} {} exSetup []).args),
      ¬ Link.Inside d f :=
  C106_nothing_is_reused_partial rfl rfl (by unfold Closed; decide +kernel) (by decide +kernel) (by decide +kernel)

/-- C106 is false: what was built for a target stays and is reused, so that a second run with `--target` checks hardly
anything. -/
theorem C106_target_is_reused : ¬ C106_Claim := by
  intro h
  exact h (str! "/w") (str! "/w/target") { target := some (str! "arm") } {} exSetup [] [] exArtifacts rfl
    [str! "/", str! "w", str! "target", str! "arm", str! "cackle", str! "deps", str! "a.o"] (by decide +kernel)
    [str! "/", str! "w", str! "target", str! "arm", str! "cackle"] (by decide +kernel) ⟨[str! "deps", str! "a.o"], by decide +kernel⟩

/-- The same for a target set in cargo's own config. -/
theorem C106_config_target_is_reused :
    [str! "/", str! "w", str! "target", str! "arm", str! "cackle", str! "deps", str! "a.o"] ∈
      cleaned (pathOf (str! "/w/target")) (view (cleanCommand (str! "/w") (str! "/w/target") {} {} []).args) exArtifacts ∧
    [str! "/", str! "w", str! "target", str! "arm", str! "cackle"] ∈
      buildDirs (pathOf (str! "/w/target")) [str! "arm"] (view (buildCommand (str! "/w") (str! "/w/target") {} {} exSetup []).args) := by
  decide +kernel

/-- The clean uses the config that was loaded first, the build the one after the first problems were fixed. If the profile was
changed in between, what was built before is reused. -/
theorem C106_changed_profile_is_reused :
    [str! "/", str! "w", str! "target", str! "p", str! "a.o"] ∈
      cleaned (pathOf (str! "/w/target")) (view (cleanCommand (str! "/w") (str! "/w/target") {} {} []).args)
        [[str! "/", str! "w", str! "target", str! "p", str! "a.o"]] ∧
    [str! "/", str! "w", str! "target", str! "p"] ∈ buildDirs (pathOf (str! "/w/target")) []
      (view (buildCommand (str! "/w") (str! "/w/target") {} { profile := some (str! "p") } exSetup []).args) := by
  decide +kernel

/-! ## C107: the settings that the analysis needs -/

/-- The settings on the command line of the build. -/
def cli (dir targetDir : Str) (args : Args) (config : Common) (su : Setup) (menv : AMap Str Str) : List (List Str × Str) :=
  (view (buildCommand dir targetDir args config su menv).args).settings

/-- C107: with the default profile, whatever is set elsewhere, each package is built without optimisation and incremental
compilation and with debug info that is not split. -/
def C107_Claim : Prop :=
  ∀ (dir targetDir : Str) (args : Args) (config : Common) (su : Setup) (menv : AMap Str Str) (w : World) (pkg : Str),
    WantsProfile args config (str! "cackle") → args.command = none → config.buildFlags = none →
    inForce (cli dir targetDir args config su menv) w pkg (str! "opt-level") (str! "cackle") = some (str! "0") ∧
    inForce (cli dir targetDir args config su menv) w pkg (str! "debug") (str! "cackle") = some (str! "true") ∧
    inForce (cli dir targetDir args config su menv) w pkg (str! "incremental") (str! "cackle") = some (str! "false") ∧
    inForce (cli dir targetDir args config su menv) w pkg (str! "split-debuginfo") (str! "cackle") = some (str! "off")

theorem cli_eq {dir targetDir : Str} {args : Args} {config : Common} {su : Setup} {menv : AMap Str Str}
    (he : Closed (extraArgs args)) (hf : Closed (flags args config))
    (h1 : (view (extraArgs args)).values (str! "--config") = [])
    (h2 : (view (flags args config)).values (str! "--config") = []) :
    cli dir targetDir args config su menv = startSettings.map (fun x => setting x.2) := by
  unfold cli View.settings
  rw [view_build _ _ _ _ _ _ he hf]
  have hpk : ∀ ps : List Str, View.values { opts := ps.map (fun p => (str! "-p", p)) } (str! "--config") = [] := by
    intro ps; simp [View.values]
  have ht : ∀ ps : List Str, View.values { opts := ps.map (fun p => (str! "--target", p)) } (str! "--config") = [] := by
    intro ps; simp [View.values]
  have hfe : View.values { opts := if features args config ≠ [] then [(str! "--features", features args config)] else [] }
      (str! "--config") = [] := by
    unfold View.values; split <;> simp
  have hpr : View.values (View.opt (str! "--profile") (profileName args config) {}) (str! "--config") = [] := by
    simp [View.values, View.opt]
  simp only [values_append, h1, h2, start_config (Or.inl rfl), hpk, ht, hfe, hpr, List.append_nil, List.nil_append,
    List.map_map]
  rfl

/-- C107, partial: optimisation, debug info and incremental compilation are as needed for each package for which
nothing special is set, whatever the profiles in `Cargo.toml` and in cargo's config say. Missing: packages with settings
of their own, `split-debuginfo`, and other profiles. -/
theorem C107_settings_partial {dir targetDir : Str} {args : Args} {config : Common} {su : Setup} {menv : AMap Str Str}
    (w : World) (pkg : Str) (he : Closed (extraArgs args)) (hf : Closed (flags args config))
    (h1 : (view (extraArgs args)).values (str! "--config") = [])
    (h2 : (view (flags args config)).values (str! "--config") = []) {key value : Str}
    (hk : (key, value) ∈ [(str! "opt-level", str! "0"), (str! "debug", str! "true"), (str! "incremental", str! "false")])
    (hpkg : inherited (cli dir targetDir args config su menv) w [str! "package", pkg, key] 10 (str! "cackle") = none) :
    inForce (cli dir targetDir args config su menv) w pkg key (str! "cackle") = some value := by
  unfold inForce
  rw [hpkg, Option.none_or, cli_eq he hf h1 h2, inherited]
  have key' : AMap.get? (startSettings.map (fun x => setting x.2)).reverse ([str! "profile", str! "cackle"] ++ [key]) =
      some value := by
    simp only [List.mem_cons, List.not_mem_nil, or_false, Prod.mk.injEq] at hk
    rcases hk with ⟨rfl, rfl⟩ | ⟨rfl, rfl⟩ | ⟨rfl, rfl⟩ <;> decide +kernel
  unfold own
  rw [key']
  rfl

/-- `Cargo.toml` turns on optimisation and turns off debug info for all profiles that inherit from `dev`. -/
def exWorld : World :=
  { manifest := [([str! "profile", str! "dev", str! "opt-level"], str! "3"), ([str! "profile", str! "dev", str! "debug"], str! "false"),
      ([str! "profile", str! "cackle", str! "debug"], str! "false")] }

example : inForce (cli (str! "/w") (str! "/w/target") {} {} exSetup []) exWorld (str! "a") (str! "debug") (str! "cackle") =
    some (str! "true") :=
  C107_settings_partial exWorld (str! "a") ⟨rfl, rfl⟩ (by unfold Closed; decide +kernel) rfl (by decide +kernel)
    (by decide) (by decide +kernel)

/-- C107 is false: `split-debuginfo` is set outside of any profile, where it has no effect. -/
theorem C107_split_debuginfo : ¬ C107_Claim := by
  intro h
  have h1 := (h (str! "/w") (str! "/w/target") {} {} exSetup []
    { manifest := [([str! "profile", str! "dev", str! "split-debuginfo"], str! "unpacked")] } (str! "a")
    (Or.inr (Or.inr ⟨rfl, rfl, rfl⟩)) rfl rfl).2.2.2
  revert h1
  decide +kernel

/-- It is also false for optimisation if something is set for the package itself. -/
theorem C107_package_settings :
    inForce (cli (str! "/w") (str! "/w/target") {} {} exSetup [])
      { manifest := [([str! "profile", str! "dev", str! "package", str! "a", str! "opt-level"], str! "3")] } (str! "a")
      (str! "opt-level") (str! "cackle") = some (str! "3") := by
  decide +kernel

/-! ## C108: what the processes of the build know -/

/-- C108: the processes that cargo starts are told about the socket, the config, the profile that is being built, the
target directory (which is also where cargo is told to put what it builds), the workspace and the packages with several
versions; none of them takes itself for the main process, and none takes itself for the wrapper of a package's crate unless
cargo says so. -/
theorem C108_environment {dir targetDir : Str} {args : Args} {config : Common} {su : Setup} {menv : AMap Str Str}
    (hs : su.socket ≠ []) :
    let env := (buildCommand dir targetDir args config su menv).env
    (∀ p, WantsProfile args config p → AMap.get? env (str! "CACKLE_BUILD_PROFILE") = some p) ∧
    AMap.get? env (str! "CACKLE_SOCKET_PATH") = some su.socket ∧
    AMap.get? env (str! "CACKLE_CONFIG_PATH") = some su.configPath ∧
    AMap.get? env (str! "CACKLE_TARGET_DIR") = some targetDir ∧
    AMap.get? env (str! "CARGO_BUILD_BUILD_DIR") = some targetDir ∧
    AMap.get? env (str! "CACKLE_MANIFEST_DIR") = some dir ∧
    (buildCommand dir targetDir args config su menv).cwd = dir ∧
    AMap.get? env (str! "CACKLE_RUSTC_PATH") = some su.rustc ∧
    AMap.get? env (str! "RUSTC_WRAPPER") = some su.exe ∧
    AMap.get? env (str! "CACKLE_MULTIPLE_VERSION_PKG_NAMES") = some (multipleNames su.ids) ∧
    crateFromEnv env = none ∧
    (∀ xs ys, Link.role env xs ≠ .cackle ys) := by
  intro env
  have key : ∀ k, AMap.get? env k =
      if envPkgName = k then none else if envMultiple = k then some (multipleNames su.ids)
      else if str! "RUSTC_WRAPPER" = k then some su.exe else if str! "CACKLE_RUSTC_PATH" = k then some su.rustc
      else if str! "CACKLE_MANIFEST_DIR" = k then some dir else if str! "CACKLE_TARGET_DIR" = k then some targetDir
      else if str! "CACKLE_CONFIG_PATH" = k then some su.configPath else if Link.envSocket = k then some su.socket
      else if envProfile = k then some (profileName args config)
      else if str! "CARGO_BUILD_BUILD_DIR" = k then some targetDir else AMap.get? menv k := by
    intro k
    show AMap.get? (buildCommand dir targetDir args config su menv).env k = _
    unfold buildCommand command
    simp only [AMap.get?_erase, AMap.get?_insert]
  refine ⟨?_, ?_, ?_, ?_, ?_, ?_, rfl, ?_, ?_, ?_, ?_, ?_⟩
  · intro p hp
    rw [key, ← profile_wanted hp]
    rfl
  · rw [key]; rfl
  · rw [key]; rfl
  · rw [key]; rfl
  · rw [key]; rfl
  · rw [key]; rfl
  · rw [key]; rfl
  · rw [key]; rfl
  · rw [key]; rfl
  · have : AMap.get? env envPkgName = none := by rw [key]; rfl
    unfold crateFromEnv pkgFromEnv
    rw [this]
  · intro xs ys
    have hsock : AMap.get? env Link.envSocket = some su.socket := by rw [key]; rfl
    exact ((Link.C104_roles env xs).1 (by rw [hsock]; exact hs)).1 ys

example : AMap.get? (buildCommand (str! "/w") (str! "/w/target") {} {} exSetup
      [(str! "CARGO_PKG_NAME", str! "cackle"), (str! "CACKLE_BUILD_PROFILE", str! "x")]).env (str! "CACKLE_BUILD_PROFILE") =
    some (str! "cackle") :=
  (C108_environment (su := exSetup) (by decide)).1 _ (Or.inr (Or.inr ⟨rfl, rfl, rfl⟩))

end Cackle.Cargo
