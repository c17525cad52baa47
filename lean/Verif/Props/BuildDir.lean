import Verif.Props.Cargo
import Verif.Props.Link
import Verif.Model.SymbolGraph

/-!
# C177: what cargo builds is in the directory in which cackle looks for it

Only object files below the target directory are scanned (C101). This is about whether cargo puts them there.
-/

namespace Cackle.BuildDir
open Cackle Cargo Perm

/-! ## Where cargo puts what it builds -/

/-- What decides, besides the command: whether this cargo knows the setting `build.build-dir` (since 1.91), the directory of
the workspace, and cargo's config files, with absolute paths. -/
structure Site where
  knowsBuildDir : Bool
  workspace : Str
  config : AMap (List Str) Str := []

/-- A path that is relative to a directory. -/
def from_ (dir p : Str) : PathC :=
  match pathOf p with
  | ['/'] :: cs => ['/'] :: cs
  | cs => pathOf dir ++ cs.filter (fun c => c ≠ str! ".")

/-- A setting of cargo: the command line, then the environment, then the config files. -/
def valueOf (c : Cmd) (site : Site) (path : List Str) (variable_ : Str) : Option Str :=
  ((AMap.get? (view c.args).settings.reverse path).or (AMap.get? c.env variable_)).or (AMap.get? site.config path)

/-- The target directory: `--target-dir`, then the variable `CARGO_TARGET_DIR`, then the setting, then `target` in the
directory of the workspace. -/
def targetOf (c : Cmd) (site : Site) : PathC :=
  match (((view c.args).values (str! "--target-dir")).getLast?.or (AMap.get? c.env (str! "CARGO_TARGET_DIR"))).or
      (valueOf c site [str! "build", str! "target-dir"] (str! "CARGO_BUILD_TARGET_DIR")) with
  | some p => from_ c.cwd p
  | none => pathOf site.workspace ++ [str! "target"]

/-- The directory for what is built on the way, such as object files. -/
def buildOf (c : Cmd) (site : Site) : PathC :=
  if site.knowsBuildDir then
    match valueOf c site [str! "build", str! "build-dir"] (str! "CARGO_BUILD_BUILD_DIR") with
    | some p => from_ c.cwd p
    | none => targetOf c site
  else targetOf c site

/-- What the main process works with: the directory in which it was started, as text and as path, and the text of the target
directory that it computes. -/
structure Started (dir target : Str) (root : PathC) (menv : AMap Str Str) : Prop where
  dir : pathOf dir = root
  absolute : root.head? = some ['/']
  target : pathOf target = Link.targetDir root menv

/-- The English claim C177: cargo puts what it builds into the directory in which cackle looks. -/
def C177_Claim : Prop :=
  ∀ (site : Site) (dir target : Str) (root : PathC) (menv : AMap Str Str) (args : Args) (config : Common) (su : Setup),
    Started dir target root menv → AMap.get? menv (str! "CARGO_TARGET_DIR") ≠ some [] →
    buildOf (buildCommand dir target args config su menv) site = Link.targetDir root menv

/-! ## Proofs -/

/-- What cargo finds in its environment for variables that cackle does not set. -/
theorem env_other {dir target : Str} {args : Args} {config : Common} {su : Setup} {menv : AMap Str Str} {k : Str}
    (hk : k = str! "CARGO_TARGET_DIR" ∨ k = str! "CARGO_BUILD_TARGET_DIR") :
    AMap.get? (buildCommand dir target args config su menv).env k = AMap.get? menv k := by
  unfold buildCommand command
  simp only [AMap.get?_erase, AMap.get?_insert]
  rcases hk with rfl | rfl <;> rfl

theorem env_build {dir target : Str} {args : Args} {config : Common} {su : Setup} {menv : AMap Str Str} :
    AMap.get? (buildCommand dir target args config su menv).env (str! "CARGO_BUILD_BUILD_DIR") = some target := by
  unfold buildCommand command
  simp only [AMap.get?_erase, AMap.get?_insert]
  rfl

/-- The target directory of cackle is an absolute path. -/
theorem targetDir_absolute {root : PathC} (menv : AMap Str Str) (h : root.head? = some ['/']) :
    ∃ cs, Link.targetDir root menv = ['/'] :: cs := by
  cases root with
  | nil => cases h
  | cons a r =>
    simp only [List.head?_cons, Option.some.injEq] at h
    subst h
    unfold Link.targetDir
    split
    · exact ⟨_, rfl⟩
    · exact ⟨_, rfl⟩

theorem from_absolute {dir p : Str} {cs : PathC} (h : pathOf p = ['/'] :: cs) : from_ dir p = ['/'] :: cs := by
  unfold from_
  rw [h]
  rfl

/-- **C177, partial.** A cargo that knows `build.build-dir` puts what it builds where cackle looks for it, whatever target
directory is set anywhere, unless the flags or arguments that the user passes on set `build.build-dir`. Missing: older
versions of cargo, and such flags, for which the claim is refuted below. -/
theorem C177_partial (site : Site) (dir target : Str) (root : PathC) (menv : AMap Str Str) (args : Args) (config : Common)
    (su : Setup) (h : Started dir target root menv) (hk : site.knowsBuildDir = true)
    (hcli : AMap.get? (cli dir target args config su menv).reverse [str! "build", str! "build-dir"] = none) :
    buildOf (buildCommand dir target args config su menv) site = Link.targetDir root menv := by
  unfold cli at hcli
  unfold buildOf valueOf
  rw [if_pos hk, hcli, env_build]
  obtain ⟨cs, hcs⟩ := targetDir_absolute menv h.absolute
  show from_ _ target = _
  rw [from_absolute (by rw [h.target, hcs]), hcs]

/-- Without `--config` among the passed on arguments nothing on the command line sets the directory. -/
theorem C177_cli {dir target : Str} {args : Args} {config : Common} {su : Setup} {menv : AMap Str Str}
    (he : Closed (extraArgs args)) (hf : Closed (flags args config))
    (h1 : (view (extraArgs args)).values (str! "--config") = [])
    (h2 : (view (flags args config)).values (str! "--config") = []) (key : Str) (hk : key = str! "build-dir" ∨ key = str! "target-dir") :
    AMap.get? (cli dir target args config su menv).reverse [str! "build", key] = none := by
  rw [cli_eq he hf h1 h2]
  rcases hk with rfl | rfl <;> decide +kernel

/-- **C177, older versions, partial.** A cargo that does not know `build.build-dir` puts what it builds where cackle looks if
the variable `CARGO_TARGET_DIR` says where, or nothing does and cackle was started in the directory of the workspace; the
option `--target-dir` must not be passed on. -/
theorem C177_older_partial (site : Site) (dir target : Str) (root : PathC) (menv : AMap Str Str) (args : Args)
    (config : Common) (su : Setup) (h : Started dir target root menv) (hk : site.knowsBuildDir = false)
    (hopt : (view (buildCommand dir target args config su menv).args).values (str! "--target-dir") = [])
    (hset : (∃ v, AMap.get? menv (str! "CARGO_TARGET_DIR") = some v) ∨
      (AMap.get? menv (str! "CARGO_TARGET_DIR") = none ∧ pathOf site.workspace = root ∧
        valueOf (buildCommand dir target args config su menv) site [str! "build", str! "target-dir"]
          (str! "CARGO_BUILD_TARGET_DIR") = none)) :
    buildOf (buildCommand dir target args config su menv) site = Link.targetDir root menv := by
  unfold buildOf
  rw [if_neg (by simp [hk])]
  unfold targetOf
  rw [hopt, env_other (Or.inl rfl)]
  rcases hset with ⟨v, hv⟩ | ⟨hn, hw, hs⟩
  · rw [hv]
    show from_ dir v = _
    unfold from_ Link.targetDir
    rw [hv, h.dir]
    rfl
  · rw [hn, hs]
    show pathOf site.workspace ++ [str! "target"] = _
    unfold Link.targetDir
    rw [hn, hw]
    rfl

/-- **C177, disagreement: a target directory in cargo's config.** A cargo that does not know `build.build-dir` uses the
target directory that is set in its config file or by the variable `CARGO_BUILD_TARGET_DIR`. -/
theorem C177_older_config (site : Site) (dir target : Str) (menv : AMap Str Str) (args : Args)
    (config : Common) (su : Setup) (hk : site.knowsBuildDir = false)
    (hopt : (view (buildCommand dir target args config su menv).args).values (str! "--target-dir") = [])
    (hn : AMap.get? menv (str! "CARGO_TARGET_DIR") = none) {v : Str}
    (hs : valueOf (buildCommand dir target args config su menv) site [str! "build", str! "target-dir"]
      (str! "CARGO_BUILD_TARGET_DIR") = some v) :
    buildOf (buildCommand dir target args config su menv) site = from_ dir v := by
  unfold buildOf
  rw [if_neg (by simp [hk])]
  unfold targetOf
  rw [hopt, env_other (Or.inl rfl), hn, hs]
  rfl

/-- **C177, disagreement: a member of a workspace.** Started in the directory of a member, a cargo that does not know
`build.build-dir` uses the directory `target` of the workspace and cackle looks in that of the member. -/
theorem C177_older_member (site : Site) (dir target : Str) (root : PathC) (menv : AMap Str Str) (args : Args)
    (config : Common) (su : Setup) (hk : site.knowsBuildDir = false)
    (hopt : (view (buildCommand dir target args config su menv).args).values (str! "--target-dir") = [])
    (hn : AMap.get? menv (str! "CARGO_TARGET_DIR") = none)
    (hs : valueOf (buildCommand dir target args config su menv) site [str! "build", str! "target-dir"]
      (str! "CARGO_BUILD_TARGET_DIR") = none) :
    buildOf (buildCommand dir target args config su menv) site = pathOf site.workspace ++ [str! "target"] ∧
      Link.targetDir root menv = root ++ [str! "target"] := by
  constructor
  · unfold buildOf
    rw [if_neg (by simp [hk])]
    unfold targetOf
    rw [hopt, env_other (Or.inl rfl), hn, hs]
    rfl
  · unfold Link.targetDir
    rw [hn]
    rfl

/-- **C177, what follows.** If the object files that the linker is given are in a directory that neither contains the
directory in which cackle looks nor is contained in it, then none of them is scanned. -/
theorem C177_nothing_scanned (d : Link.Disk) (root build : PathC) (menv : AMap Str Str) (info : Link.LinkInfo)
    (hobj : ∀ o ∈ info.objects, ∀ p, Link.canonicalize d (pathOf o) = some p → ∃ rest, p = build ++ rest)
    (h1 : ¬ build <+: Link.targetDir root menv) (h2 : ¬ Link.targetDir root menv <+: build) :
    Link.scanned d root menv info = [] := by
  unfold Link.scanned Link.objectPathsUnder
  rw [List.filter_eq_nil_iff]
  intro p hp hs
  obtain ⟨o, ho, hc⟩ := List.mem_filterMap.mp hp
  obtain ⟨rest, rfl⟩ := hobj o ho p hc
  have ht : Link.targetDir root menv <+: build ++ rest := List.isPrefixOf_iff_prefix.mp hs
  rcases List.prefix_or_prefix_of_prefix ht (List.prefix_append build rest) with h | h
  · exact h2 h
  · exact h1 h

/-- **C177, what follows.** A binary without scanned object files and without inlined functions is taken for one that uses
no API: the scan succeeds and there is nothing to report. -/
theorem C177_nothing_found (c : Checker.State) (n : Nat) (order : AMap Graph.Key (List Graph.Single) → List (Graph.Key × List Graph.Single))
    (horder : order [] = []) (b : Graph.Bin) (hin : b.inlined = []) {out : Checker.ScanOut}
    (h : Graph.scanBin c n order b [] = .ok out) : out.usages = [] := by
  unfold Graph.scanBin at h
  cases ht : Graph.trieOf c.cfg.apis with
  | none => rw [ht] at h; cases h
  | some t =>
    rw [ht] at h
    unfold Graph.allRefs at h
    cases hl : Graph.loadSymbols b.symbols with
    | err => rw [hl] at h; cases h
    | panic => rw [hl] at h; cases h
    | stuck => rw [hl] at h; cases h
    | ok addresses =>
      rw [hl, hin] at h
      cases he : Graph.possibleExports c b.debug with
      | err => simp [Graph.Res.bind, Graph.Res.loop, he] at h
      | panic => simp [Graph.Res.bind, Graph.Res.loop, he] at h
      | stuck => simp [Graph.Res.bind, Graph.Res.loop, he] at h
      | ok exports =>
        simp [Graph.Res.bind, Graph.Res.loop, he, Graph.collect, horder, Graph.emitShortest] at h
        rw [← h]

/-! ## Instances -/

/-- A user who collects the target directories of all projects in one place. -/
def exSite (new : Bool) : Site where
  knowsBuildDir := new
  workspace := str! "/w"
  config := [([str! "build", str! "target-dir"], str! "/var/targets")]

theorem exStarted : Started (str! "/w") (str! "/w/target") (pathOf (str! "/w")) [] :=
  ⟨rfl, by decide +kernel, by decide +kernel⟩

/-- A new cargo puts what it builds into `/w/target` nevertheless. -/
example : buildOf (buildCommand (str! "/w") (str! "/w/target") {} {} exSetup []) (exSite true) = pathOf (str! "/w/target") := by
  rw [C177_partial (exSite true) _ _ (pathOf (str! "/w")) [] {} {} exSetup exStarted rfl
    (C177_cli ⟨rfl, rfl⟩ (by unfold Closed; decide +kernel) rfl (by decide +kernel) _ (Or.inl rfl))]
  decide +kernel

/-- An older one puts it into `/var/targets`. -/
theorem exElsewhere : buildOf (buildCommand (str! "/w") (str! "/w/target") {} {} exSetup []) (exSite false) =
    pathOf (str! "/var/targets") := by
  rw [C177_older_config (exSite false) _ _ [] {} {} exSetup rfl (by decide +kernel) rfl (v := str! "/var/targets") (by decide +kernel)]
  decide +kernel

/-- **C177, disagreement.** -/
theorem C177_refuted : ¬ C177_Claim := by
  intro h
  have := h (exSite false) (str! "/w") (str! "/w/target") (pathOf (str! "/w")) [] {} {} exSetup exStarted (by decide)
  rw [exElsewhere] at this
  revert this
  decide +kernel

/-- Nothing of what is built there is scanned. -/
example (d : Link.Disk) (crate : CrateSel) (hd : Link.canonicalize d (pathOf (str! "/var/targets/cackle/deps/a.o")) =
      some (pathOf (str! "/var/targets/cackle/deps/a.o"))) :
    Link.scanned d (pathOf (str! "/w")) []
      { crate := crate, objects := [str! "/var/targets/cackle/deps/a.o"], output := str! "/var/targets/cackle/deps/a", shared := false } = [] := by
  apply C177_nothing_scanned d (pathOf (str! "/w")) (pathOf (str! "/var/targets"))
  · intro o ho p hp
    simp only [List.mem_singleton] at ho
    subst ho
    rw [hd] at hp
    cases hp
    exact ⟨[str! "cackle", str! "deps", str! "a.o"], by decide +kernel⟩
  · decide +kernel
  · decide +kernel

/-- The older cargo with the variable instead: both use `/var/targets`. -/
example : buildOf (buildCommand (str! "/w") (str! "/var/targets") {} {} exSetup [(str! "CARGO_TARGET_DIR", str! "/var/targets")])
    { knowsBuildDir := false, workspace := str! "/w" } = pathOf (str! "/var/targets") := by
  rw [C177_older_partial { knowsBuildDir := false, workspace := str! "/w" } _ _ (pathOf (str! "/w"))
    [(str! "CARGO_TARGET_DIR", str! "/var/targets")] {} {} exSetup ⟨rfl, by decide +kernel, by decide +kernel⟩ rfl
    (by decide +kernel) (Or.inl ⟨_, rfl⟩)]
  decide +kernel

/-- **C177, disagreement: flags that are passed on.** With `build_flags = ["--config", "build.build-dir=\"/b\""]` every cargo
that knows the setting puts what it builds elsewhere. -/
theorem C177_flags : buildOf (buildCommand (str! "/w") (str! "/w/target") {}
    { buildFlags := some [str! "--config", str! "build.build-dir=\"/b\""] } exSetup []) { knowsBuildDir := true, workspace := str! "/w" } =
    pathOf (str! "/b") := by decide +kernel

/-- The member `m` of the workspace `/w`. -/
example : buildOf (buildCommand (str! "/w/m") (str! "/w/m/target") {} {} exSetup []) { knowsBuildDir := false, workspace := str! "/w" } =
    pathOf (str! "/w/target") := by
  rw [(C177_older_member { knowsBuildDir := false, workspace := str! "/w" } (str! "/w/m") (str! "/w/m/target") (pathOf (str! "/w/m")) []
    {} {} exSetup rfl (by decide +kernel) rfl (by decide +kernel)).1]
  decide +kernel

end Cackle.BuildDir
