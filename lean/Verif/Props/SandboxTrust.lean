import Verif.Props.Sandbox
import Verif.Props.SandboxWorks
import Verif.Model.TmpDir

/-!
# C164 and C165: what cackle relies on is out of reach of sandboxed programs

The wrappers read the flattened configuration in the temporary directory, and they talk to the main process
through a socket below it. Programs that were checked lie in the target directory until they are run.
-/

namespace Cackle.Sandboxing
open Cackle Config Perm BuildScript Identity

/-! ## Specification -/

/-- The variables that the main process sets for cargo. -/
structure InRun (w : World) (tmp target : Str) : Prop where
  nodup : w.env.keys.Nodup
  tmpAbs : tmp.head? = some '/'
  targetAbs : target.head? = some '/'
  socket : w.env.get? (str! "CACKLE_SOCKET_PATH") = some (socketPath tmp)
  config : w.env.get? (str! "CACKLE_CONFIG_PATH") = some (flattenedPath tmp)
  target : w.env.get? (str! "CACKLE_TARGET_DIR") = some target

/-- The configuration that the wrappers read. -/
def ConfigFile (w : World) (p : PathC) : Prop :=
  ∃ s, w.env.get? (str! "CACKLE_CONFIG_PATH") = some s ∧ p = pathOf s

/-- The socket of the main process. -/
def SocketFile (w : World) (p : PathC) : Prop :=
  ∃ s, w.env.get? (str! "CACKLE_SOCKET_PATH") = some s ∧ p = pathOf s

/-- A file in the target directory, for example a build script that has been checked and will be run. -/
def TargetFile (target : Str) (p : PathC) : Prop := ∃ rel, rel ≠ [] ∧ p = pathOf target ++ rel

/-- A directory that the user has made writable. -/
def UserWritable (cfg : Sandbox) (d : Str) : Prop := d ∈ cfg.bindWritable ∨ d ∈ cfg.makeWritable

/-- A directory that this run of rustc was told to write to. -/
def Told (rargs : List Str) (d : Str) : Prop :=
  [str! "--out-dir", d] <:+: rargs ∨ str! "incremental=" ++ d ∈ rargs

/-- The English claim C164. -/
def C164_Claim : Prop :=
  ∀ (w : World) (tmp target : Str), InRun w tmp target → ∀ (cfg : Sandbox), cfg.extraArgs = [] →
  ∀ (p : PathC), (ConfigFile w p ∨ TargetFile target p) → (∀ d, UserWritable cfg d → ¬ pathOf d <+: p) →
    (∀ bin args, forPermSel w cfg bin = some (some args) →
      (∀ d, w.env.get? (str! "OUT_DIR") = some d → ¬ pathOf d <+: p) →
      ∀ vars prog pargs ops cmd, parse (command args vars prog pargs) = some (ops, cmd) →
      ∀ q, view w.pathExists ops p ≠ some (true, q)) ∧
    (∀ rargs rv inp exe args, rustcInputs w rargs rv = some inp → forRustc w cfg inp exe = some (some args) →
      (∀ d, Told rargs d → ¬ pathOf d <+: p) →
      ∀ vars prog pargs ops cmd, parse (command args vars prog pargs) = some (ops, cmd) →
      ∀ q, view w.pathExists ops p ≠ some (true, q))

/-- The part of C164 about the configuration alone. -/
def C164_ConfigClaim : Prop :=
  ∀ (w : World) (tmp target : Str), InRun w tmp target → ∀ (cfg : Sandbox), cfg.extraArgs = [] →
  ∀ (p : PathC), ConfigFile w p → (∀ d, UserWritable cfg d → ¬ pathOf d <+: p) →
    ∀ rargs rv inp exe args, rustcInputs w rargs rv = some inp → forRustc w cfg inp exe = some (some args) →
      (∀ d, Told rargs d → ¬ pathOf d <+: p) →
      ∀ vars prog pargs ops cmd, parse (command args vars prog pargs) = some (ops, cmd) →
      ∀ q, view w.pathExists ops p ≠ some (true, q)

/-- The English claim C165. -/
def C165_Claim : Prop :=
  ∀ (w : World) (tmp target : Str), InRun w tmp target → ∀ (cfg : Sandbox), cfg.extraArgs = [] →
  ∀ bin args, forPermSel w cfg bin = some (some args) →
  ∀ vars prog pargs ops cmd, parse (command args vars prog pargs) = some (ops, cmd) →
    (∀ v, str! "CACKLE_" <+: v → v ∉ cfg.passEnv → (∀ x, (v, some x) ∉ vars) →
      (envOf w.env ops).get? v = none) ∧
    ∀ p, SocketFile w p → (∀ d, BoundFor w cfg bin d → ¬ pathOf d <+: p) → view w.pathExists ops p = none

/-! ## Paths -/

theorem pathOf_comms {tmp : Str} (h : tmp.head? = some '/') :
    pathOf (join tmp (str! "comms")) = pathOf tmp ++ [str! "comms"] :=
  (pathOf_join h (by decide) (by decide) (by decide)).1

theorem pathOf_socketPath {tmp : Str} (h : tmp.head? = some '/') :
    pathOf (socketPath tmp) = pathOf tmp ++ [str! "comms", str! "cackle.socket"] := by
  have h1 := pathOf_join (b := str! "comms") h (by decide) (by decide) (by decide)
  have h2 := pathOf_join (b := str! "cackle.socket") h1.2 (by decide) (by decide) (by decide)
  unfold socketPath
  rw [h2.1, h1.1, List.append_assoc]
  rfl

theorem pathOf_flattenedPath {tmp : Str} (h : tmp.head? = some '/') :
    pathOf (flattenedPath tmp) = pathOf tmp ++ [str! "flattened_cackle.toml"] :=
  (pathOf_join h (by decide) (by decide) (by decide)).1

theorem join_comms_shape (tmp : Str) : ∃ d, join tmp (str! "comms") = d ++ str! "comms" := by
  unfold join
  split
  · exact ⟨[], rfl⟩
  · split
    · exact ⟨tmp, rfl⟩
    · exact ⟨tmp ++ str! "/", rfl⟩

/-- The directory shared with rustc is the one that holds only the socket. -/
theorem parent_socketPath (tmp : Str) : parentText (socketPath tmp) = some (join tmp (str! "comms")) := by
  obtain ⟨d, hd⟩ := join_comms_shape tmp
  have h1 : join tmp (str! "comms") ≠ [] := by rw [hd]; simp
  have h2 : (join tmp (str! "comms")).getLast? ≠ some '/' := by rw [hd]; simp
  have e : socketPath tmp = join tmp (str! "comms") ++ str! "/" ++ str! "cackle.socket" := by
    unfold socketPath
    generalize join tmp (str! "comms") = a at *
    unfold join
    rw [if_neg h1, if_neg h2]
  rw [e]
  exact parentText_join h1 (by decide)

/-! ## C164 -/

/-- **C164, the part that holds for build scripts and tests.** They can change neither the configuration
that the wrappers read nor anything in the target directory, except below `OUT_DIR` and what the user has
made writable. Missing: rustc, see below. -/
theorem C164_binary_partial (w : World) (cfg : Sandbox) (hx : cfg.extraArgs = []) (p : PathC)
    (hu : ∀ d, UserWritable cfg d → ¬ pathOf d <+: p) (bin : Str) (args : List Str)
    (h : forPermSel w cfg bin = some (some args))
    (ho : ∀ d, w.env.get? (str! "OUT_DIR") = some d → ¬ pathOf d <+: p)
    (vars : List (Str × Option Str)) (prog : Str) (pargs : List Str) (ops : List Op) (cmd : List Str)
    (hparse : parse (command args vars prog pargs) = some (ops, cmd)) (q : PathC) :
    view w.pathExists ops p ≠ some (true, q) := by
  intro hv
  obtain ⟨-, d, hd, h1⟩ := C59_writes_confined w cfg bin args hx h vars prog pargs ops cmd hparse p q hv
  rcases h1 with h1 | h1 | h1
  · exact hu d (Or.inl h1) hd
  · exact hu d (Or.inr h1) hd
  · exact ho d h1 hd

/-- **C164, the part that holds for rustc.** Although the directory of the socket is writable in its
sandbox, the configuration beside that directory is not, provided the temporary directory does not lie in
the target directory. -/
theorem C164_config_partial (w : World) (tmp target : Str) (hr : InRun w tmp target) (cfg : Sandbox)
    (hx : cfg.extraArgs = []) (p : PathC) (hp : ConfigFile w p)
    (hu : ∀ d, UserWritable cfg d → ¬ pathOf d <+: p) (ht : ¬ pathOf target <+: p)
    (rargs : List Str) (rv : Str → Str → List Str) (inp : RustcInputs) (exe : Str) (args : List Str)
    (hinp : rustcInputs w rargs rv = some inp) (h : forRustc w cfg inp exe = some (some args))
    (htold : ∀ d, Told rargs d → ¬ pathOf d <+: p)
    (vars : List (Str × Option Str)) (prog : Str) (pargs : List Str) (ops : List Op) (cmd : List Str)
    (hparse : parse (command args vars prog pargs) = some (ops, cmd)) (q : PathC) :
    view w.pathExists ops p ≠ some (true, q) := by
  intro hv
  obtain ⟨-, d, hd, h1⟩ := C59_writes_confined_rustc w cfg rargs rv inp hinp exe args hx h vars prog pargs ops
    cmd hparse p q hv
  rcases h1 with h1 | h1 | h1 | h1 | h1 | ⟨s, h1, h2⟩
  · exact hu d (Or.inl h1) hd
  · exact hu d (Or.inr h1) hd
  · rw [hr.target, Option.some.injEq] at h1
    exact ht (h1 ▸ hd)
  · exact htold d (Or.inl h1) hd
  · exact htold d (Or.inr h1) hd
  · rw [hr.socket, Option.some.injEq] at h1
    subst h1
    rw [parent_socketPath, Option.some.injEq] at h2
    subst h2
    obtain ⟨c, hc, rfl⟩ := hp
    rw [hr.config, Option.some.injEq] at hc
    subst hc
    rw [pathOf_comms hr.tmpAbs, pathOf_flattenedPath hr.tmpAbs, List.prefix_append_right_inj] at hd
    exact absurd hd (by decide)

/-! ### Witnesses -/

private def tw (tmp : Str) : World :=
  { env := [(str! "HOME", str! "/home/u"), (str! "CARGO_MANIFEST_DIR", str! "/home/u/p"),
      (str! "CACKLE_SOCKET_PATH", socketPath tmp), (str! "CACKLE_CONFIG_PATH", flattenedPath tmp),
      (str! "CACKLE_TARGET_DIR", str! "/home/u/p/target"), (str! "CACKLE_BUILD_PROFILE", str! "dev"),
      (str! "CACKLE_MANIFEST_DIR", str! "/home/u/p")]
    pathExists := fun _ => true, isDir := fun _ => true, mkdir := fun _ => true }

private def tc : Sandbox := { kind := some .bubblewrap }

private def tr : List Str := [str! "--crate-name", str! "m", str! "--out-dir", str! "/home/u/p/target/debug/deps"]

private theorem tw_run (tmp : Str) (h : tmp.head? = some '/') : InRun (tw tmp) tmp (str! "/home/u/p/target") := by
  refine ⟨?_, h, rfl, ?_, ?_, ?_⟩
  · unfold tw AMap.keys
    simp only [List.map_cons, List.map_nil]
    decide +kernel
  · simp [tw, AMap.get?]
  · simp [tw, AMap.get?]
  · simp [tw, AMap.get?]

private theorem tw_home (tmp : Str) : (tw tmp).env.get? (str! "HOME") = some (str! "/home/u") := by
  simp [tw, AMap.get?]

private theorem tw_manifest (tmp : Str) :
    (tw tmp).env.get? (str! "CARGO_MANIFEST_DIR") = some (str! "/home/u/p") := by
  simp [tw, AMap.get?]

private theorem tw_config (tmp : Str) :
    fromConfig (tw tmp) tc = some (some (configArgs (tw tmp) tc (str! "/home/u") (str! "/home/u/p"))) := by
  unfold fromConfig
  rw [tw_home, tw_manifest]
  rfl

private def ti (tmp : Str) : RustcInputs :=
  { outputDirs := [join tmp (str! "comms")].filter
      (fun d => !(PathC.startsWith (pathOf d) (pathOf (str! "/home/u/p/target")))) ++ [str! "/home/u/p/target"]
    inputDirs := [str! "/home/u/p"], buildScriptEnv := [] }

private theorem tw_inputs (tmp : Str) : rustcInputs (tw tmp) tr (fun _ _ => []) = some (ti tmp) := by
  unfold rustcInputs
  have h1 : (tw tmp).env.get? (str! "CACKLE_TARGET_DIR") = some (str! "/home/u/p/target") := by simp [tw, AMap.get?]
  have h2 : (tw tmp).env.get? (str! "CACKLE_BUILD_PROFILE") = some (str! "dev") := by simp [tw, AMap.get?]
  have h3 : (tw tmp).env.get? (str! "CACKLE_MANIFEST_DIR") = some (str! "/home/u/p") := by simp [tw, AMap.get?]
  have h4 : (tw tmp).env.get? (str! "CACKLE_SOCKET_PATH") = some (socketPath tmp) := by simp [tw, AMap.get?]
  have h5 : outDirs tr false = [str! "/home/u/p/target/debug/deps"] := by decide +kernel
  have h6 : PathC.startsWith (pathOf (str! "/home/u/p/target/debug/deps")) (pathOf (str! "/home/u/p/target")) =
      true := by decide +kernel
  rw [h1, h2, h3, h4]
  simp only [parent_socketPath, h5]
  unfold ti
  simp only [Option.toList_some, List.singleton_append, List.filter_cons, h6]
  rfl

private theorem tw_rustc (tmp : Str) : ∃ args, forRustc (tw tmp) tc (ti tmp) (str! "/usr/bin/cackle") = some (some args) ∧
    ∀ vars prog pargs, parse (command args vars prog pargs) =
      some (headOps ++ (configOps (tw tmp) tc [] (str! "/home/u") (str! "/home/u/p") ++
        rustcTailO (tw tmp) (ti tmp) (str! "/usr/bin/cackle")) ++ tailOps vars, prog :: pargs) := by
  obtain ⟨args, hargs⟩ : ∃ args, forRustc (tw tmp) tc (ti tmp) (str! "/usr/bin/cackle") = some (some args) := by
    unfold forRustc
    rw [tw_config]
    exact ⟨_, rfl⟩
  obtain ⟨home, manifest, h1, h2, h3⟩ := rustc_ops (extra := []) (by simp) rfl hargs
  rw [tw_home, Option.some.injEq] at h1
  rw [tw_manifest, Option.some.injEq] at h2
  subst h1 h2
  exact ⟨args, hargs, h3⟩

private theorem told_tr {d : Str} (h : Told tr d) : d = str! "/home/u/p/target/debug/deps" := by
  rcases h with ⟨a, b, h⟩ | h
  · unfold tr at h
    rcases a with _ | ⟨a1, a⟩
    · simp at h
    · rcases a with _ | ⟨a2, a⟩
      · simp at h
      · rcases a with _ | ⟨a3, a⟩
        · simp at h
          exact h.2.2.1
        · rcases a with _ | ⟨a4, a⟩
          · simp at h
          · simp at h
  · unfold tr at h
    simp at h

/-- **C164, disagreement (programs).** A procedural macro that runs in the compiler's sandbox can replace
the build script of another package after it was checked and before it is run: the whole target directory
is writable, not only the directories that this run of rustc writes to. -/
theorem C164_target_writable : ¬ C164_Claim := by
  intro h
  obtain ⟨args, hargs, hparse⟩ := tw_rustc (str! "/tmp/x")
  have := (h (tw (str! "/tmp/x")) (str! "/tmp/x") _ (tw_run _ rfl) tc rfl
    (pathOf (str! "/home/u/p/target/debug/build/other-1/build-script-build"))
    (Or.inr ⟨[str! "debug", str! "build", str! "other-1", str! "build-script-build"], by simp, by decide +kernel⟩)
    (by rintro d (h | h) <;> simp [tc] at h)).2 tr (fun _ _ => []) (ti (str! "/tmp/x")) (str! "/usr/bin/cackle") args
    (tw_inputs _) hargs (by
      intro d hd
      rw [told_tr hd]
      decide +kernel) [] [] [] _ _ (hparse [] [] [])
    (pathOf (str! "/home/u/p/target/debug/build/other-1/build-script-build"))
  apply this
  decide +kernel

/-- **C164, disagreement (configuration).** If the temporary directory lies in the target directory, the
configuration that the wrappers read can be changed from the compiler's sandbox. -/
theorem C164_config_in_target : ¬ C164_ConfigClaim := by
  intro h
  obtain ⟨args, hargs, hparse⟩ := tw_rustc (str! "/home/u/p/target/tmp")
  have := h (tw (str! "/home/u/p/target/tmp")) (str! "/home/u/p/target/tmp") _ (tw_run _ rfl) tc rfl
    (pathOf (str! "/home/u/p/target/tmp/flattened_cackle.toml")) (⟨_, (tw_run _ rfl).config, by decide +kernel⟩)
    (by rintro d (h | h) <;> simp [tc] at h) tr (fun _ _ => []) (ti _) (str! "/usr/bin/cackle") args
    (tw_inputs _) hargs (by
      intro d hd
      rw [told_tr hd]
      decide +kernel) [] [] [] _ _ (hparse [] [] [])
    (pathOf (str! "/home/u/p/target/tmp/flattened_cackle.toml"))
  apply this
  decide +kernel

-- The hypotheses of the two partial theorems are met, and what is said not to be writable is at least
-- writable nearby: the directory of the socket is.
example : InRun (tw (str! "/tmp/x")) (str! "/tmp/x") (str! "/home/u/p/target") ∧
    ConfigFile (tw (str! "/tmp/x")) (pathOf (str! "/tmp/x/flattened_cackle.toml")) ∧
    ¬ pathOf (str! "/home/u/p/target") <+: pathOf (str! "/tmp/x/flattened_cackle.toml") ∧
    rustcInputs (tw (str! "/tmp/x")) tr (fun _ _ => []) = some (ti (str! "/tmp/x")) ∧
    (∀ d, Told tr d → ¬ pathOf d <+: pathOf (str! "/tmp/x/flattened_cackle.toml")) ∧
    ∃ args, forRustc (tw (str! "/tmp/x")) tc (ti (str! "/tmp/x")) (str! "/usr/bin/cackle") = some (some args) ∧
      ∃ ops cmd, parse (command args [] [] []) = some (ops, cmd) ∧
        view (tw (str! "/tmp/x")).pathExists ops (pathOf (str! "/tmp/x/comms/cackle.socket")) =
          some (true, pathOf (str! "/tmp/x/comms/cackle.socket")) ∧
        view (tw (str! "/tmp/x")).pathExists ops (pathOf (str! "/tmp/x/flattened_cackle.toml")) = none := by
  refine ⟨tw_run _ rfl, ⟨_, (tw_run _ rfl).config, by decide +kernel⟩, by decide +kernel, tw_inputs _, ?_, ?_⟩
  · intro d hd
    rw [told_tr hd]
    decide +kernel
  · obtain ⟨args, hargs, hparse⟩ := tw_rustc (str! "/tmp/x")
    exact ⟨args, hargs, _, _, hparse [] [] [], by decide +kernel, by decide +kernel⟩

/-! ## C165 -/

/-- What lies below the home directory, `/var` or `/tmp` is visible only where it was bound afterwards. -/
theorem view_masked {w : World} {cfg : Sandbox} {home manifest : Str} (more : List Op)
    (hmore : ∀ o ∈ more, Mount o) {p : PathC}
    (hp : pathOf home <+: p ∨ pathOf (str! "/var") <+: p ∨ pathOf (str! "/tmp") <+: p) {b : Bool} {q : PathC}
    (h : view w.pathExists (headOps ++ (configOps w cfg [] home manifest ++ more)) p = some (b, q)) :
    ∃ d, pathOf d <+: p ∧ ((str! "--ro-bind", [d, d]) ∈ more ∨ (str! "--bind-try", [d, d]) ∈ more ∨
      d ∈ cfg.bindWritable ∨ d ∈ cfg.makeWritable ∨ d = manifest ∨
      d ∈ [join (join home (str! ".cargo")) (str! "bin"), join (join home (str! ".cargo")) (str! "git"),
        join (join home (str! ".cargo")) (str! "registry"), join home (str! ".rustup")]) := by
  let pre : List Op := roBindO w (str! "/") ++ (tmpfsO home ++ (tmpfsO (str! "/var") ++ tmpfsO (str! "/tmp")))
  have e : ∃ rest, configOps w cfg [] home manifest = pre ++ rest ∧
      ∀ o ∈ rest, o ∈ configOps w cfg [] home manifest ∧
        ∀ d, o = (str! "--ro-bind", [d, d]) → d ∈ [join (join home (str! ".cargo")) (str! "bin"),
          join (join home (str! ".cargo")) (str! "git"), join (join home (str! ".cargo")) (str! "registry"),
          join home (str! ".rustup"), manifest] := by
    have hdrop : ∃ rest, configOps w cfg [] home manifest = pre ++ rest ∧ rest = 
        roBindO w (join (join home (str! ".cargo")) (str! "bin")) ++
        (roBindO w (join (join home (str! ".cargo")) (str! "git")) ++
        (roBindO w (join (join home (str! ".cargo")) (str! "registry")) ++
        (roBindO w (join home (str! ".rustup")) ++
        (setEnvO (str! "USER") (str! "user") ++ (passEnvO w (str! "PATH") ++ (passEnvO w (str! "HOME") ++
        (cfg.passEnv.flatMap (passEnvO w) ++
        (roBindO w manifest ++
        (passEnvO w (str! "LD_LIBRARY_PATH") ++ (passCargoEnvO w ++
        (cfg.bindWritable.flatMap writableBindO ++ (cfg.makeWritable.flatMap writableBindO ++
        (if cfg.allowNetwork.getD false then [(str! "--share-net", [])] else tmpfsO (str! "/run")))))))))))))) := by
      refine ⟨_, ?_, rfl⟩
      unfold configOps
      simp only [pre, List.append_assoc, List.nil_append]
    obtain ⟨rest, h1, h2⟩ := hdrop
    refine ⟨rest, h1, ?_⟩
    intro o ho
    refine ⟨by rw [h1]; exact List.mem_append_right _ ho, ?_⟩
    rintro d rfl
    rw [h2] at ho
    revert ho
    simp only [List.mem_append, mem_roBindO, mem_setEnvO, mem_passEnvO, mem_passCargoEnvO,
      List.mem_flatMap, mem_writableBindO]
    have hnet : ¬ (str! "--ro-bind", [d, d]) ∈
        (if cfg.allowNetwork.getD false = true then [(str! "--share-net", [])] else tmpfsO (str! "/run")) := by
      split <;> simp [tmpfsO]
    rintro (⟨-, h⟩ | ⟨-, h⟩ | ⟨-, h⟩ | ⟨-, h⟩ | h | ⟨x, -, h⟩ | ⟨x, -, h⟩ | ⟨v, -, x, -, h⟩ | ⟨-, h⟩ | ⟨x, -, h⟩ |
      (⟨x, -, h⟩ | ⟨x, -, -, h⟩) | ⟨x, -, h⟩ | ⟨x, -, h⟩ | h)
    all_goals first
      | exact absurd h hnet
      | (simp at h; done)
      | (simp only [Prod.mk.injEq, List.cons.injEq, and_true, true_and, and_self] at h; subst h; simp; done)
  obtain ⟨rest, e, hrest⟩ := e
  have hm : ∀ o ∈ rest ++ more, Mount o :=
    mount_append (fun o ho => mount_config o (hrest o ho).1) hmore
  have h0 : (headOps ++ pre).foldl (viewStep w.pathExists p) none = none := by
    rw [List.foldl_append]
    generalize headOps.foldl (viewStep w.pathExists p) none = v0
    simp only [pre, tmpfsO]
    rw [List.foldl_append]
    generalize (roBindO w (str! "/")).foldl (viewStep w.pathExists p) v0 = v1
    simp only [List.cons_append, List.nil_append, List.foldl_cons, List.foldl_nil]
    rw [viewStep_hide (d := home) (Or.inl rfl), viewStep_hide (d := str! "/var") (Or.inl rfl),
      viewStep_hide (d := str! "/tmp") (Or.inl rfl)]
    rcases hp with hp | hp | hp
    · rw [if_pos hp]; simp
    · rw [if_pos hp]; simp
    · rw [if_pos hp]
  unfold view at h
  rw [e, ← List.append_assoc, ← List.append_assoc, List.append_assoc, List.foldl_append, h0] at h
  rcases view_sound hm h with h1 | ⟨hq, d, hd, h1⟩
  · simp at h1
  · refine ⟨d, hd, ?_⟩
    rcases h1 with ⟨-, h1⟩ | ⟨-, h1⟩
    · rcases List.mem_append.mp h1 with h1 | h1
      · have := (hrest _ h1).2 d rfl
        simp only [List.mem_cons, List.not_mem_nil, or_false] at this ⊢
        rcases this with h | h | h | h | h <;> simp [h]
      · exact Or.inl h1
    · rcases List.mem_append.mp h1 with h1 | h1
      · rcases mem_configOps (hrest _ h1).1 with ⟨d', e, -⟩ | ⟨d', e, -⟩ | ⟨d', e, h2⟩ | e | ⟨u, y, e, -, -⟩ |
          ⟨u, y, e, -, -⟩ | h1 | ⟨e, -⟩
        · simp at e
        · simp at e
        · simp only [Prod.mk.injEq, List.cons.injEq, and_true, true_and, and_self] at e
          subst e
          rcases List.mem_append.mp h2 with h2 | h2 <;> simp [h2]
        · simp at e
        · simp at e
        · simp at e
        · simp at h1
        · simp at e
      · exact Or.inr (Or.inl h1)

private theorem cackle_not_passed {v : Str} (h : str! "CACKLE_" <+: v) :
    v ≠ str! "PWD" ∧ v ≠ str! "USER" ∧ v ∉ [str! "PATH", str! "HOME", str! "LD_LIBRARY_PATH"] ∧ ¬ CargoVar v := by
  obtain ⟨t, rfl⟩ := h
  refine ⟨by simp, by simp, by simp, ?_⟩
  rintro ⟨-, h⟩
  rcases h with ⟨u, h⟩ | ⟨u, h⟩ | ⟨u, h⟩ | h
  · simp at h
  · simp at h
  · simp at h
  · simp at h

/-- **C165, the part that holds always.** None of cackle's own variables is visible to a sandboxed build
script or test unless the user passes it on. -/
theorem C165_variables_partial (w : World) (tmp target : Str) (hr : InRun w tmp target) (cfg : Sandbox)
    (hx : cfg.extraArgs = []) (bin : Str) (args : List Str) (h : forPermSel w cfg bin = some (some args))
    (vars : List (Str × Option Str)) (prog : Str) (pargs : List Str) (ops : List Op) (cmd : List Str)
    (hparse : parse (command args vars prog pargs) = some (ops, cmd)) (v : Str) (hv : str! "CACKLE_" <+: v)
    (hpass : v ∉ cfg.passEnv) (hvars : ∀ x, (v, some x) ∉ vars) : (envOf w.env ops).get? v = none := by
  obtain ⟨ops', h1, -, -, h2⟩ := C36_isolation w hr.nodup cfg bin args [] (by simp) (by simp [hx]) h vars prog pargs
  rw [h1, Option.some.injEq, Prod.mk.injEq] at hparse
  rw [← hparse.1]
  cases hg : (envOf w.env ops').get? v with
  | none => rfl
  | some x =>
    exfalso
    obtain ⟨h3, h4, h5, h6⟩ := cackle_not_passed hv
    rcases h2 v x hg with h7 | ⟨h7, -⟩ | h7 | h7 | ⟨-, h7 | h7 | h7⟩
    · exact h3 h7
    · exact h4 h7
    · exact hvars x h7
    · simp at h7
    · exact h5 h7
    · exact hpass h7
    · exact h6 h7

/-- **C165, the part that holds for the usual temporary directories.** Below the home directory, `/var` or
`/tmp`, the socket is not visible at all to a sandboxed build script or test unless it lies in a directory
bound on purpose. Missing: a temporary directory elsewhere, see below. -/
theorem C165_socket_partial (w : World) (tmp target : Str) (hr : InRun w tmp target) (cfg : Sandbox)
    (hx : cfg.extraArgs = []) (bin : Str) (args : List Str) (h : forPermSel w cfg bin = some (some args))
    (vars : List (Str × Option Str)) (prog : Str) (pargs : List Str) (ops : List Op) (cmd : List Str)
    (hparse : parse (command args vars prog pargs) = some (ops, cmd))
    (home : Str) (hhome : w.env.get? (str! "HOME") = some home) (habs : home.head? = some '/')
    (hbelow : pathOf home <+: pathOf tmp ∨ pathOf (str! "/var") <+: pathOf tmp ∨ pathOf (str! "/tmp") <+: pathOf tmp)
    (p : PathC) (hp : SocketFile w p) (hparts : ∀ part ∈ homeParts, ¬ pathOf home ++ part <+: p)
    (hb : ∀ d, BoundFor w cfg bin d → ¬ pathOf d <+: p) : view w.pathExists ops p = none := by
  cases hv : view w.pathExists ops p with
  | none => rfl
  | some bq =>
    exfalso
    obtain ⟨b, q⟩ := bq
    obtain ⟨home', manifest, h1, h2, h3⟩ := permSel_ops (extra := []) (by simp) (by simp [hx]) h
    rw [hhome, Option.some.injEq] at h1
    subst h1
    rw [h3, Option.some.injEq, Prod.mk.injEq] at hparse
    rw [← hparse.1, List.append_assoc, List.append_assoc] at hv
    have hbelow' : pathOf home <+: p ∨ pathOf (str! "/var") <+: p ∨ pathOf (str! "/tmp") <+: p := by
      obtain ⟨s, hs, rfl⟩ := hp
      rw [hr.socket, Option.some.injEq] at hs
      subst hs
      rw [pathOf_socketPath hr.tmpAbs]
      rcases hbelow with h | h | h
      · exact Or.inl (h.trans (List.prefix_append _ _))
      · exact Or.inr (Or.inl (h.trans (List.prefix_append _ _)))
      · exact Or.inr (Or.inr (h.trans (List.prefix_append _ _)))
    obtain ⟨d, hd, h4⟩ := view_masked (permTailO w bin ++ tailOps vars)
      (mount_append mount_permTail mount_tail) hbelow' hv
    have hcargo := pathOf_join (b := str! ".cargo") habs (by decide) (by decide) (by decide)
    rcases h4 with h4 | h4 | h4 | h4 | h4 | h4
    · rcases List.mem_append.mp h4 with h4 | h4
      · rcases mem_permTailO h4 with ⟨d', h5, -, e⟩ | ⟨d', -, e⟩
        · simp only [Prod.mk.injEq, List.cons.injEq, and_true, true_and, and_self] at e
          subst e
          exact hb d (Or.inr (Or.inr (Or.inr (Or.inl h5)))) hd
        · simp at e
      · rcases mem_tailOps h4 with e | e | ⟨v, x, -, e⟩ | ⟨v, -, e⟩ <;> simp at e
    · rcases List.mem_append.mp h4 with h4 | h4
      · rcases mem_permTailO h4 with ⟨d', -, -, e⟩ | ⟨d', h5, e⟩
        · simp at e
        · simp only [Prod.mk.injEq, List.cons.injEq, and_true, true_and, and_self] at e
          subst e
          exact hb d (Or.inr (Or.inr (Or.inr (Or.inr h5)))) hd
      · rcases mem_tailOps h4 with e | e | ⟨v, x, -, e⟩ | ⟨v, -, e⟩ <;> simp at e
    · exact hb d (Or.inr (Or.inl h4)) hd
    · exact hb d (Or.inr (Or.inr (Or.inl h4))) hd
    · subst h4
      exact hb d (Or.inl h2) hd
    · simp only [List.mem_cons, List.not_mem_nil, or_false] at h4
      rcases h4 with rfl | rfl | rfl | rfl
      · rw [(pathOf_join hcargo.2 (by decide) (by decide) (by decide)).1, hcargo.1, List.append_assoc] at hd
        exact hparts [str! ".cargo", str! "bin"] (by simp [homeParts]) hd
      · rw [(pathOf_join hcargo.2 (by decide) (by decide) (by decide)).1, hcargo.1, List.append_assoc] at hd
        exact hparts [str! ".cargo", str! "git"] (by simp [homeParts]) hd
      · rw [(pathOf_join hcargo.2 (by decide) (by decide) (by decide)).1, hcargo.1, List.append_assoc] at hd
        exact hparts [str! ".cargo", str! "registry"] (by simp [homeParts]) hd
      · rw [(pathOf_join habs (by decide) (by decide) (by decide)).1] at hd
        exact hparts [str! ".rustup"] (by simp [homeParts]) hd

private def tb : Str := str! "/home/u/p/target/debug/build/b-1/build-script-build"

private theorem tw_perm (tmp : Str) : ∃ args, forPermSel (tw tmp) tc tb = some (some args) ∧
    ∀ vars prog pargs, parse (command args vars prog pargs) =
      some (headOps ++ (configOps (tw tmp) tc [] (str! "/home/u") (str! "/home/u/p") ++
        permTailO (tw tmp) tb) ++ tailOps vars, prog :: pargs) := by
  obtain ⟨args, hargs⟩ : ∃ args, forPermSel (tw tmp) tc tb = some (some args) := by
    unfold forPermSel
    rw [tw_config]
    exact ⟨_, rfl⟩
  obtain ⟨home, manifest, h1, h2, h3⟩ := permSel_ops (extra := []) (by simp) rfl hargs
  rw [tw_home, Option.some.injEq] at h1
  rw [tw_manifest, Option.some.injEq] at h2
  subst h1 h2
  exact ⟨args, hargs, h3⟩

private theorem tb_bound (tmp : Str) {d : Str} (h : BoundFor (tw tmp) tc tb d) :
    d = str! "/home/u/p" ∨ d = str! "/home/u/p/target/debug/build/b-1" := by
  rcases h with h | h | h | h | h
  · rw [tw_manifest, Option.some.injEq] at h
    exact Or.inl h.symm
  · simp [tc] at h
  · simp [tc] at h
  · have : buildDirectory tb = some (str! "/home/u/p/target/debug/build/b-1") := by decide +kernel
    rw [this, Option.some.injEq] at h
    exact Or.inr h.symm
  · have : (tw tmp).env.get? (str! "OUT_DIR") = none := by simp [tw, AMap.get?]
    rw [this] at h
    simp at h

/-- **C165, disagreement.** With a temporary directory that is not below the home directory, `/var` or
`/tmp` (for example `TMPDIR=/scratch`), the socket is visible in the sandbox of every build script and test,
because everything else is bound read-only, and a socket can be connected to in a directory that is bound
read-only. -/
theorem C165_socket_visible : ¬ C165_Claim := by
  intro h
  obtain ⟨args, hargs, hparse⟩ := tw_perm (str! "/scratch/x")
  have := (h (tw (str! "/scratch/x")) (str! "/scratch/x") _ (tw_run _ rfl) tc rfl tb args hargs [] [] [] _ _
    (hparse [] [] [])).2 (pathOf (str! "/scratch/x/comms/cackle.socket")) (⟨_, (tw_run _ rfl).socket, by decide +kernel⟩) (by
      intro d hd
      rcases tb_bound _ hd with rfl | rfl <;> decide +kernel)
  revert this
  decide +kernel

-- The hypotheses of the two partial theorems are met, and the variables are set outside.
example : InRun (tw (str! "/tmp/x")) (str! "/tmp/x") (str! "/home/u/p/target") ∧
    (∃ args, forPermSel (tw (str! "/tmp/x")) tc tb = some (some args)) ∧
    SocketFile (tw (str! "/tmp/x")) (pathOf (str! "/tmp/x/comms/cackle.socket")) ∧
    (∀ part ∈ homeParts, ¬ pathOf (str! "/home/u") ++ part <+: pathOf (str! "/tmp/x/comms/cackle.socket")) ∧
    (∀ d, BoundFor (tw (str! "/tmp/x")) tc tb d → ¬ pathOf d <+: pathOf (str! "/tmp/x/comms/cackle.socket")) ∧
    pathOf (str! "/tmp") <+: pathOf (str! "/tmp/x") ∧ str! "CACKLE_SOCKET_PATH" ∉ tc.passEnv ∧
    (tw (str! "/tmp/x")).env.get? (str! "CACKLE_SOCKET_PATH") = some (socketPath (str! "/tmp/x")) := by
  refine ⟨tw_run _ rfl, ?_, ⟨_, (tw_run _ rfl).socket, by decide +kernel⟩, by decide +kernel, ?_, by decide +kernel,
    by simp [tc], (tw_run _ rfl).socket⟩
  · obtain ⟨args, hargs, -⟩ := tw_perm (str! "/tmp/x")
    exact ⟨args, hargs⟩
  · intro d hd
    rcases tb_bound _ hd with rfl | rfl <;> decide +kernel

end Cackle.Sandboxing
