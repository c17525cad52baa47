import Verif.Lemmas.Server
import Verif.Props.EnvVars
import Verif.Props.SandboxTrust

/-!
# C180: requests made by others than cackle's processes

The sandbox of the compiler contains the socket of the main process, because the wrapper of the linker runs
in that sandbox too. So procedural macros can make requests. The requests are numbered in the order in which
they arrive; which of them are made by cackle's own processes is left open.
-/

namespace Cackle.Checker
open Cackle Config Perm

/-! ## Specification -/

/-- The main process was told by request number `i` that a file was linked. -/
def LinkToldBy (s : Sys) (i : Nat) (li : LinkInfo) : Prop := ∃ h, s.handlers[i]? = some h ∧ h.req = .linkerInvoked li

/-- The requests made by cackle's own processes do not report two files linked from the same crate (otherwise
C08 is refuted without the help of a macro). -/
def OneFileEach (s : Sys) (honest : Nat → Prop) : Prop :=
  ∀ i j li li', honest i → honest j → LinkToldBy s i li → LinkToldBy s j li' → li'.crate = li.crate → li' = li

/-- The English claim C180. -/
def C180_Claim : Prop :=
  ∀ (P : Parts) (idx : Index) (s : Sys) (links : List LinkInfo) (log : List Analysis) (tr : List CEv),
    SysRun P idx s links log tr → Succeeded s →
    ∀ honest : Nat → Prop, OneFileEach s honest →
    ∀ i li, honest i → LinkToldBy s i li → AnalysedOk P idx log li

/-! ## Lemmas -/

/-- Whatever is among the linked files was reported by a request. -/
theorem linked_told {P : Parts} {idx : Index} {sys : Sys} {links : List LinkInfo} {log : List Analysis} {tr : List CEv}
    (h : SysRun P idx sys links log tr) : ∀ li ∈ links, ∃ i, LinkToldBy sys i li := by
  have keep : ∀ (hs : List Handler) (c c' : State) (k : Nat) (y y' : Handler) (li : LinkInfo), hs[k]? = some y → y'.req = y.req →
      (∃ i, LinkToldBy ⟨c, hs⟩ i li) → ∃ i, LinkToldBy ⟨c', hs.set k y'⟩ i li := by
    rintro hs c c' k y y' li hk hq ⟨i, x, hx, hr⟩
    by_cases hik : k = i
    · subst hik
      refine ⟨k, y', ?_, ?_⟩
      · have := (List.getElem?_eq_some_iff.mp hk).1
        simp [this]
      · rw [hk, Option.some.injEq] at hx
        rw [hq, hx, hr]
    · exact ⟨i, x, by simpa [List.getElem?_set, hik] using hx, hr⟩
  induction h with
  | init => simp
  | load cfg hn h ih => exact ih
  | start req h ih =>
    intro li hl
    obtain ⟨i, x, hx, hr⟩ := ih li hl
    exact ⟨i, x, by rw [List.getElem?_append_left (List.getElem?_eq_some_iff.mp hx).1]; exact hx, hr⟩
  | check i y hh hr h ih =>
    intro li hl
    rcases List.mem_append.mp hl with hl | hl
    · refine keep _ {} _ _ _ _ li hh (Server.check_req ..) ⟨i, y, hh, ?_⟩
      unfold linksOf at hl
      split at hl
      · rename_i l e
        simp only [List.mem_singleton] at hl
        rw [e, hl]
      · simp at hl
    · exact keep _ _ _ _ _ _ li hh (Server.check_req ..) (ih li hl)
  | resume i y retry hh hr cfg hn h ih => exact fun li hl => keep _ _ _ _ _ _ li hh (Server.resume_req ..) (ih li hl)
  | resumeBad i y retry hh hr h ih => exact fun li hl => keep _ _ _ _ _ _ li hh (Server.resume_req ..) (ih li hl)
  | giveUp i y retry hh hr h ih => exact fun li hl => keep _ _ _ _ _ _ li hh rfl (ih li hl)

/-! ## C180 -/

/-- **C180 (partial).** In every successful run the last analysis of each file whose linking was reported used
scan results of that file and found no problems, whatever other requests macros made and in whatever order,
if they did not report the linking of other files from the same crate, or none of the files from that crate
was found to have problems. Missing: see `C180_forged`. -/
theorem C180_partial (P : Parts) (idx : Index) (s : Sys) (links : List LinkInfo) (log : List Analysis) (tr : List CEv)
    (h : SysRun P idx s links log tr) (hs : Succeeded s) (i : Nat) (li : LinkInfo) (hi : LinkToldBy s i li)
    (hu : (∀ j li', LinkToldBy s j li' → li'.crate = li.crate → li' = li) ∨
      ∀ a ∈ log, a.li.crate = li.crate → a.problems = []) : AnalysedOk P idx log li := by
  obtain ⟨x, hx, hr⟩ := hi
  have hl := Server.linked_reported h x (List.mem_of_getElem? hx) li hr (by rw [hs.1 x (List.mem_of_getElem? hx)]; intro e; cases e)
  refine C08_linked_analysed_partial P idx s links log tr h hs li hl ?_
  refine hu.imp (fun hu li' hl' hc => ?_) id
  obtain ⟨j, hj⟩ := linked_told h li' hl'
  exact hu j li' hj hc

deriving instance DecidableEq for Request

/-- The requests of `C08Ex.bad_run`, where the first two are made by a macro. -/
theorem forged_run : ∃ s links log tr, SysRun C08Ex.P C08Ex.idx s links log tr ∧ Succeeded s ∧
    s.handlers.map Handler.req = [.linkerInvoked C08Ex.x, .rustcComplete C08Ex.crate [], .linkerInvoked C08Ex.y,
      .rustcComplete C08Ex.crate []] ∧
    (log.find? (fun a => a.li = C08Ex.y)).map (fun a => a.out.usages) = some [C08Ex.fsUse] := by
  have r : SysRun C08Ex.P C08Ex.idx _ _ _ _ := .load {} (by simp [AMap.keys]) .init
  have r := SysRun.start (.linkerInvoked C08Ex.x) r
  have r := SysRun.check 0 _ rfl rfl r
  have r := SysRun.start (.rustcComplete C08Ex.crate []) r
  have r := SysRun.check 1 _ rfl rfl r
  have r := SysRun.start (.linkerInvoked C08Ex.y) r
  have r := SysRun.check 2 _ rfl rfl r
  have r := SysRun.start (.rustcComplete C08Ex.crate []) r
  have r := SysRun.check 3 _ rfl rfl r
  have r := SysRun.resume 1 _ _ rfl rfl C08Ex.cfg C08Ex.cfg_nodup r
  have r := SysRun.check 1 _ rfl rfl r
  have r := SysRun.resume 3 _ _ rfl rfl C08Ex.cfg C08Ex.cfg_nodup r
  have r := SysRun.check 3 _ rfl rfl r
  exact ⟨_, _, _, _, r, C08Ex.succeeded_of (n := 4) (by decide +kernel) (by decide +kernel), by decide +kernel,
    by decide +kernel⟩

/-- **C180, disagreement.** The build links one file `y`, which uses `net`, and reports that properly. A macro
has reported before that the same crate was linked into another file `x`, which uses `fs`. The user allows
`fs`, nothing else, and the build succeeds without `y` having been examined. -/
theorem C180_forged : ∃ s links log tr, SysRun C08Ex.P C08Ex.idx s links log tr ∧ Succeeded s ∧
    OneFileEach s (· ≥ 2) ∧ LinkToldBy s 2 C08Ex.y ∧ ¬ AnalysedOk C08Ex.P C08Ex.idx log C08Ex.y := by
  obtain ⟨s, links, log, tr, hr, hs, hq, hau⟩ := forged_run
  have hat : ∀ i : Nat, s.handlers[i]?.map Handler.req = ([.linkerInvoked C08Ex.x, .rustcComplete C08Ex.crate [],
      .linkerInvoked C08Ex.y, .rustcComplete C08Ex.crate []] : List Request)[i]? := by
    intro i
    rw [← List.getElem?_map, hq]
  have only : ∀ i li, i ≥ 2 → LinkToldBy s i li → li = C08Ex.y := by
    rintro i li hi ⟨h, hh, he⟩
    have := hat i
    rw [hh] at this
    match i, hi with
    | 2, _ => simpa [he] using this
    | 3, _ => simp [he] at this
    | n + 4, _ => simp at this
  refine ⟨s, links, log, tr, hr, hs, ?_, ?_, ?_⟩
  · intro i j li li' h1 h2 h3 h4 _
    rw [only i li h1 h3, only j li' h2 h4]
  · have := hat 2
    obtain ⟨h, hh, he⟩ := Option.map_eq_some_iff.mp (this.trans rfl)
    exact ⟨h, hh, he⟩
  · rintro ⟨b, hb, ⟨c, o, h1, _, h3⟩, _⟩
    obtain ⟨a, ha, hu⟩ := Option.map_eq_some_iff.mp hau
    rw [ha] at hb
    cases hb
    have hl : b.li = C08Ex.y := by simpa using List.find?_some ha
    rw [hl] at h1
    have h2 : C08Ex.P.scan c C08Ex.y = some { usages := [C08Ex.netUse] } := rfl
    rw [h2, Option.some.injEq] at h1
    subst h1
    rw [h3] at hu
    simp only [List.cons.injEq, and_true] at hu
    exact absurd hu (by decide)

/-- **C180, disagreement.** -/
theorem C180_refuted : ¬ C180_Claim := by
  intro hc
  obtain ⟨s, links, log, tr, hr, hs, h1, h2, h3⟩ := C180_forged
  exact h3 (hc _ _ s links log tr hr hs _ h1 2 _ (Nat.le_refl 2) h2)

/-- A run in which a macro reports once more that a crate is complete. -/
example : ∃ s links log tr, SysRun C08Ex.P C08Ex.idx s links log tr ∧ Succeeded s ∧ LinkToldBy s 0 C08Ex.x ∧
    (∀ j li', LinkToldBy s j li' → li'.crate = C08Ex.x.crate → li' = C08Ex.x) ∧
    s.handlers.length = 3 ∧ AnalysedOk C08Ex.P C08Ex.idx log C08Ex.x := by
  have r : SysRun C08Ex.P C08Ex.idx _ _ _ _ := .load {} (by simp [AMap.keys]) .init
  have r := SysRun.start (.linkerInvoked C08Ex.x) r
  have r := SysRun.check 0 _ rfl rfl r
  have r := SysRun.start (.rustcComplete C08Ex.crate []) r
  have r := SysRun.check 1 _ rfl rfl r
  have r := SysRun.resume 1 _ _ rfl rfl C08Ex.cfg C08Ex.cfg_nodup r
  have r := SysRun.check 1 _ rfl rfl r
  have r := SysRun.start (.rustcComplete C08Ex.crate []) r
  have r := SysRun.check 2 _ rfl rfl r
  have hall : ∀ s links log tr, SysRun C08Ex.P C08Ex.idx s links log tr → Succeeded s →
      s.handlers.map Handler.req = [.linkerInvoked C08Ex.x, .rustcComplete C08Ex.crate [],
        .rustcComplete C08Ex.crate []] → ∃ s links log tr, SysRun C08Ex.P C08Ex.idx s links log tr ∧ Succeeded s ∧
      LinkToldBy s 0 C08Ex.x ∧ (∀ j li', LinkToldBy s j li' → li'.crate = C08Ex.x.crate → li' = C08Ex.x) ∧
      s.handlers.length = 3 ∧ AnalysedOk C08Ex.P C08Ex.idx log C08Ex.x := by
    intro s links log tr hr hs hq
    have hat : ∀ i : Nat, s.handlers[i]?.map Handler.req = ([.linkerInvoked C08Ex.x, .rustcComplete C08Ex.crate [],
        .rustcComplete C08Ex.crate []] : List Request)[i]? := by
      intro i
      rw [← List.getElem?_map, hq]
    have h0 : LinkToldBy s 0 C08Ex.x := by
      obtain ⟨h, hh, he⟩ := Option.map_eq_some_iff.mp ((hat 0).trans rfl)
      exact ⟨h, hh, he⟩
    have only : ∀ j li', LinkToldBy s j li' → li'.crate = C08Ex.x.crate → li' = C08Ex.x := by
      rintro j li' ⟨h, hh, he⟩ _
      have := hat j
      rw [hh] at this
      match j with
      | 0 => simpa [he] using this
      | 1 => simp [he] at this
      | 2 => simp [he] at this
      | n + 3 => simp at this
    exact ⟨s, links, log, tr, hr, hs, h0, only, by simpa using congrArg List.length hq,
      C180_partial _ _ s links log tr hr hs 0 _ h0 (.inl only)⟩
  exact hall _ _ _ _ r (C08Ex.succeeded_of (n := 3) (by decide +kernel) (by decide +kernel)) (by decide +kernel)

end Cackle.Checker

namespace Cackle.Sandboxing
open Cackle Config Perm BuildScript Identity

/-- **C180, the way in.** A program in the sandbox of the compiler finds the path of the socket in its
environment, and what it opens under that path is the socket of the main process, which it may write to. -/
theorem C180_reachable (w : World) (tmp target : Str) (hr : InRun w tmp target) (cfg : Sandbox)
    (items : List Rustc.Item) (hi : ∀ i ∈ items, PlainOutDir i)
    (rv : Str → Str → List Str) (inp : RustcInputs) (hinp : rustcInputs w (Rustc.render items) rv = some inp)
    (exe : Str) (args : List Str) (hx : cfg.extraArgs = []) (h : forRustc w cfg inp exe = some (some args))
    (vars : List (Str × Option Str)) (hvars : ∀ e ∈ vars, e.1 ≠ str! "CACKLE_SOCKET_PATH")
    (prog : Str) (pargs : List Str)
    (hdev : ¬ pathOf (str! "/dev") <+: pathOf (socketPath tmp))
    (hproc : ¬ pathOf (str! "/proc") <+: pathOf (socketPath tmp))
    (hex : w.pathExists (join tmp (str! "comms")) = true) (hte : w.pathExists target = true)
    (hexe : ¬ pathOf exe <+: pathOf (socketPath tmp)) :
    ∃ ops s, parse (command args vars prog pargs) = some (ops, prog :: pargs) ∧
      (envOf w.env ops).get? (str! "CACKLE_SOCKET_PATH") = some s ∧ SocketFile w (pathOf s) ∧
      view w.pathExists ops (pathOf s) = some (true, pathOf s) := by
  obtain ⟨ops, hp, he⟩ := rustc_env w cfg inp exe args [] (by simp) (by simp [hx]) h vars prog pargs
    (str! "CACKLE_SOCKET_PATH") (socketPath tmp) (Or.inl (by simp)) hr.socket hvars
  refine ⟨ops, socketPath tmp, hp, he, ⟨_, hr.socket, rfl⟩, ?_⟩
  have hsp := pathOf_socketPath hr.tmpAbs
  refine (C69_rustc w cfg items hi rv inp hinp exe args hx h vars prog pargs ops _ hp (pathOf (socketPath tmp))
    hdev hproc target hr.target hte).1 (join tmp (str! "comms"))
    (Or.inl (Or.inr ⟨_, hr.socket, parent_socketPath tmp⟩)) hex ?_ hexe
  rw [hsp, pathOf_comms hr.tmpAbs]
  exact ⟨[str! "cackle.socket"], by simp⟩

private def fw : World :=
  { env := [(str! "HOME", str! "/home/u"), (str! "CARGO_MANIFEST_DIR", str! "/home/u/p"),
      (str! "CACKLE_SOCKET_PATH", str! "/tmp/c/comms/cackle.socket"),
      (str! "CACKLE_CONFIG_PATH", str! "/tmp/c/flattened_cackle.toml"),
      (str! "CACKLE_TARGET_DIR", str! "/home/u/p/target"), (str! "CACKLE_BUILD_PROFILE", str! "dev"),
      (str! "CACKLE_MANIFEST_DIR", str! "/home/u/p")]
    pathExists := fun _ => true, isDir := fun _ => true, mkdir := fun _ => true }

private def fi : List Rustc.Item := [.valued (str! "--out-dir") (str! "/home/u/p/target/debug/deps")]

example : ∃ inp args ops s, InRun fw (str! "/tmp/c") (str! "/home/u/p/target") ∧
    rustcInputs fw (Rustc.render fi) (fun _ _ => []) = some inp ∧
    forRustc fw { kind := some .bubblewrap } inp (str! "/usr/bin/cackle") = some (some args) ∧
    parse (command args [] (str! "rustc") []) = some (ops, [str! "rustc"]) ∧
    (envOf fw.env ops).get? (str! "CACKLE_SOCKET_PATH") = some s ∧ SocketFile fw (pathOf s) ∧
    view fw.pathExists ops (pathOf s) = some (true, pathOf s) := by
  have hrun : InRun fw (str! "/tmp/c") (str! "/home/u/p/target") :=
    ⟨by decide +kernel, rfl, rfl, by decide +kernel, by decide +kernel, by decide +kernel⟩
  have hc : ∃ a, fromConfig fw { kind := some .bubblewrap } = some (some a) := by
    unfold fromConfig
    have h1 : fw.env.get? (str! "HOME") = some (str! "/home/u") := by decide +kernel
    have h2 : fw.env.get? (str! "CARGO_MANIFEST_DIR") = some (str! "/home/u/p") := by decide +kernel
    rw [h1, h2]
    exact ⟨_, rfl⟩
  obtain ⟨a, ha⟩ := hc
  have hi : ∃ inp args, rustcInputs fw (Rustc.render fi) (fun _ _ => []) = some inp ∧
      forRustc fw { kind := some .bubblewrap } inp (str! "/usr/bin/cackle") = some (some args) := by
    have h2 : fw.env.get? (str! "CACKLE_BUILD_PROFILE") = some (str! "dev") := by decide +kernel
    have h3 : fw.env.get? (str! "CACKLE_MANIFEST_DIR") = some (str! "/home/u/p") := by decide +kernel
    unfold rustcInputs forRustc
    rw [hrun.target, h2, h3, ha]
    exact ⟨_, _, rfl, rfl⟩
  obtain ⟨inp, args, h1, h2⟩ := hi
  obtain ⟨ops, s, h⟩ := C180_reachable fw _ _ hrun { kind := some .bubblewrap } fi
    (by intro i hi; simp only [fi, List.mem_singleton] at hi; subst hi; simp [PlainOutDir])
    _ inp h1 (str! "/usr/bin/cackle") args rfl h2 [] (by simp) (str! "rustc") [] (by decide +kernel) (by decide +kernel)
    rfl rfl (by decide +kernel)
  exact ⟨inp, args, ops, s, hrun, h1, h2, h⟩

end Cackle.Sandboxing
