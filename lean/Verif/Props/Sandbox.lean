import Verif.Lemmas.Sandbox
import Verif.Props.BuildScript

/-!
# C36, C58, C59, C60, C61: what a sandboxed program can reach
-/

namespace Cackle.Sandboxing
open Cackle Config Perm BuildScript Identity

/-! ## Specification -/

/-- A variable that cargo provides to the programs it runs. -/
def CargoVar (v : Str) : Prop :=
  v ≠ str! "RUSTC_WRAPPER" ∧
  (str! "CARGO" <+: v ∨ str! "RUSTC" <+: v ∨ str! "DEP_" <+: v ∨
   v ∈ [str! "TARGET", str! "OPT_LEVEL", str! "PROFILE", str! "HOST", str! "NUM_JOBS", str! "DEBUG",
        str! "OUT_DIR"])

/-- A variable that may be visible with value `x`: kept by `bwrap` itself, set by cackle, set for this
command, set by the user's extra arguments, or passed on from the environment for one of the known
reasons. -/
def MayPass (w : World) (passed : List Str) (vars : List (Str × Option Str)) (extra : List Op) (v x : Str) :
    Prop :=
  v = str! "PWD" ∨ (v = str! "USER" ∧ x = str! "user") ∨ (v, some x) ∈ vars ∨
  (str! "--setenv", [v, x]) ∈ extra ∨
  (w.env.get? v = some x ∧
    (v ∈ [str! "PATH", str! "HOME", str! "LD_LIBRARY_PATH"] ∨ v ∈ passed ∨ CargoVar v))

/-! ## The options of the two kinds of sandbox -/

def permTailO (w : World) (bin : Str) : List Op :=
  ((buildDirectory bin).map (roBindO w)).getD [] ++
    ((w.env.get? (str! "OUT_DIR")).map writableBindO).getD []

def rustcTailO (w : World) (inp : RustcInputs) (exe : Str) : List Op :=
  inp.inputDirs.flatMap (roBindO w) ++ inp.outputDirs.flatMap writableBindO ++
    [str! "CACKLE_SOCKET_PATH", str! "CACKLE_CONFIG_PATH", envMultiple].flatMap (passEnvO w) ++
    inp.buildScriptEnv.flatMap (passEnvO w) ++ roBindO w exe

theorem enc_permTail (w : World) (bin : Str) : (permTailO w bin).flatMap enc =
    ((buildDirectory bin).map (roBind w)).getD [] ++
      ((w.env.get? (str! "OUT_DIR")).map writableBind).getD [] := by
  unfold permTailO
  rw [List.flatMap_append]
  congr 1
  · cases buildDirectory bin with
    | none => rfl
    | some d => exact enc_roBind w d
  · cases w.env.get? (str! "OUT_DIR") with
    | none => rfl
    | some d => rfl

theorem enc_rustcTail (w : World) (inp : RustcInputs) (exe : Str) : (rustcTailO w inp exe).flatMap enc =
    inp.inputDirs.flatMap (roBind w) ++ inp.outputDirs.flatMap writableBind ++
      [str! "CACKLE_SOCKET_PATH", str! "CACKLE_CONFIG_PATH", envMultiple].flatMap (passEnv w) ++
      inp.buildScriptEnv.flatMap (passEnv w) ++ roBind w exe := by
  unfold rustcTailO
  simp only [List.flatMap_append, enc_flatMap _ (enc_roBind w), enc_flatMap _ enc_writableBind,
    enc_flatMap _ (enc_passEnv w), enc_roBind]

theorem ok_permTail {w : World} {bin : Str} : ∀ o ∈ permTailO w bin, OkOp o := by
  unfold permTailO
  apply ok_append
  · cases buildDirectory bin with
    | none => simp
    | some d => exact ok_roBind
  · cases w.env.get? (str! "OUT_DIR") with
    | none => simp
    | some d => exact ok_writableBind

theorem ok_rustcTail {w : World} {inp : RustcInputs} {exe : Str} : ∀ o ∈ rustcTailO w inp exe, OkOp o := by
  unfold rustcTailO
  exact ok_append (ok_append (ok_append (ok_append (ok_flatMap (fun _ => ok_roBind))
    (ok_flatMap (fun _ => ok_writableBind))) (ok_flatMap (fun _ => ok_passEnv)))
    (ok_flatMap (fun _ => ok_passEnv))) ok_roBind

theorem fromConfig_some {w : World} {cfg : Sandbox} {args : List Str}
    (h : fromConfig w cfg = some (some args)) :
    cfg.kind = some .bubblewrap ∧ ∃ home manifest, w.env.get? (str! "HOME") = some home ∧
      w.env.get? (str! "CARGO_MANIFEST_DIR") = some manifest ∧ args = configArgs w cfg home manifest := by
  unfold fromConfig at h
  split at h
  · simp at h
  · simp at h
  · rename_i hk
    split at h
    · rename_i home manifest h1 h2
      split at h
      · simp only [Option.some.injEq] at h
        exact ⟨hk, home, manifest, h1, h2, h.symm⟩
      · simp at h
    · simp at h

/-- The sandbox of a binary, as options. -/
theorem permSel_ops {w : World} {cfg : Sandbox} {bin : Str} {args : List Str} {extra : List Op}
    (hx : ∀ o ∈ extra, OkOp o) (he : cfg.extraArgs = extra.flatMap enc)
    (h : forPermSel w cfg bin = some (some args)) :
    ∃ home manifest, w.env.get? (str! "HOME") = some home ∧
      w.env.get? (str! "CARGO_MANIFEST_DIR") = some manifest ∧
      ∀ vars prog pargs, parse (command args vars prog pargs) =
        some (headOps ++ (configOps w cfg extra home manifest ++ permTailO w bin) ++ tailOps vars,
          prog :: pargs) := by
  unfold forPermSel at h
  cases hc : fromConfig w cfg with
  | none => simp [hc] at h
  | some o =>
    cases o with
    | none => simp [hc] at h
    | some a =>
      obtain ⟨-, home, manifest, h1, h2, ha⟩ := fromConfig_some hc
      refine ⟨home, manifest, h1, h2, fun vars prog pargs => ?_⟩
      rw [hc] at h
      simp only [Option.map_some, Option.some.injEq] at h
      have e : args = (configOps w cfg extra home manifest ++ permTailO w bin).flatMap enc := by
        rw [List.flatMap_append, enc_config w cfg extra home manifest he, enc_permTail, ← ha, ← h,
          List.append_assoc]
      rw [e]
      exact parse_command (ok_append (ok_config hx) ok_permTail) vars prog pargs

/-- The sandbox of rustc, as options. -/
theorem rustc_ops {w : World} {cfg : Sandbox} {inp : RustcInputs} {exe : Str} {args : List Str}
    {extra : List Op} (hx : ∀ o ∈ extra, OkOp o) (he : cfg.extraArgs = extra.flatMap enc)
    (h : forRustc w cfg inp exe = some (some args)) :
    ∃ home manifest, w.env.get? (str! "HOME") = some home ∧
      w.env.get? (str! "CARGO_MANIFEST_DIR") = some manifest ∧
      ∀ vars prog pargs, parse (command args vars prog pargs) =
        some (headOps ++ (configOps w cfg extra home manifest ++ rustcTailO w inp exe) ++ tailOps vars,
          prog :: pargs) := by
  unfold forRustc at h
  cases hc : fromConfig w cfg with
  | none => simp [hc] at h
  | some o =>
    cases o with
    | none => simp [hc] at h
    | some a =>
      obtain ⟨-, home, manifest, h1, h2, ha⟩ := fromConfig_some hc
      refine ⟨home, manifest, h1, h2, fun vars prog pargs => ?_⟩
      rw [hc] at h
      simp only [Option.map_some, Option.some.injEq] at h
      have e : args = (configOps w cfg extra home manifest ++ rustcTailO w inp exe).flatMap enc := by
        rw [List.flatMap_append, enc_config w cfg extra home manifest he, enc_rustcTail, ← ha, ← h]
        simp only [List.append_assoc]
      rw [e]
      exact parse_command (ok_append (ok_config hx) ok_rustcTail) vars prog pargs

/-! ## Membership -/

theorem mem_roBindO {w : World} {d : Str} {o : Op} :
    o ∈ roBindO w d ↔ w.pathExists d = true ∧ o = (str! "--ro-bind", [d, d]) := by
  unfold roBindO
  split <;> simp_all

theorem mem_writableBindO {d : Str} {o : Op} : o ∈ writableBindO d ↔ o = (str! "--bind-try", [d, d]) := by
  simp [writableBindO]

theorem mem_tmpfsO {d : Str} {o : Op} : o ∈ tmpfsO d ↔ o = (str! "--tmpfs", [d]) := by
  simp [tmpfsO]

theorem mem_setEnvO {v x : Str} {o : Op} : o ∈ setEnvO v x ↔ o = (str! "--setenv", [v, x]) := by
  simp [setEnvO]

theorem mem_passEnvO {w : World} {v : Str} {o : Op} :
    o ∈ passEnvO w v ↔ ∃ x, w.env.get? v = some x ∧ o = (str! "--setenv", [v, x]) := by
  unfold passEnvO
  cases w.env.get? v <;> simp [setEnvO]

theorem mem_passCargoEnvO {w : World} {o : Op} :
    o ∈ passCargoEnvO w ↔ (∃ x, w.env.get? (str! "OUT_DIR") = some x ∧ o = (str! "--setenv", [str! "OUT_DIR", x])) ∨
      ∃ e ∈ w.env, isCargoEnv e.1 = true ∧ o = (str! "--setenv", [e.1, e.2]) := by
  unfold passCargoEnvO
  rw [List.mem_append, mem_passEnvO, List.mem_flatMap]
  constructor
  · rintro (h | ⟨e, he, h⟩)
    · exact Or.inl h
    · split at h
      · rename_i hc
        exact Or.inr ⟨e, he, hc, mem_setEnvO.mp h⟩
      · simp at h
  · rintro (h | ⟨e, he, hc, h⟩)
    · exact Or.inl h
    · exact Or.inr ⟨e, he, by rw [if_pos hc]; exact mem_setEnvO.mpr h⟩

/-- Every option that `from_config` makes. -/
theorem mem_configOps {w : World} {cfg : Sandbox} {extra : List Op} {home manifest : Str} {o : Op}
    (h : o ∈ configOps w cfg extra home manifest) :
    (∃ d, o = (str! "--ro-bind", [d, d]) ∧
      d ∈ [str! "/", join (join home (str! ".cargo")) (str! "bin"),
        join (join home (str! ".cargo")) (str! "git"), join (join home (str! ".cargo")) (str! "registry"),
        join home (str! ".rustup"), manifest]) ∨
    (∃ d, o = (str! "--tmpfs", [d]) ∧ d ∈ [home, str! "/var", str! "/tmp", str! "/run"]) ∨
    (∃ d, o = (str! "--bind-try", [d, d]) ∧ d ∈ cfg.bindWritable ++ cfg.makeWritable) ∨
    o = (str! "--setenv", [str! "USER", str! "user"]) ∨
    (∃ v x, o = (str! "--setenv", [v, x]) ∧ (w.env.get? v = some x ∧
      (v ∈ [str! "PATH", str! "HOME", str! "LD_LIBRARY_PATH", str! "OUT_DIR"] ∨ v ∈ cfg.passEnv))) ∨
    (∃ v x, o = (str! "--setenv", [v, x]) ∧ (v, x) ∈ w.env ∧ isCargoEnv v = true) ∨
    o ∈ extra ∨ (o = (str! "--share-net", []) ∧ cfg.allowNetwork = some true) := by
  unfold configOps at h
  simp only [List.mem_append, mem_roBindO, mem_tmpfsO, mem_setEnvO, mem_passEnvO, mem_passCargoEnvO,
    List.mem_flatMap, mem_writableBindO] at h
  have hnet : (o ∈ if cfg.allowNetwork.getD false = true then [(str! "--share-net", [])] else tmpfsO (str! "/run")) →
      (o = (str! "--share-net", []) ∧ cfg.allowNetwork = some true) ∨ o = (str! "--tmpfs", [str! "/run"]) := by
    intro h
    split at h
    · rename_i hb
      refine Or.inl ⟨by simpa using h, ?_⟩
      cases hn : cfg.allowNetwork with
      | none => simp [hn] at hb
      | some b => simp [hn] at hb; rw [hb]
    · exact Or.inr (mem_tmpfsO.mp h)
  rcases h with ((((((((((((((((((h | h) | h) | h) | h) | h) | h) | h) | h) | h) | h) | h) | h) | h) | h) | h) | h) | h) | h)
  · exact Or.inl ⟨_, h.2, by simp⟩
  · exact Or.inr (Or.inl ⟨_, h, by simp⟩)
  · exact Or.inr (Or.inl ⟨_, h, by simp⟩)
  · exact Or.inr (Or.inl ⟨_, h, by simp⟩)
  · exact Or.inl ⟨_, h.2, by simp⟩
  · exact Or.inl ⟨_, h.2, by simp⟩
  · exact Or.inl ⟨_, h.2, by simp⟩
  · exact Or.inl ⟨_, h.2, by simp⟩
  · exact Or.inr (Or.inr (Or.inr (Or.inl h)))
  · obtain ⟨x, h1, h2⟩ := h
    exact Or.inr (Or.inr (Or.inr (Or.inr (Or.inl ⟨_, x, h2, h1, Or.inl (by simp)⟩))))
  · obtain ⟨x, h1, h2⟩ := h
    exact Or.inr (Or.inr (Or.inr (Or.inr (Or.inl ⟨_, x, h2, h1, Or.inl (by simp)⟩))))
  · obtain ⟨v, hv, x, h1, h2⟩ := h
    exact Or.inr (Or.inr (Or.inr (Or.inr (Or.inl ⟨v, x, h2, h1, Or.inr hv⟩))))
  · exact Or.inl ⟨_, h.2, by simp⟩
  · obtain ⟨x, h1, h2⟩ := h
    exact Or.inr (Or.inr (Or.inr (Or.inr (Or.inl ⟨_, x, h2, h1, Or.inl (by simp)⟩))))
  · rcases h with ⟨x, h1, h2⟩ | ⟨e, he, hc, h2⟩
    · exact Or.inr (Or.inr (Or.inr (Or.inr (Or.inl ⟨_, x, h2, h1, Or.inl (by simp)⟩))))
    · exact Or.inr (Or.inr (Or.inr (Or.inr (Or.inr (Or.inl ⟨e.1, e.2, h2, he, hc⟩)))))
  · obtain ⟨d, hd, h⟩ := h
    exact Or.inr (Or.inr (Or.inl ⟨d, h, by simp [hd]⟩))
  · obtain ⟨d, hd, h⟩ := h
    exact Or.inr (Or.inr (Or.inl ⟨d, h, by simp [hd]⟩))
  · exact Or.inr (Or.inr (Or.inr (Or.inr (Or.inr (Or.inr (Or.inl h))))))
  · rcases hnet h with h | h
    · exact Or.inr (Or.inr (Or.inr (Or.inr (Or.inr (Or.inr (Or.inr h))))))
    · exact Or.inr (Or.inl ⟨_, h, by simp⟩)

theorem mem_permTailO {w : World} {bin : Str} {o : Op} (h : o ∈ permTailO w bin) :
    (∃ d, buildDirectory bin = some d ∧ w.pathExists d = true ∧ o = (str! "--ro-bind", [d, d])) ∨
    (∃ d, w.env.get? (str! "OUT_DIR") = some d ∧ o = (str! "--bind-try", [d, d])) := by
  unfold permTailO at h
  rcases List.mem_append.mp h with h | h
  · cases hb : buildDirectory bin with
    | none => simp [hb] at h
    | some d =>
      rw [hb] at h
      exact Or.inl ⟨d, rfl, mem_roBindO.mp h⟩
  · cases hb : w.env.get? (str! "OUT_DIR") with
    | none => simp [hb] at h
    | some d =>
      rw [hb] at h
      exact Or.inr ⟨d, rfl, mem_writableBindO.mp h⟩

theorem mem_rustcTailO {w : World} {inp : RustcInputs} {exe : Str} {o : Op} (h : o ∈ rustcTailO w inp exe) :
    (∃ d ∈ exe :: inp.inputDirs, w.pathExists d = true ∧ o = (str! "--ro-bind", [d, d])) ∨
    (∃ d ∈ inp.outputDirs, o = (str! "--bind-try", [d, d])) ∨
    (∃ v x, w.env.get? v = some x ∧ o = (str! "--setenv", [v, x]) ∧
      v ∈ [str! "CACKLE_SOCKET_PATH", str! "CACKLE_CONFIG_PATH", envMultiple] ++ inp.buildScriptEnv) := by
  unfold rustcTailO at h
  simp only [List.mem_append, List.mem_flatMap, mem_roBindO, mem_writableBindO, mem_passEnvO] at h
  rcases h with (((⟨d, hd, h⟩ | ⟨d, hd, h⟩) | ⟨v, hv, x, h1, h2⟩) | ⟨v, hv, x, h1, h2⟩) | h
  · exact Or.inl ⟨d, by simp [hd], h⟩
  · exact Or.inr (Or.inl ⟨d, hd, h⟩)
  · exact Or.inr (Or.inr ⟨v, x, h1, h2, List.mem_append_left _ hv⟩)
  · exact Or.inr (Or.inr ⟨v, x, h1, h2, List.mem_append_right _ hv⟩)
  · exact Or.inl ⟨exe, by simp, h⟩

theorem mem_tailOps {vars : List (Str × Option Str)} {o : Op} (h : o ∈ tailOps vars) :
    o = (str! "--dev", [str! "/dev"]) ∨ o = (str! "--proc", [str! "/proc"]) ∨
    (∃ v x, (v, some x) ∈ vars ∧ o = (str! "--setenv", [v, x])) ∨
    (∃ v, (v, none) ∈ vars ∧ o = (str! "--unsetenv", [v])) := by
  unfold tailOps at h
  rcases List.mem_append.mp h with h | h
  · simp only [List.mem_cons, List.not_mem_nil, or_false] at h
    rcases h with h | h
    · exact Or.inl h
    · exact Or.inr (Or.inl h)
  · obtain ⟨⟨v, x⟩, he, rfl⟩ := List.mem_map.mp h
    cases x with
    | none => exact Or.inr (Or.inr (Or.inr ⟨v, he, rfl⟩))
    | some x => exact Or.inr (Or.inr (Or.inl ⟨v, x, he, rfl⟩))

theorem isCargoEnv_iff {v : Str} (h : isCargoEnv v = true) : CargoVar v := by
  unfold isCargoEnv at h
  split at h
  · simp at h
  · rename_i hn
    refine ⟨hn, ?_⟩
    simp only [List.any_cons, List.any_nil, Bool.or_false, Bool.or_eq_true, startsWith_iff,
      List.contains_iff_mem] at h
    rcases h with (h | h | h) | h
    · exact Or.inl h
    · exact Or.inr (Or.inl h)
    · exact Or.inr (Or.inr (Or.inl h))
    · refine Or.inr (Or.inr (Or.inr ?_))
      simp only [List.mem_cons, List.not_mem_nil, or_false] at h ⊢
      rcases h with h | h | h | h | h | h <;> simp [h]

/-! ## C36 -/

theorem net_of_ops {mid : List Op} {vars : List (Str × Option Str)}
    (h : netShared (headOps ++ mid ++ tailOps vars) = true) : ∃ o ∈ mid, o.1 = str! "--share-net" := by
  apply Classical.byContradiction
  intro hno
  have hall : ∀ o ∈ (str! "--uid", [str! "1000"]) :: (str! "--gid", [str! "1000"]) ::
      (str! "--hostname", [str! "none"]) :: (str! "--new-session", []) :: (str! "--clearenv", []) ::
      (mid ++ tailOps vars), o.1 ≠ str! "--share-net" := by
    intro o ho e
    simp only [List.mem_cons, List.mem_append] at ho
    rcases ho with rfl | rfl | rfl | rfl | rfl | ho | ho
    · exact absurd e (by decide)
    · exact absurd e (by decide)
    · exact absurd e (by decide)
    · exact absurd e (by decide)
    · exact absurd e (by decide)
    · exact hno ⟨o, ho, e⟩
    · rcases mem_tailOps ho with rfl | rfl | ⟨v, x, -, rfl⟩ | ⟨v, -, rfl⟩ <;> simp at e
  have := net_not hall
  have e : netShared (headOps ++ mid ++ tailOps vars) = false := by
    rw [netShared_eq, ← this]
    rfl
  rw [e] at h
  exact absurd h (by decide)

theorem net_allowed {pre post : List Op} {vars : List (Str × Option Str)}
    (h : ∀ o ∈ post, o.1 ≠ str! "--unshare-all" ∧ o.1 ≠ str! "--unshare-net") :
    netShared (pre ++ (str! "--share-net", []) :: post ++ tailOps vars) = true := by
  rw [netShared_eq, List.append_assoc, List.foldl_append, List.cons_append, List.foldl_cons]
  have e : ∀ b, netStep b (str! "--share-net", []) = true := fun b => rfl
  rw [e]
  apply net_keeps
  intro o ho
  rcases List.mem_append.mp ho with ho | ho
  · exact h o ho
  · rcases mem_tailOps ho with rfl | rfl | ⟨v, x, -, rfl⟩ | ⟨v, -, rfl⟩ <;> simp

theorem configOps_net {w : World} {cfg : Sandbox} {extra : List Op} {home manifest : Str}
    (h : cfg.allowNetwork = some true) :
    ∃ pre, configOps w cfg extra home manifest = pre ++ [(str! "--share-net", [])] := by
  unfold configOps
  rw [h]
  exact ⟨_, rfl⟩

theorem env_of_ops {w : World} {mid : List Op} {vars : List (Str × Option Str)} {v x : Str}
    (h : (envOf w.env (headOps ++ mid ++ tailOps vars)).get? v = some x) :
    v = str! "PWD" ∨ (str! "--setenv", [v, x]) ∈ mid ∨ (v, some x) ∈ vars := by
  have e : headOps ++ mid ++ tailOps vars = headOps ++ (mid ++ tailOps vars) := by simp
  rw [e, envOf_append] at h
  have hhead : envOf w.env headOps = w.env.filter (fun e => e.1 = str! "PWD") := rfl
  rw [hhead] at h
  rcases envOf_sound h with h1 | h1 | ⟨h1, -⟩
  · rcases List.mem_append.mp h1 with h1 | h1
    · exact Or.inr (Or.inl h1)
    · rcases mem_tailOps h1 with h2 | h2 | ⟨v', x', h2, h3⟩ | ⟨v', -, h3⟩
      · simp at h2
      · simp at h2
      · simp only [Prod.mk.injEq, List.cons.injEq, and_true, true_and] at h3
        rw [h3.1, h3.2]
        exact Or.inr (Or.inr h2)
      · simp at h3
  · obtain ⟨-, h2⟩ := filter_get? h1
    exact Or.inl (by simpa using h2)
  · exact Or.inl h1

theorem config_env {w : World} (hn : w.env.keys.Nodup) {cfg : Sandbox} {extra : List Op}
    {home manifest v x : Str} (h : (str! "--setenv", [v, x]) ∈ configOps w cfg extra home manifest)
    (vars : List (Str × Option Str)) (passed : List Str) (hp : ∀ u ∈ cfg.passEnv, u ∈ passed) :
    MayPass w passed vars extra v x := by
  rcases mem_configOps h with ⟨d, e, -⟩ | ⟨d, e, -⟩ | ⟨d, e, -⟩ | e | ⟨u, y, e, h1, h2⟩ |
    ⟨u, y, e, h1, h2⟩ | h1 | ⟨e, -⟩
  · simp at e
  · simp at e
  · simp at e
  · simp only [Prod.mk.injEq, List.cons.injEq, and_true, true_and] at e
    exact Or.inr (Or.inl e)
  · simp only [Prod.mk.injEq, List.cons.injEq, and_true, true_and] at e
    rw [e.1, e.2]
    refine Or.inr (Or.inr (Or.inr (Or.inr ⟨h1, ?_⟩)))
    rcases h2 with h2 | h2
    · simp only [List.mem_cons, List.not_mem_nil, or_false] at h2
      rcases h2 with rfl | rfl | rfl | rfl
      · exact Or.inl (by simp)
      · exact Or.inl (by simp)
      · exact Or.inl (by simp)
      · exact Or.inr (Or.inr ⟨by decide, Or.inr (Or.inr (Or.inr (by simp)))⟩)
    · exact Or.inr (Or.inl (hp u h2))
  · simp only [Prod.mk.injEq, List.cons.injEq, and_true, true_and] at e
    rw [e.1, e.2]
    exact Or.inr (Or.inr (Or.inr (Or.inr ⟨AMap.get?_of_mem hn h1, Or.inr (Or.inr (isCargoEnv_iff h2))⟩)))
  · exact Or.inr (Or.inr (Or.inr (Or.inl h1)))
  · simp at e

theorem share_of_config {w : World} {cfg : Sandbox} {extra : List Op} (hx : ∀ o ∈ extra, OkOp o)
    {home manifest : Str} {o : Op} (h : o ∈ configOps w cfg extra home manifest)
    (ho : o.1 = str! "--share-net") : cfg.allowNetwork = some true ∨ (str! "--share-net", []) ∈ extra := by
  rcases mem_configOps h with ⟨d, e, -⟩ | ⟨d, e, -⟩ | ⟨d, e, -⟩ | e | ⟨u, y, e, h1, h2⟩ |
    ⟨u, y, e, h1, h2⟩ | h1 | ⟨-, h1⟩
  · subst e; simp at ho
  · subst e; simp at ho
  · subst e; simp at ho
  · subst e; simp at ho
  · subst e; simp at ho
  · subst e; simp at ho
  · right
    have := (hx o h1).1
    obtain ⟨n, as⟩ := o
    simp only at ho this
    subst ho
    have h0 : arity (str! "--share-net") = some 0 := by decide +kernel
    rw [h0] at this
    have : as = [] := List.eq_nil_of_length_eq_zero (by simpa using this.symm)
    rw [← this]; exact h1
  · exact Or.inl h1

/-- **C36, build scripts, tests and other binaries.** Whatever the environment, the paths and the
arguments contain, `bwrap` runs exactly the command meant; the host's network is shared if the
configuration allows it and otherwise only if the user's extra arguments say so; and every variable the
program sees is there for a known reason with the value it has outside. -/
theorem C36_isolation (w : World) (hn : w.env.keys.Nodup) (cfg : Sandbox) (bin : Str) (args : List Str)
    (extra : List Op) (hx : ∀ o ∈ extra, OkOp o) (he : cfg.extraArgs = extra.flatMap enc)
    (h : forPermSel w cfg bin = some (some args)) (vars : List (Str × Option Str)) (prog : Str)
    (pargs : List Str) :
    ∃ ops, parse (command args vars prog pargs) = some (ops, prog :: pargs) ∧
      (cfg.allowNetwork = some true → netShared ops = true) ∧
      (netShared ops = true → cfg.allowNetwork = some true ∨ (str! "--share-net", []) ∈ extra) ∧
      ∀ v x, (envOf w.env ops).get? v = some x → MayPass w cfg.passEnv vars extra v x := by
  obtain ⟨home, manifest, -, -, hp⟩ := permSel_ops hx he h
  refine ⟨_, hp vars prog pargs, ?_, ?_, ?_⟩
  · intro ha
    obtain ⟨pre, e⟩ := configOps_net (w := w) (extra := extra) (home := home) (manifest := manifest) ha
    rw [e]
    have := net_allowed (pre := headOps ++ pre) (post := permTailO w bin) (vars := vars) (by
      intro o ho
      rcases mem_permTailO ho with ⟨d, -, -, rfl⟩ | ⟨d, -, rfl⟩ <;> simp)
    simpa using this
  · intro hs
    obtain ⟨o, ho, e⟩ := net_of_ops hs
    rcases List.mem_append.mp ho with ho | ho
    · exact share_of_config hx ho e
    · rcases mem_permTailO ho with ⟨d, -, -, rfl⟩ | ⟨d, -, rfl⟩ <;> simp at e
  · intro v x hv
    rcases env_of_ops hv with hv | hv | hv
    · exact Or.inl hv
    · rcases List.mem_append.mp hv with hv | hv
      · exact config_env hn hv vars _ (fun _ h => h)
      · rcases mem_permTailO hv with ⟨d, -, -, e⟩ | ⟨d, -, e⟩ <;> simp at e
    · exact Or.inr (Or.inr (Or.inl hv))

/-- **C36, rustc.** The same for the compiler, which also sees cackle's own variables and those that the
package's build script set. -/
theorem C36_isolation_rustc (w : World) (hn : w.env.keys.Nodup) (cfg : Sandbox) (inp : RustcInputs)
    (exe : Str) (args : List Str) (extra : List Op) (hx : ∀ o ∈ extra, OkOp o)
    (he : cfg.extraArgs = extra.flatMap enc) (h : forRustc w cfg inp exe = some (some args))
    (vars : List (Str × Option Str)) (prog : Str) (pargs : List Str) :
    ∃ ops, parse (command args vars prog pargs) = some (ops, prog :: pargs) ∧
      (cfg.allowNetwork = some true → netShared ops = true) ∧
      (netShared ops = true → cfg.allowNetwork = some true ∨ (str! "--share-net", []) ∈ extra) ∧
      ∀ v x, (envOf w.env ops).get? v = some x →
        MayPass w (cfg.passEnv ++ [str! "CACKLE_SOCKET_PATH", str! "CACKLE_CONFIG_PATH",
          str! "CACKLE_MULTIPLE_VERSION_PKG_NAMES"] ++ inp.buildScriptEnv) vars extra v x := by
  obtain ⟨home, manifest, -, -, hp⟩ := rustc_ops hx he h
  refine ⟨_, hp vars prog pargs, ?_, ?_, ?_⟩
  · intro ha
    obtain ⟨pre, e⟩ := configOps_net (w := w) (extra := extra) (home := home) (manifest := manifest) ha
    rw [e]
    have := net_allowed (pre := headOps ++ pre) (post := rustcTailO w inp exe) (vars := vars) (by
      intro o ho
      rcases mem_rustcTailO ho with ⟨d, -, -, rfl⟩ | ⟨d, -, rfl⟩ | ⟨v, x, -, rfl, -⟩ <;> simp)
    simpa using this
  · intro hs
    obtain ⟨o, ho, e⟩ := net_of_ops hs
    rcases List.mem_append.mp ho with ho | ho
    · exact share_of_config hx ho e
    · rcases mem_rustcTailO ho with ⟨d, -, -, rfl⟩ | ⟨d, -, rfl⟩ | ⟨v, x, -, rfl, -⟩ <;> simp at e
  · intro v x hv
    rcases env_of_ops hv with hv | hv | hv
    · exact Or.inl hv
    · rcases List.mem_append.mp hv with hv | hv
      · exact config_env hn hv vars _ (fun _ h => by simp [h])
      · rcases mem_rustcTailO hv with ⟨d, -, -, e⟩ | ⟨d, -, e⟩ | ⟨u, y, h1, e, h2⟩
        · simp at e
        · simp at e
        · simp only [Prod.mk.injEq, List.cons.injEq, and_true, true_and] at e
          rw [e.1, e.2]
          refine Or.inr (Or.inr (Or.inr (Or.inr ⟨h1, Or.inr (Or.inl ?_)⟩)))
          rw [List.append_assoc]
          exact List.mem_append_right _ h2
    · exact Or.inr (Or.inr (Or.inl hv))

/-! ## Mounts -/

theorem mount_config {w : World} {cfg : Sandbox} {home manifest : Str} :
    ∀ o ∈ configOps w cfg [] home manifest, Mount o := by
  intro o h
  rcases mem_configOps h with ⟨d, e, -⟩ | ⟨d, e, -⟩ | ⟨d, e, -⟩ | e | ⟨u, y, e, h1, h2⟩ |
    ⟨u, y, e, h1, h2⟩ | h1 | ⟨e, -⟩
  · exact .ro d e
  · exact .hide d (Or.inl e)
  · exact .rw d e
  · exact .no (by subst e; unfold NoMount; simp)
  · exact .no (by subst e; unfold NoMount; simp)
  · exact .no (by subst e; unfold NoMount; simp)
  · simp at h1
  · exact .no (by subst e; unfold NoMount; simp)

theorem mount_permTail {w : World} {bin : Str} : ∀ o ∈ permTailO w bin, Mount o := by
  intro o h
  rcases mem_permTailO h with ⟨d, -, -, e⟩ | ⟨d, -, e⟩
  · exact .ro d e
  · exact .rw d e

theorem mount_rustcTail {w : World} {inp : RustcInputs} {exe : Str} :
    ∀ o ∈ rustcTailO w inp exe, Mount o := by
  intro o h
  rcases mem_rustcTailO h with ⟨d, -, -, e⟩ | ⟨d, -, e⟩ | ⟨u, y, h1, e, h2⟩
  · exact .ro d e
  · exact .rw d e
  · exact .no (by subst e; unfold NoMount; simp)

theorem mount_tail {vars : List (Str × Option Str)} : ∀ o ∈ tailOps vars, Mount o := by
  intro o h
  rcases mem_tailOps h with e | e | ⟨v, x, -, e⟩ | ⟨v, -, e⟩
  · exact .hide _ (Or.inr (Or.inl e))
  · exact .hide _ (Or.inr (Or.inr e))
  · exact .no (by subst e; unfold NoMount; simp)
  · exact .no (by subst e; unfold NoMount; simp)

theorem mount_append {a b : List Op} (ha : ∀ o ∈ a, Mount o) (hb : ∀ o ∈ b, Mount o) :
    ∀ o ∈ a ++ b, Mount o := by
  intro o ho
  rcases List.mem_append.mp ho with h | h
  · exact ha o h
  · exact hb o h

theorem mount_head : ∀ o ∈ headOps, Mount o := by
  intro o ho
  refine .no ?_
  simp only [headOps, List.mem_cons, List.not_mem_nil, or_false] at ho
  rcases ho with rfl | rfl | rfl | rfl | rfl | rfl <;> (unfold NoMount; decide)

theorem view_head {pr : Str → Bool} {p : PathC} {v : View} : headOps.foldl (viewStep pr p) v = v := by
  have : ∀ ops : List Op, (∀ o ∈ ops, NoMount o) → ops.foldl (viewStep pr p) v = v := by
    intro ops
    induction ops generalizing v with
    | nil => intro _; rfl
    | cons o ops ih =>
      intro h
      rw [List.foldl_cons, viewStep_noMount (h o (by simp))]
      exact ih (fun o ho => h o (by simp [ho]))
  apply this
  intro o ho
  simp only [headOps, List.mem_cons, List.not_mem_nil, or_false] at ho
  rcases ho with rfl | rfl | rfl | rfl | rfl | rfl <;> (unfold NoMount; decide)

/-! ## Paths below a directory -/

theorem splitChar_append (c : Char) (a b : Str) :
    splitChar c (a ++ c :: b) = splitChar c a ++ splitChar c b := by
  induction a with
  | nil => simp [splitChar]
  | cons x a ih =>
    simp only [List.cons_append, splitChar]
    split
    · rw [ih]; rfl
    · rw [ih]
      cases h : splitChar c a with
      | nil => exact absurd h (splitChar_ne_nil c a)
      | cons y t => rfl

theorem pathOf_join {a b : Str} (ha : a.head? = some '/') (hb : '/' ∉ b) (hb1 : b ≠ []) (hb2 : b ≠ ['.']) :
    pathOf (join a b) = pathOf a ++ [b] ∧ (join a b).head? = some '/' := by
  have key : ∀ c : Str, pathOf ('/' :: c) = ['/'] :: ((splitChar '/' ('/' :: c)).filter (fun c => c ≠ [])).filter
      (fun c => c ≠ ['.']) := fun c => rfl
  cases a with
  | nil => simp at ha
  | cons x a =>
    simp only [List.head?_cons, Option.some.injEq] at ha
    subst ha
    unfold join
    rw [if_neg (by simp)]
    split
    · rename_i hl
      have e := eq_append_of_getLast? hl
      generalize hc : ('/' :: a).dropLast = c at e
      refine ⟨?_, rfl⟩
      rw [List.cons_append, key, key, ← List.cons_append, e, List.append_assoc, List.cons_append,
        List.nil_append, splitChar_append, splitChar_append, splitChar_last hb]
      simp [splitChar, hb1, hb2]
    · refine ⟨?_, rfl⟩
      have e : '/' :: a ++ str! "/" ++ b = '/' :: (a ++ '/' :: b) := by simp
      rw [e, key, key, ← List.cons_append, splitChar_append, splitChar_last hb]
      simp [hb1, hb2]

/-! ## C58: the home directory is hidden -/

/-- The directory `d` is bound into the sandbox of binary `bin` on purpose. -/
def BoundFor (w : World) (cfg : Sandbox) (bin d : Str) : Prop :=
  w.env.get? (str! "CARGO_MANIFEST_DIR") = some d ∨ d ∈ cfg.bindWritable ∨ d ∈ cfg.makeWritable ∨
  buildDirectory bin = some d ∨ w.env.get? (str! "OUT_DIR") = some d

/-- The parts of the home directory that are always readable. -/
def homeParts : List PathC :=
  [[str! ".cargo", str! "bin"], [str! ".cargo", str! "git"], [str! ".cargo", str! "registry"],
   [str! ".rustup"]]

theorem view_home {w : World} {cfg : Sandbox} {home manifest : Str} (more : List Op)
    (hmore : ∀ o ∈ more, Mount o) {p : PathC} (hp : pathOf home <+: p) {b : Bool} {q : PathC}
    (h : view w.pathExists (headOps ++ (configOps w cfg [] home manifest ++ more)) p = some (b, q)) :
    q = p ∧ ∃ d, pathOf d <+: p ∧ ((str! "--ro-bind", [d, d]) ∈ more ∨ (str! "--bind-try", [d, d]) ∈ more ∨
      d ∈ cfg.bindWritable ∨ d ∈ cfg.makeWritable ∨ d = manifest ∨
      d ∈ [join (join home (str! ".cargo")) (str! "bin"), join (join home (str! ".cargo")) (str! "git"),
        join (join home (str! ".cargo")) (str! "registry"), join home (str! ".rustup")]) := by
  have e : ∃ rest, configOps w cfg [] home manifest = (roBindO w (str! "/") ++ tmpfsO home) ++ rest ∧
      ∀ o ∈ rest, o ∈ configOps w cfg [] home manifest ∧
        ∀ d, o = (str! "--ro-bind", [d, d]) → d ∈ [join (join home (str! ".cargo")) (str! "bin"),
          join (join home (str! ".cargo")) (str! "git"), join (join home (str! ".cargo")) (str! "registry"),
          join home (str! ".rustup"), manifest] := by
    refine ⟨(configOps w cfg [] home manifest).drop (roBindO w (str! "/") ++ tmpfsO home).length, ?_, ?_⟩
    · unfold configOps
      simp only [List.append_assoc]
      rw [← List.append_assoc (roBindO w ['/']) (tmpfsO home), List.drop_left]
      simp only [List.append_assoc]
    · intro o ho
      refine ⟨List.mem_of_mem_drop ho, ?_⟩
      rintro d rfl
      revert ho
      unfold configOps
      simp only [List.append_assoc]
      rw [← List.append_assoc (roBindO w ['/']) (tmpfsO home), List.drop_left]
      simp only [List.mem_append, mem_roBindO, mem_tmpfsO, mem_setEnvO, mem_passEnvO, mem_passCargoEnvO,
        List.mem_flatMap, mem_writableBindO, List.not_mem_nil, false_or]
      have hnet : ¬ (str! "--ro-bind", [d, d]) ∈
          (if cfg.allowNetwork.getD false = true then [(str! "--share-net", [])] else tmpfsO (str! "/run")) := by
        split <;> simp [tmpfsO]
      rintro (h | h | ⟨-, h⟩ | ⟨-, h⟩ | ⟨-, h⟩ | ⟨-, h⟩ | h | ⟨x, -, h⟩ | ⟨x, -, h⟩ | ⟨v, -, x, -, h⟩ | ⟨-, h⟩ | ⟨x, -, h⟩ |
        (⟨x, -, h⟩ | ⟨x, -, -, h⟩) | ⟨x, -, h⟩ | ⟨x, -, h⟩ | h)
      all_goals first
        | exact absurd h hnet
        | (simp at h; done)
        | (simp only [Prod.mk.injEq, List.cons.injEq, and_true, true_and, and_self] at h; subst h; simp; done)
  obtain ⟨rest, e, hrest⟩ := e
  have hm : ∀ o ∈ rest ++ more, Mount o :=
    mount_append (fun o ho => mount_config o (hrest o ho).1) hmore
  have h0 : (headOps ++ (roBindO w (str! "/") ++ tmpfsO home)).foldl (viewStep w.pathExists p) none = none := by
    rw [← List.append_assoc, List.foldl_append]
    unfold tmpfsO
    rw [List.foldl_cons, List.foldl_nil, viewStep_hide (Or.inl rfl), if_pos hp]
  unfold view at h
  rw [e, ← List.append_assoc, ← List.append_assoc, List.append_assoc, List.foldl_append, h0] at h
  rcases view_sound hm h with h1 | ⟨hq, d, hd, h1⟩
  · simp at h1
  · refine ⟨hq, d, hd, ?_⟩
    rcases h1 with ⟨-, h1⟩ | ⟨-, h1⟩
    · rcases List.mem_append.mp h1 with h1 | h1
      · have := (hrest _ h1).2 d rfl
        simp only [List.mem_cons, List.not_mem_nil, or_false] at this ⊢
        rcases this with h | h | h | h | h <;> simp [h]
      · exact Or.inl h1
    · rcases List.mem_append.mp h1 with h1 | h1
      · rcases mem_configOps (hrest _ h1).1 with ⟨d', e, -⟩ | ⟨d', e, -⟩ | ⟨d', e, h2⟩ | e | ⟨u, y, e, -, -⟩ |
          ⟨u, y, e, -, -⟩ | h1 | ⟨e, -⟩
        · simp at e
        · simp at e
        · simp only [Prod.mk.injEq, List.cons.injEq, and_true, true_and, and_self] at e
          subst e
          rcases List.mem_append.mp h2 with h2 | h2 <;> simp [h2]
        · simp at e
        · simp at e
        · simp at e
        · simp at h1
        · simp at e
      · exact Or.inr (Or.inl h1)

/-- **C58.** A sandboxed build script or test sees nothing of the user's home directory except cargo's
`bin`, `git` and `registry`, the toolchains, and the directories bound on purpose. -/
theorem C58_home_hidden (w : World) (cfg : Sandbox) (bin : Str) (args : List Str)
    (hx : cfg.extraArgs = []) (h : forPermSel w cfg bin = some (some args))
    (vars : List (Str × Option Str)) (prog : Str) (pargs : List Str) (ops : List Op) (cmd : List Str)
    (hparse : parse (command args vars prog pargs) = some (ops, cmd))
    (home : Str) (hhome : w.env.get? (str! "HOME") = some home) (habs : home.head? = some '/')
    (p q : PathC) (b : Bool) (hp : pathOf home <+: p) (hv : view w.pathExists ops p = some (b, q)) :
    q = p ∧ ((∃ part ∈ homeParts, pathOf home ++ part <+: p) ∨ ∃ d, BoundFor w cfg bin d ∧ pathOf d <+: p) := by
  obtain ⟨home', manifest, h1, h2, h3⟩ := permSel_ops (extra := []) (by simp) (by simp [hx]) h
  rw [hhome, Option.some.injEq] at h1
  subst h1
  rw [h3, Option.some.injEq, Prod.mk.injEq] at hparse
  rw [← hparse.1, List.append_assoc, List.append_assoc] at hv
  obtain ⟨hq, d, hd, h4⟩ := view_home (permTailO w bin ++ tailOps vars)
    (mount_append mount_permTail mount_tail) hp hv
  refine ⟨hq, ?_⟩
  have hcargo := pathOf_join (b := str! ".cargo") habs (by decide) (by decide) (by decide)
  rcases h4 with h4 | h4 | h4 | h4 | h4 | h4
  · rcases List.mem_append.mp h4 with h4 | h4
    · rcases mem_permTailO h4 with ⟨d', h5, -, e⟩ | ⟨d', -, e⟩
      · simp only [Prod.mk.injEq, List.cons.injEq, and_true, true_and, and_self] at e
        subst e
        exact Or.inr ⟨d, Or.inr (Or.inr (Or.inr (Or.inl h5))), hd⟩
      · simp at e
    · rcases mem_tailOps h4 with e | e | ⟨v, x, -, e⟩ | ⟨v, -, e⟩ <;> simp at e
  · rcases List.mem_append.mp h4 with h4 | h4
    · rcases mem_permTailO h4 with ⟨d', -, -, e⟩ | ⟨d', h5, e⟩
      · simp at e
      · simp only [Prod.mk.injEq, List.cons.injEq, and_true, true_and, and_self] at e
        subst e
        exact Or.inr ⟨d, Or.inr (Or.inr (Or.inr (Or.inr h5))), hd⟩
    · rcases mem_tailOps h4 with e | e | ⟨v, x, -, e⟩ | ⟨v, -, e⟩ <;> simp at e
  · exact Or.inr ⟨d, Or.inr (Or.inl h4), hd⟩
  · exact Or.inr ⟨d, Or.inr (Or.inr (Or.inl h4)), hd⟩
  · subst h4
    exact Or.inr ⟨d, Or.inl h2, hd⟩
  · left
    simp only [List.mem_cons, List.not_mem_nil, or_false] at h4
    rcases h4 with rfl | rfl | rfl | rfl
    · rw [(pathOf_join hcargo.2 (by decide) (by decide) (by decide)).1, hcargo.1, List.append_assoc] at hd
      exact ⟨[str! ".cargo", str! "bin"], by simp [homeParts], hd⟩
    · rw [(pathOf_join hcargo.2 (by decide) (by decide) (by decide)).1, hcargo.1, List.append_assoc] at hd
      exact ⟨[str! ".cargo", str! "git"], by simp [homeParts], hd⟩
    · rw [(pathOf_join hcargo.2 (by decide) (by decide) (by decide)).1, hcargo.1, List.append_assoc] at hd
      exact ⟨[str! ".cargo", str! "registry"], by simp [homeParts], hd⟩
    · rw [(pathOf_join habs (by decide) (by decide) (by decide)).1] at hd
      exact ⟨[str! ".rustup"], by simp [homeParts], hd⟩

/-! ## C59: writes are confined -/

/-- **C59, binaries.** What a sandboxed build script or test can change on the host lies in a directory
configured as writable or in the package's `OUT_DIR`. -/
theorem C59_writes_confined (w : World) (cfg : Sandbox) (bin : Str) (args : List Str)
    (hx : cfg.extraArgs = []) (h : forPermSel w cfg bin = some (some args))
    (vars : List (Str × Option Str)) (prog : Str) (pargs : List Str) (ops : List Op) (cmd : List Str)
    (hparse : parse (command args vars prog pargs) = some (ops, cmd)) (p q : PathC)
    (hv : view w.pathExists ops p = some (true, q)) :
    q = p ∧ ∃ d, pathOf d <+: p ∧
      (d ∈ cfg.bindWritable ∨ d ∈ cfg.makeWritable ∨ w.env.get? (str! "OUT_DIR") = some d) := by
  obtain ⟨home, manifest, h1, h2, h3⟩ := permSel_ops (extra := []) (by simp) (by simp [hx]) h
  rw [h3, Option.some.injEq, Prod.mk.injEq] at hparse
  rw [← hparse.1] at hv
  rcases view_sound (mount_append (mount_append mount_head (mount_append mount_config mount_permTail))
      mount_tail) hv with h4 | ⟨hq, d, hd, h4⟩
  · simp at h4
  · refine ⟨hq, d, hd, ?_⟩
    rcases h4 with ⟨h4, -⟩ | ⟨-, h4⟩
    · exact absurd h4 (by decide)
    · rcases List.mem_append.mp h4 with h4 | h4
      · rcases List.mem_append.mp h4 with h4 | h4
        · simp [headOps] at h4
        · rcases List.mem_append.mp h4 with h4 | h4
          · rcases mem_configOps h4 with ⟨d', e, -⟩ | ⟨d', e, -⟩ | ⟨d', e, h2⟩ | e | ⟨u, y, e, -, -⟩ |
              ⟨u, y, e, -, -⟩ | h1 | ⟨e, -⟩
            · simp at e
            · simp at e
            · simp only [Prod.mk.injEq, List.cons.injEq, and_true, true_and, and_self] at e
              subst e
              rcases List.mem_append.mp h2 with h2 | h2 <;> simp [h2]
            · simp at e
            · simp at e
            · simp at e
            · simp at h1
            · simp at e
          · rcases mem_permTailO h4 with ⟨d', -, -, e⟩ | ⟨d', h5, e⟩
            · simp at e
            · simp only [Prod.mk.injEq, List.cons.injEq, and_true, true_and, and_self] at e
              subst e
              exact Or.inr (Or.inr h5)
      · rcases mem_tailOps h4 with e | e | ⟨v, x, -, e⟩ | ⟨v, -, e⟩ <;> simp at e

/-- What rustc may write to according to its command line and cackle's own variables. -/
def RustcOutput (w : World) (rustcArgs : List Str) (d : Str) : Prop :=
  w.env.get? (str! "CACKLE_TARGET_DIR") = some d ∨
  [str! "--out-dir", d] <:+: rustcArgs ∨ str! "incremental=" ++ d ∈ rustcArgs ∨
  ∃ s, w.env.get? (str! "CACKLE_SOCKET_PATH") = some s ∧ parentText s = some d

theorem mem_outDirs {args : List Str} {prev : Bool} {d : Str} (h : d ∈ outDirs args prev) :
    (prev = true ∧ args.head? = some d) ∨ [str! "--out-dir", d] <:+: args ∨ str! "incremental=" ++ d ∈ args := by
  induction args generalizing prev with
  | nil => simp [outDirs] at h
  | cons a rest ih =>
    cases prev with
    | true =>
      simp only [outDirs, List.mem_cons] at h
      rcases h with h | h
      · exact Or.inl ⟨rfl, by simp [h]⟩
      · rcases ih h with ⟨h1, -⟩ | h1 | h1
        · exact absurd h1 (by decide)
        · exact Or.inr (Or.inl (h1.trans (List.suffix_cons a rest).isInfix))
        · exact Or.inr (Or.inr (List.mem_cons_of_mem _ h1))
    | false =>
      simp only [outDirs, List.mem_append, Option.mem_toList] at h
      rcases h with h | h
      · exact Or.inr (Or.inr (by rw [stripPrefix_eq.mp h]; simp))
      · rcases ih h with ⟨h1, h2⟩ | h1 | h1
        · refine Or.inr (Or.inl ?_)
          cases rest with
          | nil => simp at h2
          | cons b rest =>
            simp only [List.head?_cons, Option.some.injEq] at h2
            have h1 : a = str! "--out-dir" := by simpa using h1
            rw [h1, h2]
            exact ⟨[], rest, by simp⟩
        · exact Or.inr (Or.inl (h1.trans (List.suffix_cons a rest).isInfix))
        · exact Or.inr (Or.inr (List.mem_cons_of_mem _ h1))

theorem rustcInputs_out {w : World} {rargs : List Str} {rv : Str → Str → List Str} {inp : RustcInputs}
    (h : rustcInputs w rargs rv = some inp) {d : Str} (hd : d ∈ inp.outputDirs) : RustcOutput w rargs d := by
  unfold rustcInputs at h
  split at h
  · rename_i target profile manifest h1 h2 h3
    simp only [Option.some.injEq] at h
    subst h
    simp only [List.mem_append, List.mem_filter, List.mem_singleton] at hd
    rcases hd with ⟨hd | hd, -⟩ | hd
    · rcases mem_outDirs hd with ⟨h4, -⟩ | h4 | h4
      · exact absurd h4 (by decide)
      · exact Or.inr (Or.inl h4)
      · exact Or.inr (Or.inr (Or.inl h4))
    · refine Or.inr (Or.inr (Or.inr ?_))
      cases hs : w.env.get? (str! "CACKLE_SOCKET_PATH") with
      | none => simp [hs] at hd
      | some s =>
        simp only [hs, Option.mem_toList] at hd
        exact ⟨s, rfl, hd⟩
    · rw [hd]; exact Or.inl h1
  · simp at h

/-- **C59, rustc.** What the sandboxed compiler can change on the host lies in a directory configured as
writable, in an output directory named on its command line, in the target directory, or in the directory
of cackle's socket. -/
theorem C59_writes_confined_rustc (w : World) (cfg : Sandbox) (rargs : List Str)
    (rv : Str → Str → List Str) (inp : RustcInputs) (hinp : rustcInputs w rargs rv = some inp) (exe : Str)
    (args : List Str) (hx : cfg.extraArgs = []) (h : forRustc w cfg inp exe = some (some args))
    (vars : List (Str × Option Str)) (prog : Str) (pargs : List Str) (ops : List Op) (cmd : List Str)
    (hparse : parse (command args vars prog pargs) = some (ops, cmd)) (p q : PathC)
    (hv : view w.pathExists ops p = some (true, q)) :
    q = p ∧ ∃ d, pathOf d <+: p ∧ (d ∈ cfg.bindWritable ∨ d ∈ cfg.makeWritable ∨ RustcOutput w rargs d) := by
  obtain ⟨home, manifest, h1, h2, h3⟩ := rustc_ops (extra := []) (by simp) (by simp [hx]) h
  rw [h3, Option.some.injEq, Prod.mk.injEq] at hparse
  rw [← hparse.1] at hv
  rcases view_sound (mount_append (mount_append mount_head (mount_append mount_config mount_rustcTail))
      mount_tail) hv with h4 | ⟨hq, d, hd, h4⟩
  · simp at h4
  · refine ⟨hq, d, hd, ?_⟩
    rcases h4 with ⟨h4, -⟩ | ⟨-, h4⟩
    · exact absurd h4 (by decide)
    · rcases List.mem_append.mp h4 with h4 | h4
      · rcases List.mem_append.mp h4 with h4 | h4
        · simp [headOps] at h4
        · rcases List.mem_append.mp h4 with h4 | h4
          · rcases mem_configOps h4 with ⟨d', e, -⟩ | ⟨d', e, -⟩ | ⟨d', e, h2⟩ | e | ⟨u, y, e, -, -⟩ |
              ⟨u, y, e, -, -⟩ | h1 | ⟨e, -⟩
            · simp at e
            · simp at e
            · simp only [Prod.mk.injEq, List.cons.injEq, and_true, true_and, and_self] at e
              subst e
              rcases List.mem_append.mp h2 with h2 | h2 <;> simp [h2]
            · simp at e
            · simp at e
            · simp at e
            · simp at h1
            · simp at e
          · rcases mem_rustcTailO h4 with ⟨d', -, -, e⟩ | ⟨d', h5, e⟩ | ⟨v, x, -, e, -⟩
            · simp at e
            · simp only [Prod.mk.injEq, List.cons.injEq, and_true, true_and, and_self] at e
              subst e
              exact Or.inr (Or.inr (rustcInputs_out hinp h5))
            · simp at e
      · rcases mem_tailOps h4 with e | e | ⟨v, x, -, e⟩ | ⟨v, -, e⟩ <;> simp at e

/-! ## C60: configured directories are writable -/

/-- The English claim C60 for a sandbox whose `bwrap` arguments are `args`. -/
def WritableIn (w : World) (cfg : Sandbox) (args : List Str) : Prop :=
  ∀ (vars : List (Str × Option Str)) (prog : Str) (pargs : List Str) (ops : List Op) (cmd : List Str),
    parse (command args vars prog pargs) = some (ops, cmd) →
    ∀ d, (d ∈ cfg.bindWritable ∨ d ∈ cfg.makeWritable) → w.pathExists d = true →
    ∀ p, pathOf d <+: p → view w.pathExists ops p = some (true, p)

/-- The English claim C60. -/
def C60_Claim : Prop :=
  (∀ w cfg bin args, cfg.extraArgs = [] → forPermSel w cfg bin = some (some args) → WritableIn w cfg args) ∧
  ∀ w cfg inp exe args, cfg.extraArgs = [] → forRustc w cfg inp exe = some (some args) →
    WritableIn w cfg args

private def demoWorld : World :=
  { env := [(str! "HOME", str! "/home/u"), (str! "CARGO_MANIFEST_DIR", str! "/home/u/p"),
            (str! "SECRET", str! "s"), (str! "OUT_DIR", str! "/home/u/p/t/out"),
            (str! "CARGO_REGISTRY_TOKEN", str! "secret"), (str! "CARGO_HOME", str! "/opt/cargo")]
    pathExists := fun _ => true
    isDir := fun _ => true
    mkdir := fun _ => true }

private def demoCfg : Sandbox := { kind := some .bubblewrap, bindWritable := [str! "/run/x"] }

private def demoArgs (cfg : Sandbox) : List Str :=
  configArgs demoWorld cfg (str! "/home/u") (str! "/home/u/p") ++ roBind demoWorld (str! "/home/u/p/t") ++
    writableBind (str! "/home/u/p/t/out")

private theorem demo_made (cfg : Sandbox) (hk : cfg.kind = some .bubblewrap) :
    forPermSel demoWorld cfg (str! "/home/u/p/t/bs") = some (some (demoArgs cfg)) := by
  have hb : buildDirectory (str! "/home/u/p/t/bs") = some (str! "/home/u/p/t") := by decide +kernel
  have h1 : demoWorld.env.get? (str! "HOME") = some (str! "/home/u") := by decide +kernel
  have h2 : demoWorld.env.get? (str! "CARGO_MANIFEST_DIR") = some (str! "/home/u/p") := by decide +kernel
  have h3 : demoWorld.env.get? (str! "OUT_DIR") = some (str! "/home/u/p/t/out") := by decide +kernel
  have h4 : fromConfig demoWorld cfg =
      some (some (configArgs demoWorld cfg (str! "/home/u") (str! "/home/u/p"))) := by
    unfold fromConfig
    rw [hk, h1, h2]
    simp [demoWorld]
  unfold forPermSel demoArgs
  rw [h4, hb, h3]
  rfl

private def demoOps (cfg : Sandbox) : List Op :=
  headOps ++ (configOps demoWorld cfg [] (str! "/home/u") (str! "/home/u/p") ++
    permTailO demoWorld (str! "/home/u/p/t/bs")) ++ tailOps []

private theorem demo_parse (cfg : Sandbox) (hk : cfg.kind = some .bubblewrap) (hx : cfg.extraArgs = []) :
    parse (command (demoArgs cfg) [] (str! "/home/u/p/t/bs") []) =
      some (demoOps cfg, [str! "/home/u/p/t/bs"]) := by
  obtain ⟨home, manifest, h1, h2, h3⟩ := permSel_ops (extra := []) (by simp) (by simp [hx])
    (demo_made cfg hk)
  have h1' : demoWorld.env.get? (str! "HOME") = some (str! "/home/u") := by decide +kernel
  have h2' : demoWorld.env.get? (str! "CARGO_MANIFEST_DIR") = some (str! "/home/u/p") := by decide +kernel
  rw [h1', Option.some.injEq] at h1
  rw [h2', Option.some.injEq] at h2
  subst h1 h2
  exact h3 _ _ _

/-- **C60, disagreement (binaries).** A writable directory below `/run` is hidden when the network is not
allowed, because `/run` is covered by an empty directory after the configured directories are bound. -/
theorem C60_run_hidden : ¬ C60_Claim := by
  intro h
  have := h.1 demoWorld demoCfg (str! "/home/u/p/t/bs") (demoArgs demoCfg) rfl (demo_made _ rfl) _ _ _ _ _
    (demo_parse demoCfg rfl rfl) (str! "/run/x") (Or.inl (by decide)) rfl (pathOf (str! "/run/x")) (List.prefix_rfl)
  revert this
  decide +kernel

/-- **C60, disagreement (rustc).** In the compiler's sandbox, a writable directory inside the workspace is
read-only, because the workspace is bound read-only after it. -/
theorem C60_workspace_read_only : ¬ C60_Claim := by
  intro h
  let cfg : Sandbox := { kind := some .bubblewrap, makeWritable := [str! "/home/u/p/gen"] }
  let inp : RustcInputs := { outputDirs := [str! "/home/u/p/t"], inputDirs := [str! "/home/u/p"], buildScriptEnv := [] }
  have h4 : fromConfig demoWorld cfg =
      some (some (configArgs demoWorld cfg (str! "/home/u") (str! "/home/u/p"))) := by
    unfold fromConfig
    have h1 : demoWorld.env.get? (str! "HOME") = some (str! "/home/u") := by decide +kernel
    have h2 : demoWorld.env.get? (str! "CARGO_MANIFEST_DIR") = some (str! "/home/u/p") := by decide +kernel
    rw [h1, h2]
    simp [demoWorld, cfg]
  obtain ⟨args, hargs⟩ : ∃ args, forRustc demoWorld cfg inp (str! "/usr/bin/cackle") = some (some args) := by
    unfold forRustc
    rw [h4]
    exact ⟨_, rfl⟩
  obtain ⟨home, manifest, h1, h2, h3⟩ := rustc_ops (extra := []) (by simp) rfl hargs
  have h1' : demoWorld.env.get? (str! "HOME") = some (str! "/home/u") := by decide +kernel
  have h2' : demoWorld.env.get? (str! "CARGO_MANIFEST_DIR") = some (str! "/home/u/p") := by decide +kernel
  rw [h1', Option.some.injEq] at h1
  rw [h2', Option.some.injEq] at h2
  subst h1 h2
  have := h.2 demoWorld cfg inp (str! "/usr/bin/cackle") args rfl hargs [] [] [] _ _ (h3 _ _ _)
    (str! "/home/u/p/gen") (Or.inr (by decide)) rfl (pathOf (str! "/home/u/p/gen")) (List.prefix_rfl)
  revert this
  decide +kernel

theorem append_assoc4 {α : Type} (a b c d : List α) : a ++ b ++ c ++ d = a ++ (b ++ c ++ d) := by simp

theorem configOps_writable {w : World} {cfg : Sandbox} {home manifest d : Str}
    (hd : d ∈ cfg.bindWritable ∨ d ∈ cfg.makeWritable) :
    ∃ pre, configOps w cfg [] home manifest = pre ++
      (cfg.bindWritable.flatMap writableBindO ++ cfg.makeWritable.flatMap writableBindO ++
        (if cfg.allowNetwork.getD false then [(str! "--share-net", [])] else tmpfsO (str! "/run"))) ∧
      (str! "--bind-try", [d, d]) ∈
        cfg.bindWritable.flatMap writableBindO ++ cfg.makeWritable.flatMap writableBindO := by
  unfold configOps
  refine ⟨_, (by rw [List.append_nil]; exact append_assoc4 _ _ _ _), ?_⟩
  rw [List.mem_append, List.mem_flatMap, List.mem_flatMap]
  rcases hd with hd | hd
  · exact Or.inl ⟨d, hd, by simp [writableBindO]⟩
  · exact Or.inr ⟨d, hd, by simp [writableBindO]⟩

theorem writable_view {w : World} {cfg : Sandbox} {home manifest d : Str} {more : List Op}
    (hmore : ∀ o ∈ more, Mount o) {p : PathC} (hd : d ∈ cfg.bindWritable ∨ d ∈ cfg.makeWritable)
    (he : w.pathExists d = true) (hp : pathOf d <+: p)
    (hrun : cfg.allowNetwork = some true ∨ ¬ pathOf (str! "/run") <+: p)
    (hc : ∀ o ∈ more, ∀ d, (o = (str! "--tmpfs", [d]) ∨ o = (str! "--dev", [d]) ∨ o = (str! "--proc", [d]) ∨
      o = (str! "--ro-bind", [d, d])) → ¬ pathOf d <+: p) :
    view w.pathExists (headOps ++ (configOps w cfg [] home manifest ++ more)) p = some (true, p) := by
  obtain ⟨pre, e, hm⟩ := configOps_writable (w := w) (home := home) (manifest := manifest) hd
  unfold view
  rw [e, List.append_assoc, ← List.append_assoc, List.foldl_append]
  apply view_stays
  · intro o ho
    rcases List.mem_append.mp ho with ho | ho
    · apply mount_config (w := w) (cfg := cfg) (home := home) (manifest := manifest)
      rw [e]; exact List.mem_append_right _ ho
    · exact hmore o ho
  · intro o ho d' hd'
    rcases List.mem_append.mp ho with ho | ho
    · rcases List.mem_append.mp ho with ho | ho
      · exfalso
        have : ∃ x, o = (str! "--bind-try", [x, x]) := by
          rcases List.mem_append.mp ho with ho | ho <;>
          · obtain ⟨x, -, hx⟩ := List.mem_flatMap.mp ho
            exact ⟨x, mem_writableBindO.mp hx⟩
        obtain ⟨x, rfl⟩ := this
        simp at hd'
      · split at ho
        · rw [List.mem_singleton] at ho
          subst ho
          simp at hd'
        · rename_i hn
          rw [mem_tmpfsO] at ho
          subst ho
          have : d' = str! "/run" := by
            rcases hd' with h | h | h | h
            · simpa using h.symm
            · simp at h
            · simp at h
            · simp at h
          rw [this]
          rcases hrun with h | h
          · rw [h] at hn; exact absurd rfl hn
          · exact h
    · exact hc o ho d' hd'
  · exact Or.inr ⟨d, he, hp, List.mem_append_left _ (List.mem_append_left _ hm)⟩

/-- **C60, binaries (outside the covered places).** Missing: directories below `/run` without network
access, below `/dev` or `/proc`, or around the directory of the binary, which are covered later. -/
theorem C60_writable_partial (w : World) (cfg : Sandbox) (bin : Str) (args : List Str)
    (hx : cfg.extraArgs = []) (h : forPermSel w cfg bin = some (some args))
    (vars : List (Str × Option Str)) (prog : Str) (pargs : List Str) (ops : List Op) (cmd : List Str)
    (hparse : parse (command args vars prog pargs) = some (ops, cmd))
    (d : Str) (hd : d ∈ cfg.bindWritable ∨ d ∈ cfg.makeWritable) (he : w.pathExists d = true) (p : PathC)
    (hp : pathOf d <+: p) (hrun : cfg.allowNetwork = some true ∨ ¬ pathOf (str! "/run") <+: p)
    (hdev : ¬ pathOf (str! "/dev") <+: p) (hproc : ¬ pathOf (str! "/proc") <+: p)
    (hbin : ∀ b, buildDirectory bin = some b → ¬ pathOf b <+: p) :
    view w.pathExists ops p = some (true, p) := by
  obtain ⟨home, manifest, h1, h2, h3⟩ := permSel_ops (extra := []) (by simp) (by simp [hx]) h
  rw [h3, Option.some.injEq, Prod.mk.injEq] at hparse
  rw [← hparse.1, List.append_assoc, List.append_assoc]
  apply writable_view (mount_append mount_permTail mount_tail) hd he hp hrun
  intro o ho d' hd'
  rcases List.mem_append.mp ho with ho | ho
  · rcases mem_permTailO ho with ⟨b, hb, -, e⟩ | ⟨b, -, e⟩
    · subst e
      have : d' = b := by
        rcases hd' with h | h | h | h
        · simp at h
        · simp at h
        · simp at h
        · simp only [Prod.mk.injEq, List.cons.injEq, and_true, true_and, and_self] at h
          exact h.symm
      rw [this]; exact hbin b hb
    · subst e; simp at hd'
  · rcases mem_tailOps ho with e | e | ⟨v, x, -, e⟩ | ⟨v, -, e⟩
    · subst e
      have : d' = str! "/dev" := by
        rcases hd' with h | h | h | h
        · simp at h
        · simpa using h.symm
        · simp at h
        · simp at h
      rw [this]; exact hdev
    · subst e
      have : d' = str! "/proc" := by
        rcases hd' with h | h | h | h
        · simp at h
        · simp at h
        · simpa using h.symm
        · simp at h
      rw [this]; exact hproc
    · subst e; simp at hd'
    · subst e; simp at hd'

/-! ## C61: registry credentials -/

/-- The English claim C61: a sandboxed build script or test neither sees the registry token variable
(unless it is listed in `pass_env`) nor cargo's credentials file (unless a directory bound on purpose
contains it). -/
def C61_Claim : Prop :=
  ∀ (w : World) (cfg : Sandbox) (bin : Str) (args : List Str) (prog : Str) (pargs : List Str)
    (ops : List Op) (cmd : List Str), w.env.keys.Nodup → cfg.extraArgs = [] →
    forPermSel w cfg bin = some (some args) →
    parse (command args [] prog pargs) = some (ops, cmd) →
    (str! "CARGO_REGISTRY_TOKEN" ∉ cfg.passEnv →
      (envOf w.env ops).get? (str! "CARGO_REGISTRY_TOKEN") = none) ∧
    ∀ cargoHome, w.env.get? (str! "CARGO_HOME") = some cargoHome →
      (∀ d, BoundFor w cfg bin d → ¬ pathOf d <+: pathOf cargoHome ++ [str! "credentials.toml"]) →
      view w.pathExists ops (pathOf cargoHome ++ [str! "credentials.toml"]) = none

/-- **C61, disagreement (variable).** The token is passed on, since its name starts with `CARGO`. -/
theorem C61_token_leaks : ¬ C61_Claim := by
  intro h
  have := (h demoWorld { kind := some .bubblewrap } (str! "/home/u/p/t/bs") _ (str! "/home/u/p/t/bs") [] _ _
    (by decide +kernel) rfl (demo_made _ rfl) (demo_parse _ rfl rfl)).1 (by decide)
  revert this
  decide +kernel

/-- **C61, disagreement (file).** With cargo's home outside the user's home directory, the credentials
file is readable. -/
theorem C61_cargo_home_visible : ¬ C61_Claim := by
  intro h
  have := (h demoWorld { kind := some .bubblewrap } (str! "/home/u/p/t/bs") _ (str! "/home/u/p/t/bs") [] _ _
    (by decide +kernel) rfl (demo_made _ rfl) (demo_parse _ rfl rfl)).2 (str! "/opt/cargo") (by decide +kernel) (by
      rintro d (hd | hd | hd | hd | hd)
      · have e : demoWorld.env.get? (str! "CARGO_MANIFEST_DIR") = some (str! "/home/u/p") := by decide +kernel
        rw [e, Option.some.injEq] at hd
        subst hd; decide +kernel
      · simp at hd
      · simp at hd
      · have hb : buildDirectory (str! "/home/u/p/t/bs") = some (str! "/home/u/p/t") := by decide +kernel
        rw [hb, Option.some.injEq] at hd
        subst hd; decide +kernel
      · have e : demoWorld.env.get? (str! "OUT_DIR") = some (str! "/home/u/p/t/out") := by decide +kernel
        rw [e, Option.some.injEq] at hd
        subst hd; decide +kernel)
  revert this
  decide +kernel

/-- **C61 (the file, default location).** The credentials file in `~/.cargo` is hidden. Missing: other
locations of cargo's home and the variable, for which the claim is false. -/
theorem C61_file_hidden_partial (w : World) (cfg : Sandbox) (bin : Str) (args : List Str)
    (hx : cfg.extraArgs = []) (h : forPermSel w cfg bin = some (some args)) (prog : Str) (pargs : List Str)
    (ops : List Op) (cmd : List Str) (hparse : parse (command args [] prog pargs) = some (ops, cmd))
    (home : Str) (hhome : w.env.get? (str! "HOME") = some home) (habs : home.head? = some '/')
    (hd : ∀ d, BoundFor w cfg bin d → ¬ pathOf d <+: pathOf home ++ [str! ".cargo", str! "credentials.toml"]) :
    view w.pathExists ops (pathOf home ++ [str! ".cargo", str! "credentials.toml"]) = none := by
  cases hv : view w.pathExists ops (pathOf home ++ [str! ".cargo", str! "credentials.toml"]) with
  | none => rfl
  | some bq =>
    exfalso
    obtain ⟨b, q⟩ := bq
    rcases (C58_home_hidden w cfg bin args hx h [] prog pargs ops cmd hparse home hhome habs _ q b
      ⟨_, rfl⟩ hv).2 with ⟨part, h1, h2⟩ | ⟨d, h1, h2⟩
    · rw [List.prefix_append_right_inj] at h2
      simp only [homeParts, List.mem_cons, List.not_mem_nil, or_false] at h1
      rcases h1 with rfl | rfl | rfl | rfl <;> revert h2 <;> decide
    · exact hd d h1 h2

/-! ## Non-vacuity -/

/-- C36: a run with an extra argument and a program whose argument looks like an option. -/
example : ∃ ops, parse (command (demoArgs { kind := some .bubblewrap, passEnv := [str! "SECRET"] }) []
      (str! "/home/u/p/t/bs") [str! "--share-net"]) = some (ops, [str! "/home/u/p/t/bs", str! "--share-net"]) ∧
    netShared ops = false := by
  obtain ⟨ops, h1, -, h2, -⟩ := C36_isolation demoWorld (by decide +kernel)
    { kind := some .bubblewrap, passEnv := [str! "SECRET"] } _ _ [] (by simp) rfl (demo_made _ rfl) []
    (str! "/home/u/p/t/bs") [str! "--share-net"]
  refine ⟨ops, h1, ?_⟩
  cases hn : netShared ops with
  | false => rfl
  | true => simpa using h2 hn

/-- C58, C59: with the demonstration environment, `OUT_DIR` is writable, the sources are readable and the
rest of the home directory is hidden. -/
example : view demoWorld.pathExists (demoOps { kind := some .bubblewrap }) (pathOf (str! "/home/u/p/t/out/x")) =
      some (true, pathOf (str! "/home/u/p/t/out/x")) ∧
    view demoWorld.pathExists (demoOps { kind := some .bubblewrap }) (pathOf (str! "/home/u/p/src")) =
      some (false, pathOf (str! "/home/u/p/src")) ∧
    view demoWorld.pathExists (demoOps { kind := some .bubblewrap }) (pathOf (str! "/home/u/.ssh")) = none := by
  decide +kernel

/-- C60: an ordinary directory. -/
example : view demoWorld.pathExists (demoOps { kind := some .bubblewrap, makeWritable := [str! "/srv/x"] })
    (pathOf (str! "/srv/x/y")) = some (true, pathOf (str! "/srv/x/y")) :=
  C60_writable_partial demoWorld { kind := some .bubblewrap, makeWritable := [str! "/srv/x"] } _ _ rfl
    (demo_made _ rfl) [] _ [] _ _ (demo_parse _ rfl rfl) (str! "/srv/x") (Or.inr (by decide)) rfl _
    (by decide +kernel) (Or.inr (by decide +kernel)) (by decide +kernel) (by decide +kernel) (by
      intro b hb
      have hb' : buildDirectory (str! "/home/u/p/t/bs") = some (str! "/home/u/p/t") := by decide +kernel
      rw [hb', Option.some.injEq] at hb
      subst hb; decide +kernel)

end Cackle.Sandboxing
