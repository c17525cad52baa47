import Verif.Props.SandboxSpec

/-!
# Lemmas about sandbox command lines
-/

namespace Cackle.Sandboxing
open Cackle Config Perm BuildScript Identity

/-- The words of an option. -/
def enc (o : Op) : List Str := o.1 :: o.2

/-- A well-formed option. -/
def OkOp (o : Op) : Prop := arity o.1 = some o.2.length ∧ o.1.head? = some '-' ∧ o.1 ≠ str! "--"

instance (o : Op) : Decidable (OkOp o) := inferInstanceAs (Decidable (_ ∧ _))

theorem okOp0 {n : Str} (h : arity n = some 0 ∧ n.head? = some '-' ∧ n ≠ str! "--") : OkOp (n, []) := h

theorem okOp1 {n a : Str} (h : arity n = some 1 ∧ n.head? = some '-' ∧ n ≠ str! "--") : OkOp (n, [a]) := h

theorem okOp2 {n a b : Str} (h : arity n = some 2 ∧ n.head? = some '-' ∧ n ≠ str! "--") :
    OkOp (n, [a, b]) := h

theorem parse_cons_op {o : Op} (h : OkOp o) (rest : List Str) :
    parse (enc o ++ rest) = (parse rest).map (fun r => (o :: r.1, r.2)) := by
  obtain ⟨ha, hd, hne⟩ := h
  unfold enc
  rw [List.cons_append, parse.eq_def]
  simp only [hne, if_false, hd, ne_eq, not_true_eq_false, ha, List.length_append]
  rw [if_neg (by omega), List.drop_append_of_le_length (Nat.le_refl _), List.drop_length,
    List.take_append_of_le_length (Nat.le_refl _), List.take_length]
  rfl

theorem parse_ops {ops : List Op} (h : ∀ o ∈ ops, OkOp o) (rest : List Str) :
    parse (ops.flatMap enc ++ rest) = (parse rest).map (fun r => (ops ++ r.1, r.2)) := by
  induction ops with
  | nil => rw [List.flatMap_nil, List.nil_append]; cases parse rest <;> rfl
  | cons o ops ih =>
    rw [List.flatMap_cons, List.append_assoc, parse_cons_op (h o (by simp)),
      ih (fun o ho => h o (by simp [ho])), Option.map_map]
    rfl

theorem parse_dashes (rest : List Str) : parse (str! "--" :: rest) = some ([], rest) := by
  rw [parse.eq_def]; simp

/-! ## The options behind the words -/

def roBindO (w : World) (d : Str) : List Op := if w.pathExists d then [(str! "--ro-bind", [d, d])] else []
def writableBindO (d : Str) : List Op := [(str! "--bind-try", [d, d])]
def tmpfsO (d : Str) : List Op := [(str! "--tmpfs", [d])]
def setEnvO (v x : Str) : List Op := [(str! "--setenv", [v, x])]
def passEnvO (w : World) (v : Str) : List Op :=
  match w.env.get? v with
  | some x => setEnvO v x
  | none => []
def passCargoEnvO (w : World) : List Op :=
  passEnvO w (str! "OUT_DIR") ++
  w.env.flatMap (fun e => if isCargoEnv e.1 then setEnvO e.1 e.2 else [])

def configOps (w : World) (cfg : Sandbox) (extra : List Op) (home manifest : Str) : List Op :=
  roBindO w (str! "/") ++ tmpfsO home ++ tmpfsO (str! "/var") ++ tmpfsO (str! "/tmp") ++
  roBindO w (join (join home (str! ".cargo")) (str! "bin")) ++
  roBindO w (join (join home (str! ".cargo")) (str! "git")) ++
  roBindO w (join (join home (str! ".cargo")) (str! "registry")) ++
  roBindO w (join home (str! ".rustup")) ++
  setEnvO (str! "USER") (str! "user") ++ passEnvO w (str! "PATH") ++ passEnvO w (str! "HOME") ++
  cfg.passEnv.flatMap (passEnvO w) ++
  roBindO w manifest ++
  passEnvO w (str! "LD_LIBRARY_PATH") ++ passCargoEnvO w ++
  cfg.bindWritable.flatMap writableBindO ++ cfg.makeWritable.flatMap writableBindO ++
  extra ++
  (if cfg.allowNetwork.getD false then [(str! "--share-net", [])] else tmpfsO (str! "/run"))

theorem enc_roBind (w : World) (d : Str) : (roBindO w d).flatMap enc = roBind w d := by
  unfold roBindO roBind; split <;> rfl

theorem enc_writableBind (d : Str) : (writableBindO d).flatMap enc = writableBind d := rfl

theorem enc_tmpfs (d : Str) : (tmpfsO d).flatMap enc = tmpfs d := rfl

theorem enc_setEnv (v x : Str) : (setEnvO v x).flatMap enc = setEnv v x := rfl

theorem enc_passEnv (w : World) (v : Str) : (passEnvO w v).flatMap enc = passEnv w v := by
  unfold passEnvO passEnv; cases w.env.get? v <;> rfl

theorem enc_flatMap {α : Type} (l : List α) {f : α → List Op} {g : α → List Str}
    (h : ∀ a, (f a).flatMap enc = g a) : (l.flatMap f).flatMap enc = l.flatMap g := by
  induction l with
  | nil => rfl
  | cons a l ih => simp [h, ih]

theorem enc_passCargoEnv (w : World) : (passCargoEnvO w).flatMap enc = passCargoEnv w := by
  unfold passCargoEnvO passCargoEnv
  rw [List.flatMap_append, enc_passEnv, enc_flatMap (g := fun e => if isCargoEnv e.1 then setEnv e.1 e.2 else [])]
  intro e
  split <;> rfl

theorem enc_config (w : World) (cfg : Sandbox) (extra : List Op) (home manifest : Str)
    (h : cfg.extraArgs = extra.flatMap enc) :
    (configOps w cfg extra home manifest).flatMap enc = configArgs w cfg home manifest := by
  unfold configOps configArgs
  simp only [List.flatMap_append, enc_roBind, enc_tmpfs, enc_setEnv, enc_passEnv, enc_passCargoEnv,
    enc_flatMap _ (enc_passEnv w), enc_flatMap _ enc_writableBind, ← h]
  congr 1
  split <;> rfl

/-! ## Well-formedness -/

theorem ok_roBind {w : World} {d : Str} : ∀ o ∈ roBindO w d, OkOp o := by
  unfold roBindO
  split
  · intro o ho
    rw [List.mem_singleton.mp ho]
    first | exact okOp2 (by decide +kernel) | exact okOp1 (by decide +kernel) | exact okOp0 (by decide +kernel)
  · simp

theorem ok_writableBind {d : Str} : ∀ o ∈ writableBindO d, OkOp o := by
  intro o ho
  rw [List.mem_singleton.mp ho]
  first | exact okOp2 (by decide +kernel) | exact okOp1 (by decide +kernel) | exact okOp0 (by decide +kernel)

theorem ok_tmpfs {d : Str} : ∀ o ∈ tmpfsO d, OkOp o := by
  intro o ho
  rw [List.mem_singleton.mp ho]
  first | exact okOp2 (by decide +kernel) | exact okOp1 (by decide +kernel) | exact okOp0 (by decide +kernel)

theorem ok_setEnv {v x : Str} : ∀ o ∈ setEnvO v x, OkOp o := by
  intro o ho
  rw [List.mem_singleton.mp ho]
  first | exact okOp2 (by decide +kernel) | exact okOp1 (by decide +kernel) | exact okOp0 (by decide +kernel)

theorem ok_passEnv {w : World} {v : Str} : ∀ o ∈ passEnvO w v, OkOp o := by
  unfold passEnvO
  split
  · exact ok_setEnv
  · simp

theorem ok_append {a b : List Op} (ha : ∀ o ∈ a, OkOp o) (hb : ∀ o ∈ b, OkOp o) : ∀ o ∈ a ++ b, OkOp o := by
  intro o ho
  rcases List.mem_append.mp ho with h | h
  · exact ha o h
  · exact hb o h

theorem ok_flatMap {α : Type} {l : List α} {f : α → List Op} (h : ∀ a, ∀ o ∈ f a, OkOp o) :
    ∀ o ∈ l.flatMap f, OkOp o := by
  intro o ho
  obtain ⟨a, -, ha⟩ := List.mem_flatMap.mp ho
  exact h a o ha

theorem ok_config {w : World} {cfg : Sandbox} {extra : List Op} {home manifest : Str}
    (h : ∀ o ∈ extra, OkOp o) : ∀ o ∈ configOps w cfg extra home manifest, OkOp o := by
  unfold configOps passCargoEnvO
  repeat' apply ok_append
  all_goals first
    | exact ok_roBind | exact ok_tmpfs | exact ok_setEnv | exact ok_passEnv | exact h
    | exact ok_flatMap (fun _ => ok_passEnv) | exact ok_flatMap (fun _ => ok_writableBind)
    | skip
  · apply ok_flatMap
    intro e
    split
    · exact ok_setEnv
    · simp
  · split
    · intro o ho
      rw [List.mem_singleton.mp ho]
      first | exact okOp2 (by decide +kernel) | exact okOp1 (by decide +kernel) | exact okOp0 (by decide +kernel)
    · exact ok_tmpfs

/-- The options put before the sandbox's own by `Bubblewrap::command`. -/
def headOps : List Op :=
  [(str! "--unshare-all", []), (str! "--uid", [str! "1000"]), (str! "--gid", [str! "1000"]),
   (str! "--hostname", [str! "none"]), (str! "--new-session", []), (str! "--clearenv", [])]

def varOps (vars : List (Str × Option Str)) : List Op :=
  vars.map (fun e =>
    match e.2 with
    | some x => (str! "--setenv", [e.1, x])
    | none => (str! "--unsetenv", [e.1]))

def tailOps (vars : List (Str × Option Str)) : List Op :=
  [(str! "--dev", [str! "/dev"]), (str! "--proc", [str! "/proc"])] ++ varOps vars

theorem enc_varOps (vars : List (Str × Option Str)) :
    (varOps vars).flatMap enc = vars.flatMap (fun e =>
      match e.2 with
      | some x => [str! "--setenv", e.1, x]
      | none => [str! "--unsetenv", e.1]) := by
  induction vars with
  | nil => rfl
  | cons e vars ih =>
    unfold varOps at ih ⊢
    rw [List.map_cons, List.flatMap_cons, List.flatMap_cons, ih]
    congr 1
    split <;> rfl

theorem ok_varOps (vars : List (Str × Option Str)) : ∀ o ∈ varOps vars, OkOp o := by
  intro o ho
  obtain ⟨e, -, rfl⟩ := List.mem_map.mp ho
  split
  · first | exact okOp2 (by decide +kernel) | exact okOp1 (by decide +kernel) | exact okOp0 (by decide +kernel)
  · first | exact okOp2 (by decide +kernel) | exact okOp1 (by decide +kernel) | exact okOp0 (by decide +kernel)

theorem ok_tailOps (vars : List (Str × Option Str)) : ∀ o ∈ tailOps vars, OkOp o :=
  ok_append (by decide +kernel) (ok_varOps vars)

/-- The command line is read by `bwrap` the way it was meant. -/
theorem parse_command {ops : List Op} (h : ∀ o ∈ ops, OkOp o) (vars : List (Str × Option Str)) (prog : Str)
    (progArgs : List Str) :
    parse (command (ops.flatMap enc) vars prog progArgs) =
      some (headOps ++ ops ++ tailOps vars, prog :: progArgs) := by
  have : command (ops.flatMap enc) vars prog progArgs =
      (headOps ++ ops ++ tailOps vars).flatMap enc ++ (str! "--" :: prog :: progArgs) := by
    unfold command tailOps
    simp only [List.flatMap_append, enc_varOps]
    simp [headOps, enc]
    rfl
  rw [this, parse_ops (ok_append (ok_append (by decide +kernel) h) (ok_tailOps vars)), parse_dashes]
  simp

/-! ## Environment -/

theorem filter_get? {env : AMap Str Str} {f : Str × Str → Bool} {v x : Str}
    (h : AMap.get? (env.filter f) v = some x) : (v, x) ∈ env ∧ f (v, x) = true := by
  have := AMap.mem_of_get? h
  simpa using this

theorem envOf_append (host : AMap Str Str) (a b : List Op) : envOf host (a ++ b) = envOf (envOf host a) b := by
  simp [envOf]

/-- A variable of the result was set by an option or was there before. -/
theorem envOf_sound {host : AMap Str Str} {ops : List Op} {v x : Str}
    (h : (envOf host ops).get? v = some x) : (str! "--setenv", [v, x]) ∈ ops ∨ host.get? v = some x ∨
      (v = str! "PWD" ∧ (v, x) ∈ host) := by
  induction ops generalizing host with
  | nil => exact Or.inr (Or.inl h)
  | cons o ops ih =>
    have h' : (envOf (envStep host o) ops).get? v = some x := h
    have key : ∀ h2 : (envStep host o).get? v = some x ∨ (v = str! "PWD" ∧ (v, x) ∈ envStep host o),
        (str! "--setenv", [v, x]) ∈ o :: ops ∨ host.get? v = some x ∨ (v = str! "PWD" ∧ (v, x) ∈ host) := by
      intro h2
      obtain ⟨n, as⟩ := o
      unfold envStep at h2
      simp only at h2
      split at h2
      · rcases h2 with h2 | ⟨e, h2⟩
        · obtain ⟨h3, h4⟩ := filter_get? h2
          exact Or.inr (Or.inr ⟨by simpa using h4, h3⟩)
        · exact Or.inr (Or.inr ⟨e, (List.mem_filter.mp h2).1⟩)
      · split at h2
        · split at h2
          · rcases h2 with h2 | ⟨e, h2⟩
            · rw [AMap.get?_erase] at h2
              split at h2
              · simp at h2
              · exact Or.inr (Or.inl h2)
            · refine Or.inr (Or.inr ⟨e, ?_⟩)
              clear ih h h'
              rename_i u _ _
              revert h2
              induction host with
              | nil => simp [AMap.erase]
              | cons kv rest ih2 =>
                obtain ⟨k, y⟩ := kv
                simp only [AMap.erase]
                split
                · exact fun h => List.mem_cons_of_mem _ (ih2 h)
                · intro h
                  rcases List.mem_cons.mp h with h | h
                  · exact h ▸ List.mem_cons_self
                  · exact List.mem_cons_of_mem _ (ih2 h)
          · exact Or.inr h2
        · rename_i u y
          split at h2
          · rename_i hn
            rcases h2 with h2 | ⟨e, h2⟩
            · rw [AMap.get?_insert] at h2
              split at h2
              · rename_i e
                subst hn e
                rw [Option.some.injEq] at h2
                subst h2
                exact Or.inl List.mem_cons_self
              · exact Or.inr (Or.inl h2)
            · have : (v, x) = (u, y) ∨ (v, x) ∈ host := by
                clear ih h h'
                revert h2
                induction host with
                | nil => simp [AMap.insert]
                | cons kv rest ih2 =>
                  obtain ⟨k, z⟩ := kv
                  simp only [AMap.insert]
                  split
                  · rename_i hk
                    intro h
                    rcases List.mem_cons.mp h with h | h
                    · exact Or.inl (by rw [h, hk])
                    · exact Or.inr (List.mem_cons_of_mem _ h)
                  · intro h
                    rcases List.mem_cons.mp h with h | h
                    · exact Or.inr (h ▸ List.mem_cons_self)
                    · rcases ih2 h with h | h
                      · exact Or.inl h
                      · exact Or.inr (List.mem_cons_of_mem _ h)
              rcases this with h3 | h3
              · cases h3
                exact Or.inl (by simp [hn])
              · exact Or.inr (Or.inr ⟨e, h3⟩)
          · exact Or.inr h2
        · exact Or.inr h2
    rcases ih h' with h1 | h1 | h1
    · exact Or.inl (List.mem_cons_of_mem _ h1)
    · exact key (Or.inl h1)
    · exact key (Or.inr h1)

/-- An option that does not touch `v`. -/
def Untouched (v : Str) (o : Op) : Prop :=
  o.1 ≠ str! "--clearenv" ∧ o.2.head? ≠ some v ∨ (o.1 ≠ str! "--clearenv" ∧ o.1 ≠ str! "--setenv" ∧ o.1 ≠ str! "--unsetenv")

theorem envStep_untouched {v : Str} {o : Op} (h : Untouched v o) (env : AMap Str Str) :
    (envStep env o).get? v = env.get? v := by
  obtain ⟨n, as⟩ := o
  unfold Untouched at h
  unfold envStep
  simp only at h ⊢
  have hc : n ≠ str! "--clearenv" := by rcases h with h | h <;> exact h.1
  rw [if_neg hc]
  split
  · split
    · rename_i hn
      rcases h with h | h
      · rw [AMap.get?_erase, if_neg]
        intro e; exact h.2 (by simp [e])
      · exact absurd hn h.2.2
    · rfl
  · split
    · rename_i hn
      rcases h with h | h
      · rw [AMap.get?_insert, if_neg]
        intro e; exact h.2 (by simp [e])
      · exact absurd hn h.2.1
    · rfl
  · rfl

/-- If every option leaves `v` alone or sets it to `x`, the value stays or becomes `x`. -/
theorem envOf_keeps {v x : Str} {ops : List Op}
    (h : ∀ o ∈ ops, Untouched v o ∨ o = (str! "--setenv", [v, x])) (env : AMap Str Str)
    (hs : (str! "--setenv", [v, x]) ∈ ops ∨ env.get? v = some x) : (envOf env ops).get? v = some x := by
  induction ops generalizing env with
  | nil =>
    rcases hs with hs | hs
    · simp at hs
    · exact hs
  | cons o ops ih =>
    show (envOf (envStep env o) ops).get? v = some x
    apply ih (fun o ho => h o (by simp [ho]))
    rcases h o (by simp) with h1 | h1
    · rw [envStep_untouched h1]
      rcases hs with hs | hs
      · rcases List.mem_cons.mp hs with hs | hs
        · subst hs
          exfalso
          rcases h1 with h1 | h1
          · exact h1.2 rfl
          · exact h1.2.1 rfl
        · exact Or.inl hs
      · exact Or.inr hs
    · subst h1
      right
      have : envStep env (str! "--setenv", [v, x]) = env.insert v x := by
        unfold envStep
        rw [if_neg (show ¬ ((str! "--setenv", [v, x]).1 = str! "--clearenv") by simp)]
        simp
      rw [this, AMap.get?_insert, if_pos rfl]

/-! ## Network -/

def netStep (s : Bool) (o : Op) : Bool :=
  if o.1 = str! "--share-net" then true
  else if o.1 = str! "--unshare-all" ∨ o.1 = str! "--unshare-net" then false
  else s

theorem netShared_eq (ops : List Op) : netShared ops = ops.foldl netStep true := rfl

theorem net_not {ops : List Op} (h : ∀ o ∈ ops, o.1 ≠ str! "--share-net") : ops.foldl netStep false = false := by
  induction ops with
  | nil => rfl
  | cons o ops ih =>
    rw [List.foldl_cons]
    have : netStep false o = false := by
      unfold netStep
      rw [if_neg (h o (by simp))]
      split <;> rfl
    rw [this, ih (fun o ho => h o (by simp [ho]))]

theorem net_keeps {ops : List Op} (h : ∀ o ∈ ops, o.1 ≠ str! "--unshare-all" ∧ o.1 ≠ str! "--unshare-net") :
    ops.foldl netStep true = true := by
  induction ops with
  | nil => rfl
  | cons o ops ih =>
    rw [List.foldl_cons]
    have : netStep true o = true := by
      unfold netStep
      rw [if_neg (show ¬ (o.1 = str! "--unshare-all" ∨ o.1 = str! "--unshare-net") from
        fun e => e.elim (h o (by simp)).1 (h o (by simp)).2)]
      split <;> rfl
    rw [this, ih (fun o ho => h o (by simp [ho]))]

/-! ## Mounts -/

theorem view_append (pr : Str → Bool) (a b : List Op) (p : PathC) :
    (a ++ b).foldl (viewStep pr p) none = b.foldl (viewStep pr p) (a.foldl (viewStep pr p) none) := by
  simp

/-- An option that is not a mount. -/
def NoMount (o : Op) : Prop :=
  o.1 ≠ str! "--tmpfs" ∧ o.1 ≠ str! "--dev" ∧ o.1 ≠ str! "--proc" ∧ o.1 ≠ str! "--ro-bind" ∧
  o.1 ≠ str! "--bind-try"

theorem viewStep_noMount {pr : Str → Bool} {p : PathC} {v : View} {o : Op} (h : NoMount o) :
    viewStep pr p v o = v := by
  obtain ⟨h1, h2, h3, h4, h5⟩ := h
  unfold viewStep
  split
  · rw [if_neg]
    rintro ⟨h | h | h, -⟩
    · exact h1 h
    · exact h2 h
    · exact h3 h
  · rw [if_neg (fun h => h4 h.1), if_neg (fun h => h5 h.1)]
  · rfl

/-- The options that concern directory `d` itself. -/
inductive Mount (o : Op) : Prop where
  | hide (d : Str) (h : o = (str! "--tmpfs", [d]) ∨ o = (str! "--dev", [d]) ∨ o = (str! "--proc", [d]))
  | ro (d : Str) (h : o = (str! "--ro-bind", [d, d]))
  | rw (d : Str) (h : o = (str! "--bind-try", [d, d]))
  | no (h : NoMount o)

theorem append_drop_of_prefix {a p : PathC} (h : a <+: p) : a ++ p.drop a.length = p := by
  obtain ⟨r, rfl⟩ := h
  simp

theorem viewStep_hide {pr : Str → Bool} {p : PathC} {v : View} {o : Op} {d : Str}
    (h : o = (str! "--tmpfs", [d]) ∨ o = (str! "--dev", [d]) ∨ o = (str! "--proc", [d])) :
    viewStep pr p v o = if pathOf d <+: p then none else v := by
  rcases h with rfl | rfl | rfl <;> simp [viewStep]

theorem viewStep_ro {pr : Str → Bool} {p : PathC} {v : View} {d : Str} :
    viewStep pr p v (str! "--ro-bind", [d, d]) = if pathOf d <+: p then some (false, p) else v := by
  unfold viewStep
  simp only [true_and]
  split
  · rename_i h; rw [append_drop_of_prefix h]
  · rw [if_neg (by simp)]

theorem viewStep_rw {pr : Str → Bool} {p : PathC} {v : View} {d : Str} :
    viewStep pr p v (str! "--bind-try", [d, d]) =
      if pr d = true ∧ pathOf d <+: p then some (true, p) else v := by
  unfold viewStep
  simp only [true_and]
  rw [if_neg (by simp)]
  split
  · rename_i h; rw [append_drop_of_prefix h.2]
  · rfl

/-- Whatever is visible of the host was bound by some option. -/
theorem view_sound {pr : Str → Bool} {p : PathC} {ops : List Op} (hm : ∀ o ∈ ops, Mount o) {v : View}
    {b : Bool} {q : PathC} (h : ops.foldl (viewStep pr p) v = some (b, q)) :
    v = some (b, q) ∨ (q = p ∧ ∃ d, pathOf d <+: p ∧
      ((b = false ∧ (str! "--ro-bind", [d, d]) ∈ ops) ∨ (b = true ∧ (str! "--bind-try", [d, d]) ∈ ops))) := by
  induction ops generalizing v with
  | nil => exact Or.inl h
  | cons o ops ih =>
    rw [List.foldl_cons] at h
    rcases ih (fun o ho => hm o (by simp [ho])) h with h1 | ⟨hq, d, hd, h1⟩
    · cases hm o (by simp) with
      | hide d e =>
        rw [viewStep_hide e] at h1
        split at h1
        · simp at h1
        · exact Or.inl h1
      | ro d e =>
        subst e
        rw [viewStep_ro] at h1
        split at h1
        · rename_i hd
          simp only [Option.some.injEq, Prod.mk.injEq] at h1
          exact Or.inr ⟨h1.2.symm, d, hd, Or.inl ⟨h1.1.symm, by simp⟩⟩
        · exact Or.inl h1
      | rw d e =>
        subst e
        rw [viewStep_rw] at h1
        split at h1
        · rename_i hd
          simp only [Option.some.injEq, Prod.mk.injEq] at h1
          exact Or.inr ⟨h1.2.symm, d, hd.2, Or.inr ⟨h1.1.symm, by simp⟩⟩
        · exact Or.inl h1
      | no e =>
        rw [viewStep_noMount e] at h1
        exact Or.inl h1
    · refine Or.inr ⟨hq, d, hd, ?_⟩
      rcases h1 with ⟨hb, h1⟩ | ⟨hb, h1⟩
      · exact Or.inl ⟨hb, by simp [h1]⟩
      · exact Or.inr ⟨hb, by simp [h1]⟩

/-- A writable path stays writable unless it is covered by a later option. -/
theorem view_stays {pr : Str → Bool} {p : PathC} {ops : List Op} (hm : ∀ o ∈ ops, Mount o)
    (hc : ∀ o ∈ ops, ∀ d, (o = (str! "--tmpfs", [d]) ∨ o = (str! "--dev", [d]) ∨ o = (str! "--proc", [d]) ∨
      o = (str! "--ro-bind", [d, d])) → ¬ pathOf d <+: p) {v : View}
    (h : v = some (true, p) ∨ ∃ d, pr d = true ∧ pathOf d <+: p ∧ (str! "--bind-try", [d, d]) ∈ ops) :
    ops.foldl (viewStep pr p) v = some (true, p) := by
  induction ops generalizing v with
  | nil =>
    rcases h with h | ⟨d, -, -, h⟩
    · exact h
    · simp at h
  | cons o ops ih =>
    rw [List.foldl_cons]
    apply ih (fun o ho => hm o (by simp [ho])) (fun o ho => hc o (by simp [ho]))
    cases hm o (by simp) with
    | hide d e =>
      have hn : ¬ pathOf d <+: p := hc o (by simp) d (by rcases e with e | e | e <;> simp [e])
      rw [viewStep_hide e, if_neg hn]
      rcases h with h | ⟨d', h1, h2, h3⟩
      · exact Or.inl h
      · rcases List.mem_cons.mp h3 with h3 | h3
        · rw [← h3] at e; simp at e
        · exact Or.inr ⟨d', h1, h2, h3⟩
    | ro d e =>
      have hn : ¬ pathOf d <+: p := hc o (by simp) d (by simp [e])
      subst e
      rw [viewStep_ro, if_neg hn]
      rcases h with h | ⟨d', h1, h2, h3⟩
      · exact Or.inl h
      · rcases List.mem_cons.mp h3 with h3 | h3
        · simp at h3
        · exact Or.inr ⟨d', h1, h2, h3⟩
    | rw d e =>
      subst e
      rw [viewStep_rw]
      by_cases hd : pr d = true ∧ pathOf d <+: p
      · rw [if_pos hd]; exact Or.inl rfl
      · rw [if_neg hd]
        rcases h with h | ⟨d', h1, h2, h3⟩
        · exact Or.inl h
        · rcases List.mem_cons.mp h3 with h3 | h3
          · simp only [Prod.mk.injEq, List.cons.injEq, and_true, true_and, and_self] at h3
            exact absurd ⟨h3 ▸ h1, h3 ▸ h2⟩ hd
          · exact Or.inr ⟨d', h1, h2, h3⟩
    | no e =>
      rw [viewStep_noMount e]
      rcases h with h | ⟨d', h1, h2, h3⟩
      · exact Or.inl h
      · rcases List.mem_cons.mp h3 with h3 | h3
        · rw [← h3] at e; exact absurd rfl e.2.2.2.2
        · exact Or.inr ⟨d', h1, h2, h3⟩

end Cackle.Sandboxing
