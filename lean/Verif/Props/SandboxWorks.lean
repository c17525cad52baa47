import Verif.Props.Sandbox
import Verif.Props.DepsPath

/-!
# C69: what a sandboxed program needs is there
-/

namespace Cackle.Sandboxing
open Cackle Config Perm BuildScript Identity

/-! ## Views -/

/-- Something bound stays visible if nothing is mounted over it. -/
theorem view_visible {pr : Str → Bool} {p : PathC} {ops : List Op} (hm : ∀ o ∈ ops, Mount o)
    (hc : ∀ o ∈ ops, ∀ d, (o = (str! "--tmpfs", [d]) ∨ o = (str! "--dev", [d]) ∨ o = (str! "--proc", [d])) →
      ¬ pathOf d <+: p) {v : View}
    (h : (∃ b, v = some (b, p)) ∨ ∃ d, pathOf d <+: p ∧ (str! "--ro-bind", [d, d]) ∈ ops) :
    ∃ b, ops.foldl (viewStep pr p) v = some (b, p) := by
  induction ops generalizing v with
  | nil =>
    rcases h with h | ⟨d, -, h⟩
    · exact h
    · simp at h
  | cons o ops ih =>
    rw [List.foldl_cons]
    apply ih (fun o ho => hm o (by simp [ho])) (fun o ho => hc o (by simp [ho]))
    by_cases h' : ∃ d, pathOf d <+: p ∧ (str! "--ro-bind", [d, d]) ∈ ops
    · exact Or.inr h'
    · left
      have h2 : (∃ b, v = some (b, p)) ∨ ∃ d, pathOf d <+: p ∧ o = (str! "--ro-bind", [d, d]) := by
        rcases h with h | ⟨d, hd, h⟩
        · exact Or.inl h
        · rcases List.mem_cons.mp h with h | h
          · exact Or.inr ⟨d, hd, h.symm⟩
          · exact absurd ⟨d, hd, h⟩ h'
      rcases h2 with ⟨b, rfl⟩ | ⟨d, hd, rfl⟩
      · cases hm o (by simp) with
        | hide d e =>
          rw [viewStep_hide e, if_neg (hc o (by simp) d e)]
          exact ⟨b, rfl⟩
        | ro d e =>
          subst e
          rw [viewStep_ro]
          split
          · exact ⟨_, rfl⟩
          · exact ⟨b, rfl⟩
        | rw d e =>
          subst e
          rw [viewStep_rw]
          split
          · exact ⟨_, rfl⟩
          · exact ⟨b, rfl⟩
        | no e => rw [viewStep_noMount e]; exact ⟨b, rfl⟩
      · rw [viewStep_ro, if_pos hd]
        exact ⟨_, rfl⟩

private theorem tail_hides {vars : List (Str × Option Str)} {p : PathC} (hdev : ¬ pathOf (str! "/dev") <+: p)
    (hproc : ¬ pathOf (str! "/proc") <+: p) :
    ∀ o ∈ tailOps vars, ∀ d, (o = (str! "--tmpfs", [d]) ∨ o = (str! "--dev", [d]) ∨ o = (str! "--proc", [d]) ∨
      o = (str! "--ro-bind", [d, d])) → ¬ pathOf d <+: p := by
  intro o ho d hd
  rcases mem_tailOps ho with e | e | ⟨v, x, -, e⟩ | ⟨v, -, e⟩
  · subst e
    have : d = str! "/dev" := by rcases hd with h | h | h | h <;> simp at h; exact h.symm
    rw [this]; exact hdev
  · subst e
    have : d = str! "/proc" := by rcases hd with h | h | h | h <;> simp at h; exact h.symm
    rw [this]; exact hproc
  · subst e; simp at hd
  · subst e; simp at hd

/-! ## Where a binary is -/

private theorem dropWhile_to_slash (n r : Str) (hn : '/' ∉ n) :
    (n ++ '/' :: r).dropWhile (· ≠ '/') = '/' :: r := by
  induction n with
  | nil => simp
  | cons c n ih =>
    simp only [List.mem_cons, not_or] at hn
    have hc : c ≠ '/' := fun e => hn.1 e.symm
    simp only [List.cons_append]
    rw [List.dropWhile_cons_of_pos (by simp [hc])]
    exact ih hn.2

private theorem takeWhile_to_slash (n r : Str) (hn : '/' ∉ n) :
    (n ++ '/' :: r).takeWhile (· ≠ '/') = n := by
  induction n with
  | nil => simp
  | cons c n ih =>
    simp only [List.mem_cons, not_or] at hn
    have hc : c ≠ '/' := fun e => hn.1 e.symm
    simp only [List.cons_append]
    rw [List.takeWhile_cons_of_pos (by simp [hc]), ih hn.2]

theorem parentText_join {d n : Str} (hd : d ≠ []) (hn : '/' ∉ n) :
    parentText (d ++ str! "/" ++ n) = some d := by
  unfold parentText
  rw [if_neg]
  · have : (d ++ str! "/" ++ n).reverse = n.reverse ++ '/' :: d.reverse := by simp
    rw [this, dropWhile_to_slash _ _ (by simpa using hn)]
    cases h : d.reverse with
    | nil => exact absurd (by simpa using h) hd
    | cons c r => simp only [← h, List.reverse_reverse]
  · rintro (h | h)
    · simp at h
    · cases d with
      | nil => exact hd rfl
      | cons c d => simp at h

theorem fileName_join {d n : Str} (hn : '/' ∉ n) : fileName (d ++ str! "/" ++ n) = n := by
  unfold fileName
  have : (d ++ str! "/" ++ n).reverse = n.reverse ++ '/' :: d.reverse := by simp
  rw [this, takeWhile_to_slash _ _ (by simpa using hn), List.reverse_reverse]

/-- The directory that belongs to a binary: the one it is in or, for a binary in `deps`, the one above. -/
inductive BuildDir : (bin dir : Str) → Prop where
  | deps (dir name : Str) : dir ≠ [] → '/' ∉ name → BuildDir (dir ++ str! "/" ++ str! "deps" ++ str! "/" ++ name) dir
  | direct (dir sub name : Str) : dir ≠ [] → '/' ∉ name → '/' ∉ sub → sub ≠ str! "deps" →
      BuildDir (dir ++ str! "/" ++ sub ++ str! "/" ++ name) (dir ++ str! "/" ++ sub)

theorem buildDirectory_spec {bin dir : Str} (h : BuildDir bin dir) : buildDirectory bin = some dir := by
  cases h with
  | deps _ name hd hn =>
    unfold buildDirectory
    rw [parentText_join (by simp) hn]
    simp only [Option.map_some]
    rw [fileName_join (by decide), if_pos rfl, parentText_join hd (by decide)]
    rfl
  | direct dir sub name hd hn hs hne =>
    unfold buildDirectory
    rw [parentText_join (by simp) hn]
    simp only [Option.map_some]
    rw [fileName_join hs, if_neg hne]

/-! ## C69 -/

/-- **C69, binaries.** In the sandbox of a build script or test, everything in its `OUT_DIR` is writable and
everything in its build directory is visible, unless it is below `/dev` or `/proc`. -/
theorem C69_binary (w : World) (cfg : Sandbox) (bin : Str) (args : List Str)
    (hx : cfg.extraArgs = []) (h : forPermSel w cfg bin = some (some args))
    (vars : List (Str × Option Str)) (prog : Str) (pargs : List Str) (ops : List Op) (cmd : List Str)
    (hparse : parse (command args vars prog pargs) = some (ops, cmd)) (p : PathC)
    (hdev : ¬ pathOf (str! "/dev") <+: p) (hproc : ¬ pathOf (str! "/proc") <+: p) :
    (∀ d, w.env.get? (str! "OUT_DIR") = some d → w.pathExists d = true → pathOf d <+: p →
      view w.pathExists ops p = some (true, p)) ∧
    (∀ d, BuildDir bin d → w.pathExists d = true → pathOf d <+: p →
      ∃ b, view w.pathExists ops p = some (b, p)) := by
  obtain ⟨home, manifest, h1, h2, h3⟩ := permSel_ops (extra := []) (by simp) (by simp [hx]) h
  rw [h3, Option.some.injEq, Prod.mk.injEq] at hparse
  rw [← hparse.1]
  constructor
  · intro d hd he hp
    unfold view permTailO
    rw [hd]
    simp only [Option.map_some, Option.getD_some]
    rw [show ∀ a b c d e : List Op, a ++ (b ++ (c ++ d)) ++ e = (a ++ (b ++ c)) ++ (d ++ e) by
      intros; simp, List.foldl_append]
    apply view_stays
    · exact mount_append (fun o ho => .rw d (mem_writableBindO.mp ho)) mount_tail
    · intro o ho d' hd'
      rcases List.mem_append.mp ho with ho | ho
      · rw [mem_writableBindO.mp ho] at hd'
        simp at hd'
      · exact tail_hides hdev hproc o ho d' hd'
    · exact Or.inr ⟨d, he, hp, List.mem_append_left _ (by simp [writableBindO])⟩
  · intro d hd he hp
    unfold view
    rw [show ∀ a b c d : List Op, a ++ (b ++ c) ++ d = (a ++ b) ++ (c ++ d) by intros; simp, List.foldl_append]
    apply view_visible
    · exact mount_append mount_permTail mount_tail
    · intro o ho d' hd'
      rcases List.mem_append.mp ho with ho | ho
      · exfalso
        rcases mem_permTailO ho with ⟨b, -, -, e⟩ | ⟨b, -, e⟩ <;> subst e <;> simp at hd'
      · exact tail_hides hdev hproc o ho d' (by rcases hd' with h | h | h <;> simp [h])
    · refine Or.inr ⟨d, hp, List.mem_append_left _ ?_⟩
      unfold permTailO
      rw [buildDirectory_spec hd]
      apply List.mem_append_left
      simp [roBindO, he]

/-- Command lines in which `--out-dir` is only used as the option. -/
def PlainOutDir : Rustc.Item → Prop
  | .codegen v => v ≠ str! "--out-dir"
  | .valued _ v => v ≠ str! "--out-dir"
  | .plain a => a ≠ str! "--out-dir"

/-- The directories that rustc is told to write to. -/
def ToldToWrite (items : List Rustc.Item) (d : Str) : Prop :=
  .valued (str! "--out-dir") d ∈ items ∨ .codegen (str! "incremental=" ++ d) ∈ items

private theorem stripPrefix_incremental (d : Str) :
    stripPrefix (str! "incremental=") (str! "incremental=" ++ d) = some d := stripPrefix_eq.mpr rfl

theorem outDirs_complete {items : List Rustc.Item} (hp : ∀ i ∈ items, PlainOutDir i) {d : Str}
    (h : ToldToWrite items d) : d ∈ outDirs (Rustc.render items) false := by
  induction items with
  | nil => rcases h with h | h <;> simp at h
  | cons i rest ih =>
    have ih := ih (fun i hi => hp i (by simp [hi]))
    have hi := hp i (by simp)
    cases i with
    | codegen v =>
      have hC : ¬ (str! "-C" = str! "--out-dir") := by decide
      simp only [PlainOutDir] at hi
      simp only [Rustc.render, outDirs, hC, decide_false, hi, List.mem_append, Option.mem_toList]
      rcases h with h | h
      · exact Or.inr (Or.inr (ih (Or.inl (by simpa using h))))
      · rcases List.mem_cons.mp h with h | h
        · rw [Rustc.Item.codegen.injEq] at h
          rw [← h]
          exact Or.inr (Or.inl (stripPrefix_incremental d))
        · exact Or.inr (Or.inr (ih (Or.inr h)))
    | valued a v =>
      simp only [PlainOutDir] at hi
      by_cases ha : a = str! "--out-dir"
      · subst ha
        simp only [Rustc.render, outDirs, decide_true, List.mem_append, List.mem_cons]
        rcases h with h | h
        · rcases List.mem_cons.mp h with h | h
          · rw [Rustc.Item.valued.injEq] at h
            exact Or.inr (Or.inl h.2)
          · exact Or.inr (Or.inr (ih (Or.inl h)))
        · exact Or.inr (Or.inr (ih (Or.inr (by simpa using h))))
      · simp only [Rustc.render, outDirs, ha, decide_false, hi, List.mem_append]
        rcases h with h | h
        · rcases List.mem_cons.mp h with h | h
          · rw [Rustc.Item.valued.injEq] at h
            exact absurd h.1.symm ha
          · exact Or.inr (Or.inr (ih (Or.inl h)))
        · exact Or.inr (Or.inr (ih (Or.inr (by simpa using h))))
    | plain a =>
      simp only [PlainOutDir] at hi
      simp only [Rustc.render, outDirs, hi, decide_false, List.mem_append]
      rcases h with h | h
      · exact Or.inr (ih (Or.inl (by simpa using h)))
      · exact Or.inr (ih (Or.inr (by simpa using h)))

/-- **C69, rustc.** In the sandbox of the compiler, the directories it is told to write to, the directory of
the socket and the target directory are writable, and the workspace is visible, unless below `/dev` or `/proc` or at cackle itself. -/
theorem C69_rustc (w : World) (cfg : Sandbox) (items : List Rustc.Item) (hi : ∀ i ∈ items, PlainOutDir i)
    (rv : Str → Str → List Str) (inp : RustcInputs)
    (hinp : rustcInputs w (Rustc.render items) rv = some inp) (exe : Str)
    (args : List Str) (hx : cfg.extraArgs = []) (h : forRustc w cfg inp exe = some (some args))
    (vars : List (Str × Option Str)) (prog : Str) (pargs : List Str) (ops : List Op) (cmd : List Str)
    (hparse : parse (command args vars prog pargs) = some (ops, cmd)) (p : PathC)
    (hdev : ¬ pathOf (str! "/dev") <+: p) (hproc : ¬ pathOf (str! "/proc") <+: p)
    (target : Str) (ht : w.env.get? (str! "CACKLE_TARGET_DIR") = some target) (hte : w.pathExists target = true) :
    (∀ d, (ToldToWrite items d ∨ ∃ s, w.env.get? (str! "CACKLE_SOCKET_PATH") = some s ∧ parentText s = some d) ∨ d = target →
      w.pathExists d = true → pathOf d <+: p → ¬ pathOf exe <+: p →
      view w.pathExists ops p = some (true, p)) ∧
    (∀ d, w.env.get? (str! "CACKLE_MANIFEST_DIR") = some d → w.pathExists d = true → pathOf d <+: p →
      ∃ b, view w.pathExists ops p = some (b, p)) := by
  obtain ⟨home, manifest, h1, h2, h3⟩ := rustc_ops (extra := []) (by simp) (by simp [hx]) h
  rw [h3, Option.some.injEq, Prod.mk.injEq] at hparse
  rw [← hparse.1]
  unfold rustcInputs at hinp
  rw [ht] at hinp
  split at hinp
  · rename_i target' profile workspace e1 e2 e3
    rw [Option.some.injEq] at e1
    subst e1
    simp only [Option.some.injEq] at hinp
    constructor
    · intro d hd he hp hexe
      obtain ⟨d', hd', he', hp'⟩ : ∃ d', d' ∈ inp.outputDirs ∧ w.pathExists d' = true ∧ pathOf d' <+: p := by
        have htm : target ∈ inp.outputDirs := by rw [← hinp]; simp
        rcases hd with hd | rfl
        · by_cases hb : PathC.startsWith (pathOf d) (pathOf target) = true
          · refine ⟨target, htm, hte, ?_⟩
            have : pathOf target <+: pathOf d := by
              simpa [PathC.startsWith] using hb
            exact this.trans hp
          · refine ⟨d, ?_, he, hp⟩
            rw [← hinp]
            simp only [List.mem_append, List.mem_filter]
            refine Or.inl ⟨?_, by simp [hb]⟩
            rcases hd with hd | ⟨s, hs, hd⟩
            · exact Or.inl (outDirs_complete hi hd)
            · rw [hs]
              exact Or.inr (by simp [hd])
        · exact ⟨d, htm, he, hp⟩
      unfold view rustcTailO
      rw [show ∀ a b c d e f g h : List Op, a ++ (b ++ (c ++ d ++ e ++ f ++ g)) ++ h =
        (a ++ (b ++ c)) ++ (d ++ (e ++ (f ++ (g ++ h)))) by intros; simp, List.foldl_append]
      have hpass : ∀ (l : List Str), ∀ o ∈ l.flatMap (passEnvO w), ∃ v x, o = (str! "--setenv", [v, x]) := by
        intro l o ho
        obtain ⟨v, -, hv⟩ := List.mem_flatMap.mp ho
        obtain ⟨x, -, e⟩ := mem_passEnvO.mp hv
        exact ⟨v, x, e⟩
      have hwr : ∀ o ∈ inp.outputDirs.flatMap writableBindO, ∃ x, o = (str! "--bind-try", [x, x]) := by
        intro o ho
        obtain ⟨x, -, hx⟩ := List.mem_flatMap.mp ho
        exact ⟨x, mem_writableBindO.mp hx⟩
      apply view_stays
      · refine mount_append ?_ (mount_append ?_ (mount_append ?_ (mount_append ?_ mount_tail)))
        · intro o ho
          obtain ⟨x, e⟩ := hwr o ho
          exact .rw x e
        · intro o ho
          obtain ⟨v, x, e⟩ := hpass _ o ho
          exact .no (by subst e; unfold NoMount; simp)
        · intro o ho
          obtain ⟨v, x, e⟩ := hpass _ o ho
          exact .no (by subst e; unfold NoMount; simp)
        · intro o ho
          exact .ro exe (mem_roBindO.mp ho).2
      · intro o ho d2 hd2
        rcases List.mem_append.mp ho with ho | ho
        · obtain ⟨x, e⟩ := hwr o ho
          subst e; simp at hd2
        · rcases List.mem_append.mp ho with ho | ho
          · obtain ⟨v, x, e⟩ := hpass _ o ho
            subst e; simp at hd2
          · rcases List.mem_append.mp ho with ho | ho
            · obtain ⟨v, x, e⟩ := hpass _ o ho
              subst e; simp at hd2
            · rcases List.mem_append.mp ho with ho | ho
              · have e := (mem_roBindO.mp ho).2
                subst e
                have : d2 = exe := by
                  rcases hd2 with h | h | h | h
                  · simp at h
                  · simp at h
                  · simp at h
                  · simp only [Prod.mk.injEq, List.cons.injEq, and_true, true_and, and_self] at h
                    exact h.symm
                rw [this]; exact hexe
              · exact tail_hides hdev hproc o ho d2 hd2
      · exact Or.inr ⟨d', he', hp', List.mem_append_left _ (List.mem_flatMap.mpr ⟨d', hd', by simp [writableBindO]⟩)⟩
    · intro d hd he hp
      have hdi : d ∈ inp.inputDirs := by
        rw [← hinp]
        rw [e3, Option.some.injEq] at hd
        simp [hd]
      unfold view
      rw [show ∀ a b c d : List Op, a ++ (b ++ c) ++ d = (a ++ b) ++ (c ++ d) by intros; simp, List.foldl_append]
      apply view_visible
      · exact mount_append mount_rustcTail mount_tail
      · intro o ho d' hd'
        rcases List.mem_append.mp ho with ho | ho
        · exfalso
          rcases mem_rustcTailO ho with ⟨d, -, -, e⟩ | ⟨d, -, e⟩ | ⟨u, y, -, e, -⟩ <;> subst e <;> simp at hd'
        · exact tail_hides hdev hproc o ho d' (by rcases hd' with h | h | h <;> simp [h])
      · refine Or.inr ⟨d, hp, List.mem_append_left _ ?_⟩
        unfold rustcTailO
        simp only [List.append_assoc]
        apply List.mem_append_left
        exact List.mem_flatMap.mpr ⟨d, hdi, by simp [roBindO, he]⟩
  · simp at hinp

/-- **C69, refusal.** If a directory configured as writable cannot be used, no sandboxed program is started
at all. -/
theorem C69_unusable_refused (w : World) (cfg : Sandbox) (hk : cfg.kind = some .bubblewrap) (d : Str)
    (hd : (d ∈ cfg.bindWritable ∧ ¬ (w.pathExists d = true ∧ w.isDir d = true)) ∨
      (d ∈ cfg.makeWritable ∧ w.mkdir d = false)) (bin exe : Str) (inp : RustcInputs) :
    forPermSel w cfg bin = none ∧ forRustc w cfg inp exe = none := by
  have : fromConfig w cfg = none := by
    unfold fromConfig
    rw [hk]
    simp only
    split
    · rw [if_neg]
      intro h
      simp only [Bool.and_eq_true, List.all_eq_true] at h
      rcases hd with ⟨h1, h2⟩ | ⟨h1, h2⟩
      · exact h2 (h.1 d h1)
      · rw [h.2 d h1] at h2
        cases h2
    · rfl
  simp [forPermSel, forRustc, this]

/-! ## Non-vacuity -/

private def w1 : World :=
  { env := [(str! "HOME", str! "/h"), (str! "CARGO_MANIFEST_DIR", str! "/h/p"), (str! "OUT_DIR", str! "/t/out"),
      (str! "CACKLE_TARGET_DIR", str! "/t"), (str! "CACKLE_BUILD_PROFILE", str! "debug"),
      (str! "CACKLE_MANIFEST_DIR", str! "/h/p")]
    pathExists := fun _ => true, isDir := fun _ => true, mkdir := fun d => d ≠ str! "/forbidden" }
private def c1 : Sandbox := { kind := some .bubblewrap }
private def items1 : List Rustc.Item :=
  [.plain (str! "src/lib.rs"), .codegen (str! "incremental=/i"), .valued (str! "--out-dir") (str! "/t/deps")]

example : (∃ args, forPermSel w1 c1 (str! "/t/debug/deps/bs") = some (some args)) ∧
    BuildDir (str! "/t/debug/deps/bs") (str! "/t/debug") ∧
    (∃ inp args, rustcInputs w1 (Rustc.render items1) (fun _ _ => []) = some inp ∧
      forRustc w1 c1 inp (str! "/bin/cackle") = some (some args)) ∧
    (∀ i ∈ items1, PlainOutDir i) ∧ ToldToWrite items1 (str! "/i") ∧ ToldToWrite items1 (str! "/t/deps") := by
  have hc : ∃ a, fromConfig w1 c1 = some (some a) := by
    unfold fromConfig
    have h1 : w1.env.get? (str! "HOME") = some (str! "/h") := by decide +kernel
    have h2 : w1.env.get? (str! "CARGO_MANIFEST_DIR") = some (str! "/h/p") := by decide +kernel
    rw [h1, h2]
    exact ⟨_, rfl⟩
  obtain ⟨a, ha⟩ := hc
  refine ⟨?_, .deps (str! "/t/debug") (str! "bs") (by decide) (by decide), ?_, ?_, ?_, ?_⟩
  · unfold forPermSel
    rw [ha]
    exact ⟨_, rfl⟩
  · have h1 : w1.env.get? (str! "CACKLE_TARGET_DIR") = some (str! "/t") := by decide +kernel
    have h2 : w1.env.get? (str! "CACKLE_BUILD_PROFILE") = some (str! "debug") := by decide +kernel
    have h3 : w1.env.get? (str! "CACKLE_MANIFEST_DIR") = some (str! "/h/p") := by decide +kernel
    unfold rustcInputs forRustc
    rw [h1, h2, h3, ha]
    exact ⟨_, _, rfl, rfl⟩
  · intro i hi
    simp only [items1, List.mem_cons, List.not_mem_nil, or_false] at hi
    rcases hi with rfl | rfl | rfl <;> simp [PlainOutDir]
  · exact Or.inr (by simp [items1])
  · exact Or.inl (by simp [items1])
example : forPermSel w1 { c1 with makeWritable := [str! "/forbidden"] } (str! "/b/x") = none :=
  (C69_unusable_refused w1 { c1 with makeWritable := [str! "/forbidden"] } rfl (str! "/forbidden")
    (Or.inr ⟨by simp, by decide⟩) (str! "/b/x") [] ⟨[], [], []⟩).1

end Cackle.Sandboxing
