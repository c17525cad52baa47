import Verif.Model.BinProxy
import Verif.Props.Sandbox

/-!
# C37, C63: running wrapped binaries
-/

namespace Cackle.BinProxy
open Cackle Config Perm Sandboxing

/-! ## Specification -/

/-- The program and its arguments that an event runs, directly or inside `bwrap`. -/
def Event.runs (bin : Str) : Event → Option (Str × List Str)
  | .ran args => some (bin, args)
  | .ranSandboxed bw =>
    match parse bw with
    | some (_, prog :: args) => some (prog, args)
    | _ => none
  | _ => none

/-- Output is only passed on to cargo after the main process saw it. -/
def CheckedFirst (evs : List Event) : Prop :=
  ∀ pre out post, evs = pre ++ .printed out :: post → ∃ c, Event.reported c out ∈ pre

/-- The configuration that an attempt sees has well-formed extra sandbox arguments. -/
def ExtraOk (crate : CrateSel) (a : Attempt) : Prop :=
  ∀ perms, a.config = some perms → ∃ extra : List Op, (∀ o ∈ extra, OkOp o) ∧
    (sandboxFor perms (forNonBuildOutput crate)).extraArgs = extra.flatMap enc

/-- The attempt runs in a sandbox, if its configuration can be read. -/
def Sandboxed (crate : CrateSel) (a : Attempt) : Prop :=
  ∀ perms, a.config = some perms → (sandboxFor perms (forNonBuildOutput crate)).kind = some .bubblewrap

/-- The English claim C37: the binary is always run with the arguments it was given, and a build script's
output is checked before cargo gets it. -/
def C37_Claim : Prop :=
  ∀ (bin : Str) (crate : CrateSel) (args : List Str) (as : List Attempt),
    (∀ a ∈ as, ExtraOk crate a) →
    (∀ e ∈ (proxyBinary bin crate args as).1, ∀ r, e.runs bin = some r → r = (bin, args)) ∧
    (crate.kind = .buildScript → CheckedFirst (proxyBinary bin crate args as).1)

private def demoAttempt : Attempt :=
  { config := some []
    world := { env := [], pathExists := fun _ => true, isDir := fun _ => true, mkdir := fun _ => true }
    output := some ⟨some 0, str! "cargo:rustc-link-lib=evil\n"⟩
    answer := none }

private theorem demo_extra (crate : CrateSel) : ∀ a ∈ [demoAttempt], ExtraOk crate a := by
  intro a ha perms hp
  rw [List.mem_singleton.mp ha] at hp
  simp only [demoAttempt, Option.some.injEq] at hp
  subst hp
  exact ⟨[], by simp, rfl⟩

/-- **C37, disagreement (arguments).** Without a sandbox every argument is passed twice. -/
theorem C37_arguments_doubled : ¬ C37_Claim := by
  intro h
  have := (h (str! "/t") ⟨⟨str! "a", str! "1", true⟩, .test⟩ [str! "--exact"] [demoAttempt] (demo_extra _)).1
    (.ran [str! "--exact", str! "--exact"]) (by decide +kernel) _ rfl
  revert this
  decide

/-- **C37, disagreement (checking).** Without a sandbox the instructions of a build script go to cargo
without being checked. -/
theorem C37_not_checked : ¬ C37_Claim := by
  intro h
  obtain ⟨c, hc⟩ := (h (str! "/t") ⟨⟨str! "a", str! "1", true⟩, .buildScript⟩ [] [demoAttempt] (demo_extra _)).2 rfl
    [.ran []] (str! "cargo:rustc-link-lib=evil\n") [] (by decide +kernel)
  simp at hc

/-! ## Lemmas -/

theorem checkedFirst_run {e : Event} (he : ∀ out, e ≠ .printed out) {evs : List Event} (h : CheckedFirst evs) :
    CheckedFirst (e :: evs) := by
  intro pre out post hp
  cases pre with
  | nil =>
    simp only [List.nil_append, List.cons.injEq] at hp
    exact absurd hp.1 (he out)
  | cons x pre =>
    simp only [List.cons_append, List.cons.injEq] at hp
    obtain ⟨c, hc⟩ := h pre out post hp.2
    exact ⟨c, List.mem_cons_of_mem _ hc⟩

theorem checkedFirst_nil : CheckedFirst [] := by
  intro pre out post hp
  simp at hp

theorem forPermSel_none {w : World} {cfg : Sandbox} {bin : Str} (h : forPermSel w cfg bin = some none) :
    cfg.kind ≠ some .bubblewrap := by
  intro hk
  unfold forPermSel Sandboxing.fromConfig at h
  rw [hk] at h
  simp only at h
  split at h
  · split at h
    · simp at h
    · simp at h
  · simp at h

theorem forPermSel_unsandboxed {w : World} {cfg : Sandbox} {bin : Str} (hk : cfg.kind ≠ some .bubblewrap) :
    forPermSel w cfg bin = some none := by
  unfold forPermSel Sandboxing.fromConfig
  split <;> simp_all

/-! ## C37 -/

/-- **C37 (sandboxed runs).** If every attempt is sandboxed, the binary is always run with exactly the
arguments it was given and nothing it prints reaches cargo before the main process saw it. Missing: runs
without a sandbox, for which both parts are false. -/
theorem C37_sandboxed_partial (bin : Str) (crate : CrateSel) (args : List Str) (as : List Attempt)
    (hx : ∀ a ∈ as, ExtraOk crate a) (hs : ∀ a ∈ as, Sandboxed crate a) :
    (∀ e ∈ (proxyBinary bin crate args as).1, ∀ r, e.runs bin = some r → r = (bin, args)) ∧
    CheckedFirst (proxyBinary bin crate args as).1 := by
  induction as with
  | nil =>
    exact ⟨by simp [proxyBinary], checkedFirst_nil⟩
  | cons a rest ih =>
    have ih := ih (fun a ha => hx a (by simp [ha])) (fun a ha => hs a (by simp [ha]))
    have hx := hx a (by simp)
    have hs := hs a (by simp)
    unfold proxyBinary
    cases hc : a.config with
    | none => exact ⟨by simp, checkedFirst_nil⟩
    | some perms =>
      simp only
      obtain ⟨extra, hok, he⟩ := hx perms hc
      have hk := hs perms hc
      cases hf : forPermSel a.world (sandboxFor perms (forNonBuildOutput crate)) bin with
      | none => exact ⟨by simp, checkedFirst_nil⟩
      | some o =>
        cases o with
        | none => exact absurd hk (forPermSel_none hf)
        | some sandbox =>
          simp only
          obtain ⟨home, manifest, -, -, hp⟩ := permSel_ops hok he hf
          have hrun : ∀ r, (Event.ranSandboxed (command sandbox [] bin args)).runs bin = some r →
              r = (bin, args) := by
            intro r hr
            unfold Event.runs at hr
            simp only [hp [] bin args, Option.some.injEq] at hr
            exact hr.symm
          have c1 : CheckedFirst [.ranSandboxed (command sandbox [] bin args)] :=
            checkedFirst_run (by simp) checkedFirst_nil
          cases ho : a.output with
          | none =>
            refine ⟨?_, c1⟩
            intro e he r hr
            simp only [List.mem_singleton] at he
            subst he
            exact hrun r hr
          | some o =>
            simp only
            have two : ∀ e ∈ [Event.ranSandboxed (command sandbox [] bin args),
                .reported (o.code.getD (-1)) o.stdout], ∀ r, e.runs bin = some r → r = (bin, args) := by
              intro e he r hr
              simp only [List.mem_cons, List.not_mem_nil, or_false] at he
              rcases he with rfl | rfl
              · exact hrun r hr
              · simp [Event.runs] at hr
            have c2 : CheckedFirst [Event.ranSandboxed (command sandbox [] bin args),
                .reported (o.code.getD (-1)) o.stdout] :=
              checkedFirst_run (by simp) (checkedFirst_run (by simp) checkedFirst_nil)
            cases ha : a.answer with
            | none => exact ⟨two, c2⟩
            | some ans =>
              cases ans with
              | giveUp => exact ⟨two, c2⟩
              | «continue» =>
                simp only
                split
                · constructor
                  · intro e he r hr
                    rcases List.mem_append.mp he with he | he
                    · exact two e he r hr
                    · rw [List.mem_singleton] at he
                      subst he
                      simp [Event.runs] at hr
                  · intro pre out post hp
                    match pre with
                    | [] => simp at hp
                    | [x] => simp at hp
                    | [x, y] =>
                      simp only [List.cons_append, List.nil_append, List.cons.injEq,
                        Event.printed.injEq] at hp
                      obtain ⟨-, rfl, rfl, -⟩ := hp
                      exact ⟨o.code.getD (-1), by simp⟩
                    | x :: y :: z :: pre =>
                      exfalso
                      have := congrArg List.length hp
                      simp at this
                · constructor
                  · intro e he r hr
                    rcases List.mem_append.mp he with he | he
                    · exact two e he r hr
                    · exact ih.1 e he r hr
                  · exact checkedFirst_run (by simp) (checkedFirst_run (by simp) ih.2)

/-- **C37 (no arguments).** Build scripts are run by cargo without arguments, so for them the doubled argument
list does no harm: whatever the configurations, a binary that was given no arguments is run without arguments,
and the wrapper ends with the exit code of a run without a sandbox. Missing: other arguments and checking. -/
theorem C37_no_args_partial (bin : Str) (crate : CrateSel) (as : List Attempt)
    (hx : ∀ a ∈ as, ExtraOk crate a) :
    (∀ e ∈ (proxyBinary bin crate [] as).1, ∀ r, e.runs bin = some r → r = (bin, [])) ∧
    (∀ a rest perms o, as = a :: rest → a.config = some perms → a.output = some o →
      (sandboxFor perms (forNonBuildOutput crate)).kind ≠ some .bubblewrap →
      (proxyBinary bin crate [] as) = ([.ran [], .printed o.stdout], .exit (o.code.getD (-1)))) := by
  constructor
  · induction as with
    | nil => simp [proxyBinary]
    | cons a rest ih =>
      have ih := ih (fun a ha => hx a (by simp [ha]))
      have hx := hx a (by simp)
      unfold proxyBinary
      cases hc : a.config with
      | none => simp
      | some perms =>
        simp only
        obtain ⟨extra, hok, he⟩ := hx perms hc
        cases hf : forPermSel a.world (sandboxFor perms (forNonBuildOutput crate)) bin with
        | none => simp
        | some o =>
          cases o with
          | none =>
            cases ho : a.output with
            | none => simp [Event.runs]
            | some o => simp [Event.runs]
          | some sandbox =>
            simp only
            obtain ⟨home, manifest, -, -, hp⟩ := permSel_ops hok he hf
            have hrun : ∀ r, (Event.ranSandboxed (command sandbox [] bin [])).runs bin = some r →
                r = (bin, []) := by
              intro r hr
              unfold Event.runs at hr
              simp only [hp [] bin [], Option.some.injEq] at hr
              exact hr.symm
            have hrep : ∀ c o r, (Event.reported c o).runs bin = some r → r = (bin, []) := by
              simp [Event.runs]
            have hpr : ∀ o r, (Event.printed o).runs bin = some r → r = (bin, []) := by
              simp [Event.runs]
            cases ho : a.output with
            | none => simpa using fun a b => hrun (a, b)
            | some o =>
              cases ha : a.answer with
              | none => 
                intro e he r hr
                simp only [List.mem_cons, List.not_mem_nil, or_false] at he
                rcases he with rfl | rfl
                · exact hrun r hr
                · exact hrep _ _ r hr
              | some ans =>
                cases ans with
                | giveUp =>
                  intro e he r hr
                  simp only [List.mem_cons, List.not_mem_nil, or_false] at he
                  rcases he with rfl | rfl
                  · exact hrun r hr
                  · exact hrep _ _ r hr
                | «continue» =>
                  simp only
                  split
                  · intro e he r hr
                    simp only [List.mem_append, List.mem_cons, List.not_mem_nil, or_false] at he
                    rcases he with (rfl | rfl) | rfl
                    · exact hrun r hr
                    · exact hrep _ _ r hr
                    · exact hpr _ r hr
                  · intro e he r hr
                    simp only [List.mem_append, List.mem_cons, List.not_mem_nil, or_false] at he
                    rcases he with (rfl | rfl) | he
                    · exact hrun r hr
                    · exact hrep _ _ r hr
                    · exact ih e he r hr
  · intro a rest perms o has hc ho hk
    subst has
    unfold proxyBinary
    simp only [hc, ho, forPermSel_unsandboxed hk, List.append_nil]

/-! ## C63 -/

/-- **C63.** If every attempt is sandboxed, the wrapper reports success only when the program itself
exited successfully, the main process was told so and answered that the build may continue; and then the
output of that run is what cargo gets. -/
theorem C63_success (bin : Str) (crate : CrateSel) (args : List Str) (as : List Attempt)
    (hs : ∀ a ∈ as, Sandboxed crate a) (h : (proxyBinary bin crate args as).2 = .exit 0) :
    ∃ a ∈ as, ∃ o, a.output = some o ∧ o.code = some 0 ∧ a.answer = some .continue ∧
      ∃ pre bw, (proxyBinary bin crate args as).1 =
        pre ++ [.ranSandboxed bw, .reported 0 o.stdout, .printed o.stdout] ∧
        ∀ e ∈ pre, ∀ out, e ≠ .printed out := by
  induction as with
  | nil => simp [proxyBinary] at h
  | cons a rest ih =>
    have ih := ih (fun a ha => hs a (by simp [ha]))
    have hs := hs a (by simp)
    unfold proxyBinary at h ⊢
    cases hc : a.config with
    | none => simp [hc] at h
    | some perms =>
      simp only [hc] at h ⊢
      have hk := hs perms hc
      cases hf : forPermSel a.world (sandboxFor perms (forNonBuildOutput crate)) bin with
      | none => simp [hf] at h
      | some o =>
        cases o with
        | none => exact absurd hk (forPermSel_none hf)
        | some sandbox =>
          simp only [hf] at h ⊢
          cases ho : a.output with
          | none => simp [ho] at h
          | some o =>
            simp only [ho] at h ⊢
            cases ha : a.answer with
            | none => simp [ha] at h
            | some ans =>
              cases ans with
              | giveUp => simp [ha] at h
              | «continue» =>
                simp only [ha] at h ⊢
                by_cases h0 : o.code = some 0
                · rw [if_pos h0]
                  refine ⟨a, by simp, o, ho, h0, ha, [], command sandbox [] bin args, ?_, by simp⟩
                  simp [h0]
                · rw [if_neg h0] at h ⊢
                  obtain ⟨b, hb, o', h1, h2, h3, pre, bw, h4, h5⟩ := ih h
                  refine ⟨b, by simp [hb], o', h1, h2, h3, Event.ranSandboxed (command sandbox [] bin args) ::
                    .reported (o.code.getD (-1)) o.stdout :: pre, bw, ?_, ?_⟩
                  · simp [h4]
                  · intro e he out
                    simp only [List.mem_cons] at he
                    rcases he with rfl | rfl | he
                    · simp
                    · simp
                    · exact h5 e he out

/-! ## Non-vacuity -/

private def sbCrate : CrateSel := ⟨⟨str! "a", str! "1", true⟩, .buildScript⟩

private def sbAttempt (code : Int) : Attempt :=
  { config := some [(⟨str! "a", .build⟩, .leaf { sandbox := { kind := some .bubblewrap } })]
    world := { env := [(str! "HOME", str! "/h"), (str! "CARGO_MANIFEST_DIR", str! "/h/p")],
               pathExists := fun _ => true, isDir := fun _ => true, mkdir := fun _ => true }
    output := some ⟨some code, str! "x"⟩
    answer := some .continue }

/-- A sandboxed build script fails, the configuration is changed, and it succeeds. -/
example : (proxyBinary (str! "/b") sbCrate [str! "v"] [sbAttempt 1, sbAttempt 0]).2 = .exit 0 ∧
    (∀ a ∈ [sbAttempt 1, sbAttempt 0], Sandboxed sbCrate a ∧ ExtraOk sbCrate a) := by
  refine ⟨by decide +kernel, ?_⟩
  intro a ha
  have : ∃ c, a = sbAttempt c := by
    simp only [List.mem_cons, List.not_mem_nil, or_false] at ha
    rcases ha with rfl | rfl <;> exact ⟨_, rfl⟩
  obtain ⟨c, rfl⟩ := this
  constructor
  · intro perms hp
    simp only [sbAttempt, Option.some.injEq] at hp
    subst hp
    decide +kernel
  · intro perms hp
    simp only [sbAttempt, Option.some.injEq] at hp
    subst hp
    exact ⟨[], by simp, by decide +kernel⟩

end Cackle.BinProxy
