import Verif.Props.Handlers

/-!
# C65: a request is answered with `Continue` only after a clean check
-/

namespace Cackle.Checker
open Cackle Config Perm

/-- Something that happened to the request with the given number. -/
inductive HEv where
  /-- The checker examined it and found these problems. -/
  | checked (i : Nat) (ps : List Problem)
  /-- Its problems were resolved and the configuration was loaded again. -/
  | resolved (i : Nat)
deriving DecidableEq

/-- The request an event is about. -/
def HEv.req : HEv → Nat
  | checked i _ => i
  | resolved i => i

/-- The problems found by one call of `handle_request`; nothing if it fails. -/
def found (P : Parts) (c : State) (i : Nat) (h : Handler) : List HEv :=
  match (handleRequest P c h.req h.cache).2 with
  | some (_, ps) => [.checked i ps]
  | none => []

/-- All executions with what happened to each request (latest first). The steps are those of `SysRun`. -/
inductive HRun (P : Parts) (idx : Index) : Sys → List HEv → Prop where
  | init : HRun P idx { checker := { idx := idx } } []
  | load {s : Sys} {tr : List HEv} (cfg : Raw) : HRun P idx s tr →
      HRun P idx { s with checker := updateConfig s.checker cfg } tr
  | start {s : Sys} {tr : List HEv} (req : Request) : HRun P idx s tr →
      HRun P idx { s with handlers := s.handlers ++ [{ req := req }] } tr
  | check {s : Sys} {tr : List HEv} (i : Nat) (h : Handler) (hh : s.handlers[i]? = some h)
      (hr : h.status = .running) : HRun P idx s tr →
      HRun P idx { checker := (h.check P s.checker).1
                   handlers := s.handlers.set i (h.check P s.checker).2 }
        (found P s.checker i h ++ tr)
  | resume {s : Sys} {tr : List HEv} (i : Nat) (h : Handler) (retry : Bool)
      (hh : s.handlers[i]? = some h) (hr : h.status = .waiting retry) (cfg : Option Raw) :
      HRun P idx s tr →
      HRun P idx { checker := (h.resume s.checker retry cfg).1
                   handlers := s.handlers.set i (h.resume s.checker retry cfg).2 }
        (.resolved i :: tr)
  | giveUp {s : Sys} {tr : List HEv} (i : Nat) (h : Handler) (retry : Bool)
      (hh : s.handlers[i]? = some h) (hr : h.status = .waiting retry) : HRun P idx s tr →
      HRun P idx { s with handlers := s.handlers.set i { h with status := .finished .giveUp } } tr

/-- After problems of these kinds the subprocess repeats what it did: it runs rustc or the build script
again, which is then checked again. -/
def RepeatedBySubprocess : Problem → Prop
  | .executionFailed .. | .disallowedUnsafe .. | .disallowedExtern .. => True
  | _ => False

/-- What happened to one request (latest first). -/
def history (tr : List HEv) (i : Nat) : List HEv := tr.filter (fun e => e.req = i)

/-- What is known about a request with a given status. -/
def StatusOk (tr : List HEv) (i : Nat) : Status → Prop
  | .running => (∀ ps, (history tr i).head? ≠ some (.checked i ps)) ∧
      ∀ ps rest, history tr i = .resolved i :: .checked i ps :: rest → ∃ p ∈ ps, ¬ RepeatedBySubprocess p
  | .waiting r => ∃ ps rest, history tr i = .checked i ps :: rest ∧ ps ≠ [] ∧
      (r = true ↔ ∀ p ∈ ps, RepeatedBySubprocess p)
  | .finished .continue_ => (∃ rest, history tr i = .checked i [] :: rest) ∨
      ∃ ps rest, history tr i = .resolved i :: .checked i ps :: rest ∧ ps ≠ [] ∧
        ∀ p ∈ ps, RepeatedBySubprocess p
  | .finished .giveUp => ∃ ps rest, history tr i = .checked i ps :: rest
  | .failed => True

theorem history_other {tr : List HEv} {e : HEv} {i : Nat} (h : e.req ≠ i) :
    history (e :: tr) i = history tr i := by simp [history, h]
theorem history_same {tr : List HEv} {e : HEv} {i : Nat} (h : e.req = i) :
    history (e :: tr) i = e :: history tr i := by simp [history, h]

theorem StatusOk.congr {tr tr' : List HEv} {i : Nat} (h : history tr' i = history tr i) {st : Status}
    (hs : StatusOk tr i st) : StatusOk tr' i st := by
  cases st with
  | running => simpa [StatusOk, h] using hs
  | waiting r => simpa [StatusOk, h] using hs
  | failed => trivial
  | finished o => cases o with
    | continue_ => simpa [StatusOk, h] using hs
    | giveUp => simpa [StatusOk, h] using hs

theorem hrun_inv {P : Parts} {idx : Index} {s : Sys} {tr : List HEv} (h : HRun P idx s tr) :
    (∀ i h, s.handlers[i]? = some h → StatusOk tr i h.status) ∧
    ∀ e ∈ tr, e.req < s.handlers.length := by
  induction h with
  | init => simp
  | load cfg h ih => exact ih
  | @start s tr req h ih =>
    refine ⟨?_, fun e he => ?_⟩
    · intro i h hi
      simp only [List.getElem?_append] at hi
      split at hi
      · exact ih.1 i h hi
      · rename_i hlt
        cases hk : i - s.handlers.length with
        | zero =>
          rw [hk] at hi
          simp only [List.getElem?_cons_zero, Option.some.injEq] at hi
          subst hi
          have : history tr i = [] := by
            simp only [history, List.filter_eq_nil_iff, decide_eq_true_eq]
            intro e he hei
            have := ih.2 e he
            omega
          simp [StatusOk, this]
        | succ k => rw [hk] at hi; simp at hi
    · have := ih.2 e he
      simp; omega
  | @check s tr i h hh hr hrun ih =>
    have hlt : i < s.handlers.length := (List.getElem?_eq_some_iff.mp hh).1
    have hf : ∀ e ∈ found P s.checker i h, e.req = i := by
      intro e he
      unfold found at he
      split at he
      · simp only [List.mem_singleton] at he
        subst he; rfl
      · simp at he
    refine ⟨?_, ?_⟩
    · intro j h' hj
      rw [List.getElem?_set] at hj
      split at hj
      · rename_i hij
        subst hij
        simp only [hlt, if_true, Option.some.injEq] at hj
        subst hj
        unfold Handler.check found
        cases hreq : handleRequest P s.checker h.req h.cache with
        | mk c' r =>
          cases r with
          | none => trivial
          | some r =>
            obtain ⟨cache, ps⟩ := r
            have hist : history ([.checked i ps] ++ tr) i = .checked i ps :: history tr i :=
              history_same rfl
            simp only
            by_cases hps : ps = []
            · subst hps
              simp only [if_true]
              exact .inl ⟨_, hist⟩
            · simp only [hps, if_false]
              refine ⟨ps, _, hist, hps, List.all_eq_true.trans ?_⟩
              have e : ∀ p : Problem, p.shouldSendRetry = true ↔ RepeatedBySubprocess p := by
                intro p
                cases p <;> simp [Problem.shouldSendRetry, RepeatedBySubprocess]
              exact ⟨fun h p hp => (e p).mp (h p hp), fun h p hp => (e p).mpr (h p hp)⟩
      · rename_i hij
        refine (ih.1 j h' hj).congr ?_
        have : ∀ l : List HEv, (∀ e ∈ l, e.req = i) → history (l ++ tr) j = history tr j := by
          intro l hl
          unfold history
          rw [List.filter_append, List.filter_eq_nil_iff.mpr, List.nil_append]
          intro e he
          simp [hl e he, hij]
        exact this _ hf
    · intro e he
      simp only [List.length_set]
      rcases List.mem_append.mp he with he | he
      · rw [hf e he]; exact hlt
      · exact ih.2 e he
  | @resume s tr i h retry hh hr cfg hrun ih =>
    have hlt : i < s.handlers.length := (List.getElem?_eq_some_iff.mp hh).1
    have hok := ih.1 i h hh
    rw [hr] at hok
    refine ⟨?_, ?_⟩
    · intro j h' hj
      rw [List.getElem?_set] at hj
      split at hj
      · rename_i hij
        subst hij
        simp only [hlt, if_true, Option.some.injEq] at hj
        subst hj
        unfold Handler.resume
        cases cfg with
        | none => trivial
        | some cfg =>
          have hist : history (.resolved i :: tr) i = .resolved i :: history tr i := history_same rfl
          obtain ⟨ps, rest, h1, h2, h3⟩ := hok
          cases retry with
          | false =>
            refine ⟨by simp [hist], fun ps' rest' he => ?_⟩
            rw [hist, h1] at he
            simp only [List.cons.injEq, HEv.checked.injEq, true_and] at he
            obtain ⟨rfl, _⟩ := he
            exact Classical.byContradiction fun hn => by
              have := h3.mpr (fun p hp => Classical.byContradiction fun hp' => hn ⟨p, hp, hp'⟩)
              cases this
          | true =>
            simp only [if_true]
            exact .inr ⟨ps, rest, by rw [hist, h1], h2, h3.mp rfl⟩
      · rename_i hij
        exact (ih.1 j h' hj).congr (history_other (by simpa [HEv.req] using hij))
    · intro e he
      simp only [List.length_set]
      rcases List.mem_cons.mp he with rfl | he
      · exact hlt
      · exact ih.2 e he
  | @giveUp s tr i h retry hh hr hrun ih =>
    have hlt : i < s.handlers.length := (List.getElem?_eq_some_iff.mp hh).1
    have hok := ih.1 i h hh
    rw [hr] at hok
    refine ⟨?_, by simpa using ih.2⟩
    intro j h' hj
    rw [List.getElem?_set] at hj
    split at hj
    · rename_i hij
      subst hij
      simp only [hlt, if_true, Option.some.injEq] at hj
      subst hj
      obtain ⟨ps, rest, h1, _⟩ := hok
      exact ⟨ps, rest, h1⟩
    · exact ih.1 j h' hj

/-- **C65.** Whatever happens in whatever order, a request that was answered with `Continue` was last
examined without any problem being found; or, after that examination, its problems were resolved and all
of them are of the kinds after which the subprocess repeats its work (and so is checked again). -/
theorem C65_continue_means_checked (P : Parts) (idx : Index) (s : Sys) (tr : List HEv)
    (h : HRun P idx s tr) (i : Nat) (hd : Handler) (hi : s.handlers[i]? = some hd)
    (hc : hd.status = .finished .continue_) :
    (∃ rest, history tr i = .checked i [] :: rest) ∨
    ∃ ps rest, history tr i = .resolved i :: .checked i ps :: rest ∧ ps ≠ [] ∧
      ∀ p ∈ ps, RepeatedBySubprocess p := by
  have := (hrun_inv h).1 i hd hi
  rw [hc] at this
  exact this

/-- **C65 (the subprocess repeats its work).** If all problems of a request are of these kinds and have been resolved, then the
request is answered with `Continue` at once, so that the subprocess tries again; unless the configuration cannot be loaded. -/
theorem C65_repeats (P : Parts) (idx : Index) (s : Sys) (tr : List HEv) (h : HRun P idx s tr) (i : Nat) (hd : Handler)
    (hi : s.handlers[i]? = some hd) (ps : List Problem) (rest : List HEv)
    (hh : history tr i = .resolved i :: .checked i ps :: rest) (hps : ∀ p ∈ ps, RepeatedBySubprocess p) :
    hd.status = .finished .continue_ ∨ hd.status = .failed := by
  have := (hrun_inv h).1 i hd hi
  cases hst : hd.status with
  | running =>
    rw [hst] at this
    obtain ⟨p, hp, hn⟩ := this.2 ps rest hh
    exact absurd (hps p hp) hn
  | waiting r =>
    rw [hst] at this
    obtain ⟨ps', rest', h1, _⟩ := this
    rw [hh] at h1
    cases h1
  | failed => exact .inr rfl
  | finished o =>
    cases o with
    | continue_ => exact .inl rfl
    | giveUp =>
      rw [hst] at this
      obtain ⟨ps', rest', h1⟩ := this
      rw [hh] at h1
      cases h1

/-! Non-vacuity: a build script fails; its problem is resolved, and it is run again. -/
example : ∃ s tr hd ps, HRun C08Ex.P C08Ex.idx s tr ∧ s.handlers[0]? = some hd ∧
    history tr 0 = [.resolved 0, .checked 0 ps] ∧ (∀ p ∈ ps, RepeatedBySubprocess p) ∧ hd.status = .finished .continue_ := by
  have r : HRun C08Ex.P C08Ex.idx _ _ := .init
  have r := HRun.start (.binExecutionComplete C08Ex.crate 1 []) r
  have r := HRun.check 0 _ rfl rfl r
  have r := HRun.resume 0 _ true rfl rfl (some C08Ex.cfg) r
  exact ⟨_, _, _, [.executionFailed C08Ex.crate []], r, rfl, by decide +kernel, by simp [RepeatedBySubprocess], rfl⟩

/-! Non-vacuity: the binary of package `a` uses `fs`; the user allows it, and the second check is clean. -/
example : ∃ s tr hd, HRun C08Ex.P C08Ex.idx s tr ∧ s.handlers[1]? = some hd ∧
    hd.status = .finished .continue_ ∧ (history tr 1).length = 3 := by
  have r : HRun C08Ex.P C08Ex.idx _ _ := .init
  have r := HRun.start (.linkerInvoked C08Ex.x) r
  have r := HRun.check 0 _ rfl rfl r
  have r := HRun.start (.rustcComplete C08Ex.crate []) r
  have r := HRun.check 1 _ rfl rfl r
  have r := HRun.resume 1 _ false rfl rfl (some C08Ex.cfg) r
  have r := HRun.check 1 _ rfl rfl r
  exact ⟨_, _, _, r, rfl, by decide +kernel, by decide +kernel⟩

end Cackle.Checker
