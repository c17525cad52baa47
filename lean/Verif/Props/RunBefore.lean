import Verif.Props.EndToEnd
import Verif.Props.Handlers

/-!
# C144: nothing is run before its permissions are granted

Cargo compiles crates by running cackle's wrapper around rustc, several at a time. Each wrapper reports to the main
process: that something was linked, that rustc is done, and code that is not allowed. It ends successfully only after it
was told to continue (`C23_compiled_partial`); cargo runs a build script only after the wrapper has ended successfully.
-/

namespace Cackle.Checker
open Cackle Config Perm
open Cackle.ApiMap (Api)

/-! ## Specification -/

/-- What a wrapper is doing; the number is that of the request it waits for. -/
inductive Phase where
  | compiling
  | linking (i : Nat)
  | completing (i : Nat)
  | approved
  | asking (i : Nat)
  | exited (ok : Bool)

/-- A wrapper around rustc for a crate. `linked` is what was linked since rustc was last run, with the number of
analyses that there had been then. -/
structure Proc where
  crate : CrateSel
  linked : List (LinkInfo × Nat) := []
  phase : Phase := .compiling

/-- Which wrappers cargo starts, and what a run of rustc may do after it has linked something. -/
structure Rules where
  start : List Proc → CrateSel → Prop
  once : Proc → Prop

/-- A request that is not about linking. -/
def Other : Request → Prop
  | .linkerInvoked _ => False
  | .rustcComplete _ _ => False
  | _ => True

/-- All executions of the main process together with the wrappers. -/
inductive Build (R : Rules) (P : Parts) (idx : Index) :
    Sys → List LinkInfo → List Analysis → List CEv → List Proc → Prop where
  | init : Build R P idx { checker := { idx := idx } } [] [] [] []
  /-- The steps of the main process, as in `SysRun`. -/
  | load {s links log tr procs} (cfg : Raw) (hn : cfg.packages.keys.Nodup) : Build R P idx s links log tr procs →
      Build R P idx { s with checker := updateConfig s.checker cfg } links log (.loaded cfg :: tr) procs
  | check {s links log tr procs} (i : Nat) (h : Handler) (hh : s.handlers[i]? = some h) (hr : h.status = .running) :
      Build R P idx s links log tr procs →
      Build R P idx { checker := (h.check P s.checker).1, handlers := s.handlers.set i (h.check P s.checker).2 }
        (linksOf h.req ++ links) (analysisOf P s.checker tr h ++ log) (usedBy P s.checker tr h ++ tr) procs
  | resume {s links log tr procs} (i : Nat) (h : Handler) (retry : Bool) (hh : s.handlers[i]? = some h)
      (hr : h.status = .waiting retry) (cfg : Raw) (hn : cfg.packages.keys.Nodup) : Build R P idx s links log tr procs →
      Build R P idx { checker := (h.resume s.checker retry (some cfg)).1
                      handlers := s.handlers.set i (h.resume s.checker retry (some cfg)).2 }
        links log (.loaded cfg :: tr) procs
  | resumeBad {s links log tr procs} (i : Nat) (h : Handler) (retry : Bool) (hh : s.handlers[i]? = some h)
      (hr : h.status = .waiting retry) : Build R P idx s links log tr procs →
      Build R P idx { checker := (h.resume s.checker retry none).1
                      handlers := s.handlers.set i (h.resume s.checker retry none).2 } links log tr procs
  | giveUp {s links log tr procs} (i : Nat) (h : Handler) (retry : Bool) (hh : s.handlers[i]? = some h)
      (hr : h.status = .waiting retry) : Build R P idx s links log tr procs →
      Build R P idx { s with handlers := s.handlers.set i { h with status := .finished .giveUp } } links log tr procs
  /-- Any other request. -/
  | other {s links log tr procs} (req : Request) (ho : Other req) : Build R P idx s links log tr procs →
      Build R P idx { s with handlers := s.handlers ++ [{ req := req }] } links log tr procs
  /-- Cargo compiles a crate. -/
  | start {s links log tr procs} (crate : CrateSel) (hr : R.start procs crate) : Build R P idx s links log tr procs →
      Build R P idx s links log tr (procs ++ [{ crate := crate }])
  /-- Something is linked. -/
  | link {s links log tr procs} (j : Nat) (p : Proc) (li : LinkInfo) (hj : procs[j]? = some p) (hp : p.phase = .compiling)
      (hl : li.crate = p.crate) (ho : R.once p) : Build R P idx s links log tr procs →
      Build R P idx { s with handlers := s.handlers ++ [{ req := .linkerInvoked li }] } links log tr
        (procs.set j { p with linked := (li, log.length) :: p.linked, phase := .linking s.handlers.length })
  /-- The answer is not looked at. -/
  | linked {s links log tr procs} (j : Nat) (p : Proc) (i : Nat) (h : Handler) (o : Outcome) (hj : procs[j]? = some p)
      (hp : p.phase = .linking i) (hh : s.handlers[i]? = some h) (hs : h.status = .finished o) :
      Build R P idx s links log tr procs →
      Build R P idx s links log tr (procs.set j { p with phase := .compiling })
  /-- rustc is done. -/
  | complete {s links log tr procs} (j : Nat) (p : Proc) (paths : List PathC) (hj : procs[j]? = some p)
      (hp : p.phase = .compiling) : Build R P idx s links log tr procs →
      Build R P idx { s with handlers := s.handlers ++ [{ req := .rustcComplete p.crate paths }] } links log tr
        (procs.set j { p with phase := .completing s.handlers.length })
  | approved {s links log tr procs} (j : Nat) (p : Proc) (i : Nat) (h : Handler) (hj : procs[j]? = some p)
      (hp : p.phase = .completing i) (hh : s.handlers[i]? = some h) (hs : h.status = .finished .continue_) :
      Build R P idx s links log tr procs →
      Build R P idx s links log tr (procs.set j { p with phase := .approved })
  /-- Code that is not allowed was found, by rustc or afterwards. -/
  | ask {s links log tr procs} (j : Nat) (p : Proc) (req : Request) (hj : procs[j]? = some p)
      (hp : p.phase = .approved ∨ p.phase = .compiling ∧ R.once p) (ho : Other req) : Build R P idx s links log tr procs →
      Build R P idx { s with handlers := s.handlers ++ [{ req := req }] } links log tr
        (procs.set j { p with phase := .asking s.handlers.length })
  /-- rustc is run again. -/
  | again {s links log tr procs} (j : Nat) (p : Proc) (i : Nat) (h : Handler) (hj : procs[j]? = some p)
      (hp : p.phase = .asking i) (hh : s.handlers[i]? = some h) (hs : h.status = .finished .continue_) :
      Build R P idx s links log tr procs →
      Build R P idx s links log tr (procs.set j { p with linked := [], phase := .compiling })
  /-- The wrapper ends with success. -/
  | exit {s links log tr procs} (j : Nat) (p : Proc) (hj : procs[j]? = some p) (hp : p.phase = .approved) :
      Build R P idx s links log tr procs →
      Build R P idx s links log tr (procs.set j { p with phase := .exited true })
  /-- The wrapper fails or is killed. -/
  | fail {s links log tr procs} (j : Nat) (p : Proc) (hj : procs[j]? = some p) (hp : p.phase ≠ .exited true) :
      Build R P idx s links log tr procs →
      Build R P idx s links log tr (procs.set j { p with phase := .exited false })

/-- There was an analysis of the binary after the first `n` ones, and it was passed: it used scan results of that binary,
there were no problems, and what known packages use is granted by a configuration that had been loaded. -/
def PassedSince (P : Parts) (idx : Index) (log : List Analysis) (li : LinkInfo) (n : Nat) : Prop :=
  ∃ later a earlier, log = later ++ a :: earlier ∧ n ≤ earlier.length ∧ a.li = li ∧ a.Genuine P ∧ a.Passed idx

/-- Everything that can be run was analysed, after it was linked, and passed. -/
def NotBefore (R : Rules) : Prop :=
  ∀ (P : Parts) (idx : Index) (s : Sys) (links : List LinkInfo) (log : List Analysis) (tr : List CEv) (procs : List Proc),
    Build R P idx s links log tr procs → ∀ p ∈ procs, p.phase = .exited true → ∀ x ∈ p.linked,
      PassedSince P idx log x.1 x.2

/-- The claim (FAQ.md), without any assumption about cargo and rustc. -/
def C144_Claim : Prop := NotBefore ⟨fun _ _ => True, fun _ => True⟩

/-- Crates that have the same package and kind are compiled one after the other, and each run of rustc links at most one
file. -/
def oneByOne : Rules where
  start procs crate := ∀ p ∈ procs, p.crate = crate → p.phase = .exited true
  once p := p.linked = []

/-! ## Lemmas -/

/-- The crate that a request about linking is about. -/
def concern : Request → Option CrateSel
  | .linkerInvoked li => some li.crate
  | .rustcComplete crate _ => some crate
  | _ => none

theorem concern_other {req : Request} (h : Other req) : concern req = none := by
  cases req <;> first | rfl | cases h

/-- The reported invocations for a crate that have not been analysed. -/
def outK (s : Sys) (K : CrateSel) : List LinkInfo := s.checker.outstanding.filter (fun li => li.crate = K)

theorem takeLink_filter {K : CrateSel} : ∀ {l : List LinkInfo} {li : LinkInfo} {rest : List LinkInfo},
    takeLink K l = some (li, rest) →
    l.filter (fun x => x.crate = K) = li :: rest.filter (fun x => x.crate = K) ∧
    ∀ K', K' ≠ K → rest.filter (fun x => x.crate = K') = l.filter (fun x => x.crate = K')
  | [], li, rest, h => by simp [takeLink] at h
  | x :: xs, li, rest, h => by
    unfold takeLink at h
    split at h
    · rename_i hx
      simp only [Option.some.injEq, Prod.mk.injEq] at h
      obtain ⟨rfl, rfl⟩ := h
      refine ⟨by rw [List.filter_cons_of_pos (by simpa using hx)], fun K' hK => ?_⟩
      rw [List.filter_cons_of_neg (by simpa [hx] using hK.symm)]
    · rename_i hx
      simp only [Option.map_eq_some_iff] at h
      obtain ⟨⟨li', rest'⟩, h1, h2⟩ := h
      simp only [Prod.mk.injEq] at h2
      obtain ⟨rfl, rfl⟩ := h2
      obtain ⟨i1, i2⟩ := takeLink_filter h1
      refine ⟨?_, fun K' hK => ?_⟩
      · rw [List.filter_cons_of_neg (by simpa using hx), List.filter_cons_of_neg (by simpa using hx)]
        exact i1
      · simp only [List.filter_cons]
        rw [i2 K' hK]

theorem apisUsed_no_retry : ∀ {us : List ApiUsages} {c c' : State} {ps : List Problem}, apisUsed c us = some (c', ps) →
    ∀ q ∈ ps, q.shouldSendRetry = false
  | [], c, c', ps, h => by
    simp only [apisUsed, Option.some.injEq, Prod.mk.injEq] at h
    obtain ⟨_, rfl⟩ := h
    intro q hq; cases hq
  | au :: rest, c, c', ps, h => by
    unfold apisUsed at h
    split at h
    · cases h
    · rename_i c1 ps1 h1
      split at h
      · cases h
      · rename_i c2 qs h2
        simp only [Option.some.injEq, Prod.mk.injEq] at h
        obtain ⟨_, rfl⟩ := h
        intro q hq
        rcases List.mem_append.mp hq with hq | hq
        · obtain ⟨us, hf, _⟩ := Graph.apiUsed_sub h1 q hq
          rcases hf with rfl | ⟨_, rfl⟩ <;> rfl
        · exact apisUsed_no_retry h2 q hq

/-- Problems with a linked binary are not of the kind after which the wrapper asks again. -/
theorem checkLink_no_retry {scan : State → LinkInfo → Option ScanOut} {c c' : State} {li : LinkInfo}
    {cache : Option ScanOut} {out : ScanOut} {ps : List Problem} (h : checkLink scan c li cache = some (c', out, ps))
    (hne : ps ≠ []) : shouldSendRetryAll ps = false := by
  have key : ∀ q ∈ ps, q.shouldSendRetry = false := by
    simp only [checkLink, Option.map_eq_some_iff] at h
    obtain ⟨⟨c1, out1, ps1⟩, h, h'⟩ := h
    simp only [Prod.mk.injEq] at h'
    obtain ⟨rfl, rfl, rfl⟩ := h'
    intro q hq
    rcases List.mem_append.mp hq with hq | hq
    · split at hq
      · unfold verifyBuildScript at hq
        split at hq
        · cases hq
        · split at hq
          · cases hq
          · rw [List.mem_singleton.mp hq]; rfl
      · cases hq
    · unfold checkObjects at h
      split at h
      · cases h
      · rename_i o _
        simp only [Option.map_eq_some_iff] at h
        obtain ⟨⟨c2, ps2⟩, hs, h'⟩ := h
        simp only [Prod.mk.injEq] at h'
        obtain ⟨rfl, rfl, rfl⟩ := h'
        unfold scanProblems at hs
        split at hs
        · cases hs
        · rename_i c3 ps3 h3
          simp only [Option.some.injEq, Prod.mk.injEq] at hs
          obtain ⟨rfl, rfl⟩ := hs
          rcases List.mem_append.mp hq with hq | hq
          · exact apisUsed_no_retry h3 q hq
          · obtain ⟨e, _, hq⟩ := List.mem_flatMap.mp hq
            rw [Graph.exportProblem_kind hq]; rfl
  cases ps with
  | nil => exact absurd rfl hne
  | cons q qs =>
    unfold shouldSendRetryAll
    rw [List.all_cons, key q List.mem_cons_self]
    rfl

/-- The steps of the main process are those of `SysRun`. -/
theorem Build.sysRun {R : Rules} {P : Parts} {idx : Index} {s : Sys} {links : List LinkInfo} {log : List Analysis}
    {tr : List CEv} {procs : List Proc} (h : Build R P idx s links log tr procs) : SysRun P idx s links log tr := by
  induction h with
  | init => exact .init
  | load cfg hn _ ih => exact .load cfg hn ih
  | check i h hh hr _ ih => exact .check i h hh hr ih
  | resume i h retry hh hr cfg hn _ ih => exact .resume i h retry hh hr cfg hn ih
  | resumeBad i h retry hh hr _ ih => exact .resumeBad i h retry hh hr ih
  | giveUp i h retry hh hr _ ih => exact .giveUp i h retry hh hr ih
  | other req _ _ ih => exact .start req ih
  | start _ _ _ ih => exact ih
  | link j p li _ _ _ _ _ ih => exact .start _ ih
  | linked _ _ _ _ _ _ _ _ _ _ ih => exact ih
  | complete j p paths _ _ _ ih => exact .start _ ih
  | approved _ _ _ _ _ _ _ _ _ ih => exact ih
  | ask j p req _ _ _ _ ih => exact .start _ ih
  | again _ _ _ _ _ _ _ _ _ ih => exact ih
  | exit _ _ _ _ _ ih => exact ih
  | fail _ _ _ _ _ ih => exact ih

/-! ## Invariant -/

/-- What was linked has passed. -/
def Done (P : Parts) (idx : Index) (log : List Analysis) (p : Proc) : Prop :=
  ∀ x ∈ p.linked, PassedSince P idx log x.1 x.2

/-- Scan results are those of the binary. -/
def Of (P : Parts) (p : Proc) (o : ScanOut) : Prop :=
  ∃ x ∈ p.linked, ∃ c o', P.scan c x.1 = some o' ∧ o = { o' with apis := c.cfg.apis }

def PhaseOk (P : Parts) (idx : Index) (s : Sys) (log : List Analysis) (p : Proc) : Phase → Prop
  | .compiling => outK s p.crate = p.linked.map Prod.fst
  | .linking i => ∃ li n h, p.linked = [(li, n)] ∧ s.handlers[i]? = some h ∧ h.req = .linkerInvoked li ∧
      ((h.status = .running ∧ outK s p.crate = []) ∨ (h.status = .finished .continue_ ∧ outK s p.crate = [li]))
  | .completing i => ∃ h paths, s.handlers[i]? = some h ∧ h.req = .rustcComplete p.crate paths ∧
      (((h.status = .running ∨ h.status = .waiting false) ∧ outK s p.crate = p.linked.map Prod.fst ∧
          ∀ o, h.cache = some o → Of P p o) ∨
        (h.status = .finished .continue_ ∧ outK s p.crate = [] ∧ Done P idx log p) ∨
        h.status = .finished .giveUp ∨ h.status = .failed)
  | .approved => outK s p.crate = [] ∧ Done P idx log p
  | .asking _ => outK s p.crate = []
  | .exited true => Done P idx log p
  | .exited false => True

structure Good (P : Parts) (idx : Index) (s : Sys) (log : List Analysis) (p : Proc) : Prop where
  one : p.linked.length ≤ 1
  mine : ∀ x ∈ p.linked, x.1.crate = p.crate ∧ x.2 ≤ log.length
  phase : PhaseOk P idx s log p p.phase

structure BInv (P : Parts) (idx : Index) (s : Sys) (log : List Analysis) (procs : List Proc) : Prop where
  good : ∀ p ∈ procs, Good P idx s log p
  idle : ∀ K, (∀ p ∈ procs, p.crate = K → p.phase = .exited true) → outK s K = []
  owner : ∀ (i : Nat) (h : Handler) (K : CrateSel), s.handlers[i]? = some h → (h.status = .running ∨ ∃ r, h.status = .waiting r) → concern h.req = some K →
    ∃ p ∈ procs, p.crate = K ∧ (p.phase = .linking i ∨ p.phase = .completing i ∨ p.phase = .exited false)
  unique : ∀ (j j' : Nat) (p p' : Proc), procs[j]? = some p → procs[j']? = some p' → p.crate = p'.crate → p.phase ≠ .exited true →
    p'.phase ≠ .exited true → j = j'

theorem PassedSince.mono {P : Parts} {idx : Index} {log : List Analysis} {li : LinkInfo} {n : Nat}
    (h : PassedSince P idx log li n) (new : List Analysis) : PassedSince P idx (new ++ log) li n := by
  obtain ⟨later, a, earlier, e, h2⟩ := h
  exact ⟨new ++ later, a, earlier, by rw [e, List.append_assoc], h2⟩

/-- Processes that have nothing to do with a change stay as they are. -/
theorem Good.frame {P : Parts} {idx : Index} {s s' : Sys} {log : List Analysis} {p : Proc} (h : Good P idx s log p)
    (new : List Analysis) (hout : outK s' p.crate = outK s p.crate ∨ ∃ b, p.phase = .exited b)
    (hh : ∀ i, p.phase = .linking i ∨ p.phase = .completing i → ∀ x, s.handlers[i]? = some x → s'.handlers[i]? = some x) :
    Good P idx s' (new ++ log) p := by
  have done : Done P idx log p → Done P idx (new ++ log) p := fun hd x hx => (hd x hx).mono new
  refine ⟨h.one, fun x hx => ⟨(h.mine x hx).1, ?_⟩, ?_⟩
  · have := (h.mine x hx).2
    rw [List.length_append]; omega
  have hp := h.phase
  revert hp hout hh
  generalize p.phase = ph
  intro hout hh hp
  have ho : (∃ b, ph = .exited b) ∨ outK s' p.crate = outK s p.crate := hout.symm
  cases ph with
  | exited b =>
    cases b with
    | true => exact done hp
    | false => trivial
  | compiling =>
    rcases ho with ⟨_, e⟩ | ho
    · cases e
    · exact ho.trans hp
  | linking i =>
    rcases ho with ⟨_, e⟩ | ho
    · cases e
    · obtain ⟨li, n, x, h1, h2, h3, h4⟩ := hp
      exact ⟨li, n, x, h1, hh i (.inl rfl) x h2, h3, by rw [ho]; exact h4⟩
  | completing i =>
    rcases ho with ⟨_, e⟩ | ho
    · cases e
    · obtain ⟨x, paths, h2, h3, h4⟩ := hp
      refine ⟨x, paths, hh i (.inr rfl) x h2, h3, ?_⟩
      rw [ho]
      rcases h4 with h4 | ⟨a, b, d⟩ | h4
      · exact .inl h4
      · exact .inr (.inl ⟨a, b, done d⟩)
      · exact .inr (.inr h4)
  | approved =>
    rcases ho with ⟨_, e⟩ | ho
    · cases e
    · exact ⟨ho.trans hp.1, done hp.2⟩
  | asking i =>
    rcases ho with ⟨_, e⟩ | ho
    · cases e
    · exact ho.trans hp

/-- A step of a process. -/
theorem inv_proc {P : Parts} {idx : Index} {s : Sys} {log : List Analysis} {procs : List Proc} (h : BInv P idx s log procs)
    {j : Nat} {p p' : Proc} (hj : procs[j]? = some p) (hact : p.phase ≠ .exited true) (hc : p'.crate = p.crate)
    (new : List Handler)
    (hgood : Good P idx { s with handlers := s.handlers ++ new } log p')
    (hnew : ∀ x ∈ new, new = [x] ∧ ∀ K, concern x.req = some K → K = p.crate ∧
      (p'.phase = .linking s.handlers.length ∨ p'.phase = .completing s.handlers.length))
    (hkeep : ∀ i, p.phase = .linking i ∨ p.phase = .completing i → p'.phase = .exited false ∨
      ∀ x, s.handlers[i]? = some x → ∃ o, x.status = .finished o)
    (hfalse : p.phase = .exited false → p'.phase = .exited false)
    (hidle : p'.phase = .exited true → outK s p.crate = []) :
    BInv P idx { s with handlers := s.handlers ++ new } log (procs.set j p') where
  good := by
    intro q hq
    rcases mem_set_cases hq with rfl | hq
    · exact hgood
    · refine (h.good q hq).frame [] (.inl rfl) ?_
      intro i _ x hx
      show (s.handlers ++ new)[i]? = some x
      rw [List.getElem?_append_left (List.getElem?_eq_some_iff.mp hx).1]
      exact hx
  idle := by
    intro K hK
    show outK s K = []
    by_cases e : K = p.crate
    · subst e
      refine hidle (hK p' ?_ hc)
      exact List.mem_iff_getElem?.mpr ⟨j, by rw [List.getElem?_set_self (List.getElem?_eq_some_iff.mp hj).1]⟩
    · refine h.idle K fun q hq hqK => ?_
      obtain ⟨k, hk⟩ := List.mem_iff_getElem?.mp hq
      refine hK q (List.mem_iff_getElem?.mpr ⟨k, ?_⟩) hqK
      rw [List.getElem?_set_ne]
      · exact hk
      · rintro rfl
        rw [hj] at hk
        cases hk
        exact e hqK.symm
  owner := by
    intro i x K hx hs hK
    have hp'mem : p' ∈ procs.set j p' :=
      List.mem_iff_getElem?.mpr ⟨j, by rw [List.getElem?_set_self (List.getElem?_eq_some_iff.mp hj).1]⟩
    by_cases hlt : i < s.handlers.length
    · have hx : s.handlers[i]? = some x := by
        rw [← hx]
        show _ = (s.handlers ++ new)[i]?
        rw [List.getElem?_append_left hlt]
      obtain ⟨q, hq, hqK, hqp⟩ := h.owner i x K hx hs hK
      obtain ⟨k, hk⟩ := List.mem_iff_getElem?.mp hq
      by_cases e : j = k
      · subst e
        rw [hj] at hk
        cases hk
        refine ⟨p', hp'mem, hc.trans hqK, ?_⟩
        have active : ∀ o, x.status ≠ .finished o := by
          intro o ho
          rw [ho] at hs
          rcases hs with hs | ⟨_, hs⟩ <;> cases hs
        have : p'.phase = .exited false := by
          rcases hqp with e | e | e
          · rcases hkeep i (.inl e) with g | g
            · exact g
            · obtain ⟨o, ho⟩ := g x hx
              exact absurd ho (active o)
          · rcases hkeep i (.inr e) with g | g
            · exact g
            · obtain ⟨o, ho⟩ := g x hx
              exact absurd ho (active o)
          · exact hfalse e
        exact .inr (.inr this)
      · exact ⟨q, List.mem_iff_getElem?.mpr ⟨k, by rw [List.getElem?_set_ne e]; exact hk⟩, hqK, hqp⟩
    · have hx' : new[i - s.handlers.length]? = some x := by
        rw [← hx]
        show _ = (s.handlers ++ new)[i]?
        rw [List.getElem?_append_right (by omega)]
      obtain ⟨e, g⟩ := hnew x (List.mem_of_getElem? hx')
      have hi : i = s.handlers.length := by
        rw [e] at hx'
        have := (List.getElem?_eq_some_iff.mp hx').1
        simp only [List.length_singleton] at this
        omega
      obtain ⟨rfl, g2⟩ := g K hK
      refine ⟨p', hp'mem, hc, ?_⟩
      rw [hi]
      rcases g2 with g2 | g2
      · exact .inl g2
      · exact .inr (.inl g2)
  unique := by
    have back : ∀ (k : Nat) (q : Proc), (procs.set j p')[k]? = some q → q.phase ≠ .exited true →
        ∃ q' : Proc, procs[k]? = some q' ∧ q'.crate = q.crate ∧ q'.phase ≠ .exited true := by
      intro k q hk hq
      by_cases e : j = k
      · subst e
        rw [List.getElem?_set_self (List.getElem?_eq_some_iff.mp hj).1] at hk
        cases hk
        exact ⟨p, hj, hc.symm, hact⟩
      · rw [List.getElem?_set_ne e] at hk
        exact ⟨q, hk, rfl, hq⟩
    intro k k' q q' hk hk' hcr ha ha'
    obtain ⟨r, h1, h2, h3⟩ := back k q hk ha
    obtain ⟨r', h1', h2', h3'⟩ := back k' q' hk' ha'
    exact h.unique k k' r r' h1 h1' (h2.trans (hcr.trans h2'.symm)) h3 h3'

/-- A step of a handler. -/
theorem inv_handler {P : Parts} {idx : Index} {s : Sys} {log : List Analysis} {procs : List Proc} (h : BInv P idx s log procs)
    {i : Nat} {x x' : Handler} (hi : s.handlers[i]? = some x) (hact : x.status = .running ∨ ∃ r, x.status = .waiting r)
    (hreq : x'.req = x.req) (c : State) (new : List Analysis)
    (hout : ∀ K, concern x.req ≠ some K → outK { checker := c, handlers := s.handlers.set i x' } K = outK s K)
    (hgood : ∀ q ∈ procs, q.phase = .linking i ∨ q.phase = .completing i →
      Good P idx { checker := c, handlers := s.handlers.set i x' } (new ++ log) q) :
    BInv P idx { checker := c, handlers := s.handlers.set i x' } (new ++ log) procs where
  good := by
    intro q hq
    by_cases hqi : q.phase = .linking i ∨ q.phase = .completing i
    · exact hgood q hq hqi
    · refine (h.good q hq).frame new ?_ ?_
      · by_cases hK : concern x.req = some q.crate
        · right
          obtain ⟨o, ho, hoK, hop⟩ := h.owner i x q.crate hi hact hK
          obtain ⟨k, hk⟩ := List.mem_iff_getElem?.mp hq
          obtain ⟨k', hk'⟩ := List.mem_iff_getElem?.mp ho
          cases hqp : q.phase with
          | exited b => exact ⟨b, rfl⟩
          | _ =>
            all_goals
              have hkk : k = k' := h.unique k k' q o hk hk' hoK.symm (by rw [hqp]; intro e; cases e) (by
                rcases hop with e | e | e <;> rw [e] <;> intro e' <;> cases e')
              subst hkk
              rw [hk] at hk'
              cases hk'
              exfalso
              rcases hop with e | e | e
              · exact hqi (.inl e)
              · exact hqi (.inr e)
              · rw [hqp] at e; cases e
        · exact .inl (hout _ hK)
      · intro k hk y hy
        show (s.handlers.set i x')[k]? = some y
        rw [List.getElem?_set_ne]
        · exact hy
        · rintro rfl
          exact hqi hk
  idle := by
    intro K hK
    by_cases e : concern x.req = some K
    · obtain ⟨o, ho, hoK, hop⟩ := h.owner i x K hi hact e
      have := hK o ho hoK
      rw [this] at hop
      rcases hop with e | e | e <;> cases e
    · rw [hout K e]
      exact h.idle K hK
  owner := by
    intro k y K hy hs hK
    by_cases e : i = k
    · subst e
      have : y = x' := by
        have hy' : (s.handlers.set i x')[i]? = some y := hy
        rw [List.getElem?_set_self (List.getElem?_eq_some_iff.mp hi).1] at hy'
        exact (Option.some.inj hy').symm
      subst this
      rw [hreq] at hK
      exact h.owner i x K hi hact hK
    · have hy' : (s.handlers.set i x')[k]? = some y := hy
      rw [List.getElem?_set_ne e] at hy'
      exact h.owner k y K hy' hs hK
  unique := h.unique

/-- What examining a request does to what is outstanding. -/
theorem check_other {P : Parts} {c : State} {tr : List CEv} {h : Handler} (hk : concern h.req = none) :
    (h.check P c).1.outstanding = c.outstanding ∧ analysisOf P c tr h = [] ∧ (h.check P c).2.req = h.req := by
  obtain ⟨req, cache, status⟩ := h
  cases req with
  | linkerInvoked li => cases hk
  | rustcComplete crate paths => cases hk
  | binExecutionComplete crate code output =>
    refine ⟨?_, rfl, ?_⟩ <;> simp only [Handler.check, handleRequest] <;> by_cases h1 : code = 0
    · by_cases h2 : crate.kind = .buildScript
      · cases h3 : P.report c.cfg crate output <;> simp [h1, h2, h3]
      · simp [h1, h2]
    · simp [h1]
    · by_cases h2 : crate.kind = .buildScript
      · cases h3 : P.report c.cfg crate output <;> simp [h1, h2, h3]
      · simp [h1, h2]
    · simp [h1]
  | initial => exact ⟨rfl, rfl, rfl⟩
  | crateUsesUnsafe => exact ⟨rfl, rfl, rfl⟩
  | crateUsesExtern => exact ⟨rfl, rfl, rfl⟩
  | rustcStarted => exact ⟨rfl, rfl, rfl⟩

theorem inv_check {P : Parts} {idx : Index} {s : Sys} {log : List Analysis} {tr : List CEv} {procs : List Proc}
    (hb : BInv P idx s log procs) (hcr : CRun idx s.checker tr) {i : Nat} {h : Handler} (hh : s.handlers[i]? = some h)
    (hr : h.status = .running) :
    BInv P idx { checker := (h.check P s.checker).1, handlers := s.handlers.set i (h.check P s.checker).2 }
      (analysisOf P s.checker tr h ++ log) procs := by
  have hset : ∀ x' : Handler, (s.handlers.set i x')[i]? = some x' := fun x' =>
    List.getElem?_set_self (List.getElem?_eq_some_iff.mp hh).1
  cases hreq : h.req with
  | linkerInvoked li =>
    have e : h.check P s.checker = ({ s.checker with outstanding := s.checker.outstanding ++ [li] },
        { h with status := .finished .continue_ }) := by
      unfold Handler.check handleRequest
      rw [hreq]; rfl
    have ea : analysisOf P s.checker tr h = [] := by unfold analysisOf; rw [hreq]
    rw [e, ea]
    refine inv_handler (x' := { h with status := .finished .continue_ }) hb hh (.inl hr) rfl { s.checker with outstanding := s.checker.outstanding ++ [li] } [] ?_ ?_
    · intro K hK
      show (s.checker.outstanding ++ [li]).filter _ = s.checker.outstanding.filter _
      rw [List.filter_append, List.filter_cons_of_neg, List.filter_nil, List.append_nil]
      rw [hreq] at hK
      simpa using fun h => hK (by rw [← h]; rfl)
    · intro q hq hqi
      obtain ⟨h1, h2, h3⟩ := hb.good q hq
      refine ⟨h1, h2, ?_⟩
      rcases hqi with e | e
      · rw [e] at h3 ⊢
        obtain ⟨li', n, x, g1, g2, g3, g4⟩ := h3
        rw [hh] at g2
        cases g2
        rw [hreq] at g3
        cases g3
        refine ⟨li, n, _, g1, hset _, hreq, .inr ⟨rfl, ?_⟩⟩
        rcases g4 with ⟨_, g4⟩ | ⟨g4, _⟩
        · have hc : li.crate = q.crate := (h2 (li, n) (by rw [g1]; exact List.mem_singleton_self _)).1
          show (s.checker.outstanding ++ [li]).filter _ = _
          rw [List.filter_append]
          have : s.checker.outstanding.filter (fun x => x.crate = q.crate) = [] := g4
          rw [this, List.filter_cons_of_pos (by simpa using hc)]
          rfl
        · rw [hr] at g4; cases g4
      · rw [e] at h3
        obtain ⟨x, paths, g2, g3, _⟩ := h3
        rw [hh] at g2
        cases g2
        rw [hreq] at g3
        cases g3
  | rustcComplete crate paths =>
    have owner_completing : ∀ q ∈ procs, q.phase = .linking i ∨ q.phase = .completing i → q.phase = .completing i ∧
        q.crate = crate ∧ outK s crate = q.linked.map Prod.fst ∧ ∀ o, h.cache = some o → Of P q o := by
      intro q hq hqi
      obtain ⟨h1, h2, h3⟩ := hb.good q hq
      rcases hqi with e | e
      · rw [e] at h3
        obtain ⟨li', n, x, g1, g2, g3, g4⟩ := h3
        rw [hh] at g2
        cases g2
        rw [hreq] at g3
        cases g3
      · refine ⟨e, ?_⟩
        rw [e] at h3
        obtain ⟨x, paths', g2, g3, g4⟩ := h3
        rw [hh] at g2
        cases g2
        rw [hreq] at g3
        cases g3
        rcases g4 with ⟨_, g5, g6⟩ | ⟨g4, _⟩ | g4 | g4
        · exact ⟨rfl, g5, g6⟩
        · rw [hr] at g4; cases g4
        · rw [hr] at g4; cases g4
        · rw [hr] at g4; cases g4
    rcases rustcComplete_cases P.scan s.checker crate paths h.cache with ⟨t1, t2⟩ | ⟨li, rest, t1, t2⟩ |
      ⟨li, rest, c', out, ps, t1, t2, t3⟩
    · have e : h.check P s.checker = ({ s.checker with paths := recordPaths s.checker.paths crate.pkgId paths },
          { h with status := .finished .continue_ }) := by
        unfold Handler.check handleRequest
        rw [hreq]
        dsimp only
        rw [t2]
        rfl
      have ea : analysisOf P s.checker tr h = [] := by
        unfold analysisOf
        rw [hreq]
        dsimp only
        rw [t1]
      rw [e, ea]
      have hnil : outK s crate = [] := by
        refine List.filter_eq_nil_iff.mpr fun li hli => ?_
        simpa using takeLink_none t1 li hli
      refine inv_handler (x' := { h with status := .finished .continue_ }) hb hh (.inl hr) rfl
        { s.checker with paths := recordPaths s.checker.paths crate.pkgId paths } [] (fun K hK => rfl) ?_
      intro q hq hqi
      obtain ⟨e1, rfl, e3, e4⟩ := owner_completing q hq hqi
      obtain ⟨h1, h2, h3⟩ := hb.good q hq
      refine ⟨h1, h2, ?_⟩
      rw [e1]
      refine ⟨_, paths, hset _, hreq, .inr (.inl ⟨rfl, hnil, ?_⟩)⟩
      intro x hx
      rw [hnil] at e3
      have : q.linked = [] := List.map_eq_nil_iff.mp e3.symm
      rw [this] at hx; cases hx
    · have e : h.check P s.checker = ({ s.checker with paths := recordPaths s.checker.paths crate.pkgId paths, outstanding := rest },
          { h with status := .failed }) := by
        unfold Handler.check handleRequest
        rw [hreq]
        dsimp only
        rw [t2]
      have ea : analysisOf P s.checker tr h = [] := by
        unfold analysisOf
        rw [hreq]
        dsimp only [handleRequest]
        rw [t1, t2]
      rw [e, ea]
      refine inv_handler (x' := { h with status := .failed }) hb hh (.inl hr) rfl
        { s.checker with paths := recordPaths s.checker.paths crate.pkgId paths, outstanding := rest } [] ?_ ?_
      · intro K hK
        refine (takeLink_filter t1).2 K ?_
        rintro rfl
        rw [hreq] at hK
        exact hK rfl
      · intro q hq hqi
        obtain ⟨e1, rfl, e3, e4⟩ := owner_completing q hq hqi
        obtain ⟨h1, h2, h3⟩ := hb.good q hq
        refine ⟨h1, h2, ?_⟩
        rw [e1]
        exact ⟨_, paths, hset _, hreq, .inr (.inr (.inr rfl))⟩
    · have e : h.check P s.checker = (if ps = [] then c' else { c' with outstanding := c'.outstanding ++ [li] },
          { h with cache := some out, status := if ps = [] then .finished .continue_ else .waiting (shouldSendRetryAll ps) }) := by
        unfold Handler.check handleRequest
        rw [hreq]
        dsimp only
        rw [t3]
      have ea : analysisOf P s.checker tr h =
          [⟨li, { s.checker with paths := recordPaths s.checker.paths crate.pkgId paths }, tr, out, ps⟩] := by
        unfold analysisOf
        rw [hreq]
        dsimp only [handleRequest]
        rw [t1, t3]
      obtain ⟨k1, k2, ps', k3, k4⟩ := checkLink_spec t2
      have hout : c'.outstanding = rest := (apisUsed_same k3).1
      obtain ⟨f1, f2⟩ := takeLink_filter t1
      have hcr' : li.crate = crate := (takeLink_some t1).1
      rw [e, ea]
      refine inv_handler (x' := { h with cache := some out, status := if ps = [] then .finished .continue_ else .waiting (shouldSendRetryAll ps) })
        hb hh (.inl hr) rfl (if ps = [] then c' else { c' with outstanding := c'.outstanding ++ [li] }) [_] ?_ ?_
      · intro K hK
        have hne : K ≠ crate := by
          rintro rfl
          rw [hreq] at hK
          exact hK rfl
        have := f2 K hne
        unfold outK
        dsimp only
        split
        · rw [hout]; exact this
        · show (c'.outstanding ++ [li]).filter _ = _
          rw [hout, List.filter_append, this, List.filter_cons_of_neg, List.filter_nil, List.append_nil]
          simpa [hcr'] using hne.symm
      · intro q hq hqi
        obtain ⟨e1, rfl, e3, e4⟩ := owner_completing q hq hqi
        obtain ⟨h1, h2, h3⟩ := hb.good q hq
        -- exactly this binary was linked
        have f1' : outK s q.crate = li :: rest.filter (fun x => x.crate = q.crate) := f1
        rw [e3] at f1'
        obtain ⟨n, hl, hrest⟩ : ∃ n, q.linked = [(li, n)] ∧ rest.filter (fun x => x.crate = q.crate) = [] := by
          match hq' : q.linked, h1, f1' with
          | [x], _, f =>
            have f : x.1 :: [] = li :: _ := f
            obtain ⟨a, b⟩ := List.cons.inj f
            exact ⟨x.2, by rw [← a], b.symm⟩
          | x :: y :: l, h, _ => simp at h
          | [], _, f => cases f
        have hgen : ∃ c o, P.scan c li = some o ∧ c.cfg.apis = s.checker.cfg.apis ∧
            out = { o with apis := s.checker.cfg.apis } := by
          rcases k2 with k2 | ⟨o, k2, k2'⟩
          · obtain ⟨x, hx, c0, o', q4, q5⟩ := e4 out k2
            rw [hl] at hx
            rw [List.mem_singleton.mp hx] at q4
            have hap : c0.cfg.apis = s.checker.cfg.apis := by rw [← k1, q5]
            exact ⟨c0, o', q4, hap, by rw [q5, hap]⟩
          · exact ⟨_, o, k2, rfl, k2'⟩
        refine ⟨h1, fun x hx => ⟨(h2 x hx).1, ?_⟩, ?_⟩
        · have := (h2 x hx).2
          show _ ≤ log.length + 1
          omega
        rw [e1]
        refine ⟨_, paths, hset _, hreq, ?_⟩
        by_cases hp : ps = []
        · refine .inr (.inl ⟨if_pos hp, ?_, ?_⟩)
          · unfold outK
            dsimp only
            rw [if_pos hp, hout]
            exact hrest
          · intro x hx
            rw [hl] at hx
            rw [List.mem_singleton.mp hx]
            refine ⟨[], _, log, rfl, ?_, rfl, hgen, ?_⟩
            · exact (h2 (li, n) (by rw [hl]; exact List.mem_singleton_self _)).2
            · exact passed_of_check (.other _ _ hcr) t2 _ ⟨rfl, rfl⟩ hp
        · refine .inl ⟨.inr ?_, ?_, ?_⟩
          · show (if ps = [] then _ else Status.waiting (shouldSendRetryAll ps)) = _
            rw [if_neg hp, checkLink_no_retry t2 hp]
          · unfold outK
            dsimp only
            rw [if_neg hp]
            show (c'.outstanding ++ [li]).filter _ = _
            rw [hout, List.filter_append, hrest, hl, List.filter_cons_of_pos (by simpa using hcr')]
            rfl
          · intro o ho
            cases ho
            obtain ⟨c0, o', q1, q2, q3⟩ := hgen
            exact ⟨(li, n), by rw [hl]; exact List.mem_singleton_self _, c0, o', q1, by rw [q3, q2]⟩
  | initial | crateUsesUnsafe | crateUsesExtern | binExecutionComplete | rustcStarted =>
    have hk : concern h.req = none := by rw [hreq]; rfl
    obtain ⟨e1, e2, e3⟩ := check_other (P := P) (c := s.checker) (tr := tr) hk
    rw [e2]
    refine inv_handler hb hh (.inl hr) e3 _ [] (fun K _ => by unfold outK; rw [show (Handler.check P s.checker h).1.outstanding = _ from e1]) ?_
    intro q hq hqi
    have h3 := (hb.good q hq).phase
    rcases hqi with e | e
    · rw [e] at h3
      obtain ⟨li', n, x, g1, g2, g3, g4⟩ := h3
      rw [hh] at g2
      cases g2
      rw [g3] at hk; cases hk
    · rw [e] at h3
      obtain ⟨x, paths', g2, g3, g4⟩ := h3
      rw [hh] at g2
      cases g2
      rw [g3] at hk; cases hk

/-- A waiting handler is answered. -/
theorem inv_answer {P : Parts} {idx : Index} {s : Sys} {log : List Analysis} {procs : List Proc} (hb : BInv P idx s log procs)
    {i : Nat} {h : Handler} {retry : Bool} (hh : s.handlers[i]? = some h) (hr : h.status = .waiting retry) (c : State)
    (hc : c.outstanding = s.checker.outstanding) (st : Status)
    (hst : retry = false → st = .running ∨ st = .failed ∨ st = .finished .giveUp) :
    BInv P idx { checker := c, handlers := s.handlers.set i { h with status := st } } log procs := by
  have hset : ∀ x' : Handler, (s.handlers.set i x')[i]? = some x' := fun x' =>
    List.getElem?_set_self (List.getElem?_eq_some_iff.mp hh).1
  have hout : ∀ K, outK { checker := c, handlers := s.handlers.set i { h with status := st } } K = outK s K := by
    intro K; unfold outK; rw [show (Sys.checker _).outstanding = _ from hc]
  refine inv_handler (x' := { h with status := st }) (new := []) hb hh (.inr ⟨retry, hr⟩) rfl c (fun K _ => hout K) ?_
  intro q hq hqi
  obtain ⟨h1, h2, h3⟩ := hb.good q hq
  refine ⟨h1, h2, ?_⟩
  rcases hqi with e | e
  · rw [e] at h3
    obtain ⟨li', n, x, g1, g2, g3, g4⟩ := h3
    rw [hh] at g2
    cases g2
    rcases g4 with ⟨g4, _⟩ | ⟨g4, _⟩ <;> rw [hr] at g4 <;> cases g4
  · rw [e] at h3 ⊢
    obtain ⟨x, paths', g2, g3, g4⟩ := h3
    rw [hh] at g2
    cases g2
    rcases g4 with ⟨g4, g5, g6⟩ | ⟨g4, _⟩ | g4 | g4
    · have : retry = false := by
        rcases g4 with g4 | g4 <;> rw [hr] at g4 <;> cases g4
        rfl
      refine ⟨_, paths', hset _, g3, ?_⟩
      rcases hst this with rfl | rfl | rfl
      · exact .inl ⟨.inl rfl, by rw [hout]; exact g5, g6⟩
      · exact .inr (.inr (.inr rfl))
      · exact .inr (.inr (.inl rfl))
    · rw [hr] at g4; cases g4
    · rw [hr] at g4; cases g4
    · rw [hr] at g4; cases g4

theorem build_inv {P : Parts} {idx : Index} {s : Sys} {links : List LinkInfo} {log : List Analysis} {tr : List CEv}
    {procs : List Proc} (h : Build oneByOne P idx s links log tr procs) : BInv P idx s log procs := by
  induction h with
  | init => exact ⟨by simp, fun _ _ => rfl, by simp, by simp⟩
  | @load s links log tr procs cfg hn _ ih =>
    refine ⟨fun p hp => ?_, ih.idle, ih.owner, ih.unique⟩
    exact (ih.good p hp).frame [] (.inl rfl) (fun _ _ _ hx => hx)
  | check i h hh hr hb ih => exact inv_check ih (sys_crun hb.sysRun) hh hr
  | resume i h retry hh hr cfg hn _ ih =>
    refine inv_answer ih hh hr (updateConfig _ cfg) rfl (if retry then .finished .continue_ else .running) ?_
    rintro rfl
    exact .inl rfl
  | resumeBad i h retry hh hr _ ih => exact inv_answer ih hh hr _ rfl .failed (fun _ => .inr (.inl rfl))
  | giveUp i h retry hh hr _ ih => exact inv_answer ih hh hr _ rfl (.finished .giveUp) (fun _ => .inr (.inr rfl))
  | @other s links log tr procs req ho _ ih =>
    refine ⟨fun p hp => ?_, ih.idle, ?_, ih.unique⟩
    · refine (ih.good p hp).frame [] (.inl rfl) ?_
      intro i _ x hx
      show (s.handlers ++ _)[i]? = some x
      rw [List.getElem?_append_left (List.getElem?_eq_some_iff.mp hx).1]
      exact hx
    · intro i x K hx hs hK
      have hx : (s.handlers ++ [({ req := req } : Handler)])[i]? = some x := hx
      by_cases hlt : i < s.handlers.length
      · rw [List.getElem?_append_left hlt] at hx
        exact ih.owner i x K hx hs hK
      · rw [List.getElem?_append_right (by omega)] at hx
        have := List.mem_singleton.mp (List.mem_of_getElem? hx)
        rw [this] at hK
        have hc := concern_other ho
        rw [show concern ({ req := req } : Handler).req = concern req from rfl, hc] at hK
        cases hK
  | @start s links log tr procs crate hr _ ih =>
    have hidle : outK s crate = [] := ih.idle crate hr
    refine ⟨?_, ?_, ?_, ?_⟩
    · intro p hp
      rcases List.mem_append.mp hp with hp | hp
      · exact ih.good p hp
      · rw [List.mem_singleton.mp hp]
        exact ⟨by simp, by simp, hidle⟩
    · intro K hK
      exact ih.idle K (fun p hp => hK p (List.mem_append_left _ hp))
    · intro i x K hx hs hK
      obtain ⟨p, hp, g⟩ := ih.owner i x K hx hs hK
      exact ⟨p, List.mem_append_left _ hp, g⟩
    · have key : ∀ j p, (procs ++ [({ crate := crate } : Proc)])[j]? = some p →
          (procs[j]? = some p) ∨ (j = procs.length ∧ p.crate = crate) := by
        intro j p hj
        by_cases hlt : j < procs.length
        · rw [List.getElem?_append_left hlt] at hj
          exact .inl hj
        · rw [List.getElem?_append_right (by omega)] at hj
          right
          have h1 := (List.getElem?_eq_some_iff.mp hj).1
          have h2 := List.mem_singleton.mp (List.mem_of_getElem? hj)
          simp only [List.length_singleton] at h1
          exact ⟨by omega, by rw [h2]⟩
      intro j j' p p' hj hj' hc ha ha'
      rcases key j p hj with g | ⟨g, g2⟩ <;> rcases key j' p' hj' with k | ⟨k, k2⟩
      · exact ih.unique j j' p p' g k hc ha ha'
      · exact absurd (hr p (List.mem_of_getElem? g) (hc.trans k2)) ha
      · exact absurd (hr p' (List.mem_of_getElem? k) (hc.symm.trans g2)) ha'
      · omega
  | @link s links log tr procs j p li hj hp hl ho _ ih =>
    have hg := ih.good p (List.mem_of_getElem? hj)
    have hph := hg.phase
    rw [hp] at hph
    have ho : p.linked = [] := ho
    refine inv_proc (p' := { p with linked := (li, log.length) :: p.linked, phase := .linking s.handlers.length }) ih hj (by rw [hp]; intro e; cases e) rfl [{ req := .linkerInvoked li }] ?_ ?_ ?_ ?_ ?_
    · refine ⟨by simp [ho], ?_, ?_⟩
      · intro x hx
        dsimp only at hx
        rw [ho] at hx
        rw [List.mem_singleton.mp hx]
        exact ⟨hl, Nat.le_refl _⟩
      · refine ⟨li, log.length, { req := .linkerInvoked li }, by dsimp only; rw [ho], ?_, rfl, .inl ⟨rfl, ?_⟩⟩
        · show (s.handlers ++ _)[s.handlers.length]? = _
          rw [List.getElem?_append_right (Nat.le_refl _), Nat.sub_self]
          rfl
        · show outK s p.crate = []
          rw [show outK s p.crate = p.linked.map Prod.fst from hph, ho]
          rfl
    · intro x hx
      rw [List.mem_singleton.mp hx]
      refine ⟨rfl, fun K hK => ⟨?_, .inl rfl⟩⟩
      exact (Option.some.inj hK).symm.trans hl
    · intro i hi
      rw [hp] at hi
      rcases hi with e | e <;> cases e
    · intro e; rw [hp] at e; cases e
    · intro e; cases e
  | @linked s links log tr procs j p i h o hj hp hh hs _ ih =>
    have hg := ih.good p (List.mem_of_getElem? hj)
    have hph := hg.phase
    rw [hp] at hph
    obtain ⟨li, n, x, g1, g2, g3, g4⟩ := hph
    rw [hh] at g2
    cases g2
    have := inv_proc (p' := { p with phase := .compiling }) ih hj (by rw [hp]; intro e; cases e) rfl [] (by
        refine ⟨hg.one, hg.mine, ?_⟩
        show outK s p.crate = p.linked.map Prod.fst
        rcases g4 with ⟨g4, _⟩ | ⟨_, g4⟩
        · rw [hs] at g4; cases g4
        · rw [g4, g1]; rfl) (by intro x hx; cases hx)
      (by
        intro k hk
        rw [hp] at hk
        rcases hk with e | e <;> cases e
        right
        intro y hy
        rw [hh] at hy
        cases hy
        exact ⟨o, hs⟩) (by intro e; rw [hp] at e; cases e) (by intro e; cases e)
    simpa using this
  | @complete s links log tr procs j p paths hj hp _ ih =>
    have hg := ih.good p (List.mem_of_getElem? hj)
    have hph := hg.phase
    rw [hp] at hph
    refine inv_proc (p' := { p with phase := .completing s.handlers.length }) ih hj (by rw [hp]; intro e; cases e) rfl [{ req := .rustcComplete p.crate paths }] ?_ ?_ ?_ ?_ ?_
    · refine ⟨hg.one, hg.mine, { req := .rustcComplete p.crate paths }, paths, ?_, rfl, .inl ⟨.inl rfl, hph, ?_⟩⟩
      · show (s.handlers ++ _)[s.handlers.length]? = _
        rw [List.getElem?_append_right (Nat.le_refl _), Nat.sub_self]
        rfl
      · intro o ho; cases ho
    · intro x hx
      rw [List.mem_singleton.mp hx]
      exact ⟨rfl, fun K hK => ⟨(Option.some.inj hK).symm, .inr rfl⟩⟩
    · intro i hi
      rw [hp] at hi
      rcases hi with e | e <;> cases e
    · intro e; rw [hp] at e; cases e
    · intro e; cases e
  | @approved s links log tr procs j p i h hj hp hh hs _ ih =>
    have hg := ih.good p (List.mem_of_getElem? hj)
    have hph := hg.phase
    rw [hp] at hph
    obtain ⟨x, paths, g2, g3, g4⟩ := hph
    rw [hh] at g2
    cases g2
    have := inv_proc (p' := { p with phase := .approved }) ih hj (by rw [hp]; intro e; cases e) rfl [] (by
        refine ⟨hg.one, hg.mine, ?_⟩
        rcases g4 with ⟨g4 | g4, _⟩ | ⟨_, g5, g6⟩ | g4 | g4
        · rw [hs] at g4; cases g4
        · rw [hs] at g4; cases g4
        · exact ⟨g5, g6⟩
        · rw [hs] at g4; cases g4
        · rw [hs] at g4; cases g4) (by intro x hx; cases hx)
      (by
        intro k hk
        rw [hp] at hk
        rcases hk with e | e <;> cases e
        right
        intro y hy
        rw [hh] at hy
        cases hy
        exact ⟨_, hs⟩) (by intro e; rw [hp] at e; cases e) (by intro e; cases e)
    simpa using this
  | @ask s links log tr procs j p req hj hp ho _ ih =>
    have hg := ih.good p (List.mem_of_getElem? hj)
    have hph := hg.phase
    have hne : ∀ ph, (ph = .approved ∨ ph = .compiling) → p.phase = ph → outK s p.crate = [] ∧
        (∀ i, ¬ (p.phase = .linking i ∨ p.phase = .completing i)) ∧ (∀ b, p.phase ≠ .exited b) := by
      intro ph hph' e
      refine ⟨?_, ?_, ?_⟩
      · rcases hp with e' | ⟨e', e2⟩
        · rw [e'] at hph
          exact hph.1
        · rw [e'] at hph
          have e2 : p.linked = [] := e2
          rw [show outK s p.crate = p.linked.map Prod.fst from hph, e2]
          rfl
      · intro i hi
        rw [e] at hi
        rcases hph' with rfl | rfl <;> rcases hi with e | e <;> cases e
      · intro b e'
        rw [e] at e'
        rcases hph' with rfl | rfl <;> cases e'
    have hfacts := hne p.phase (by rcases hp with e | ⟨e, _⟩ <;> rw [e] <;> simp) rfl
    refine inv_proc (p' := { p with phase := .asking s.handlers.length }) ih hj (hfacts.2.2 true) rfl [{ req := req }] ⟨hg.one, hg.mine, hfacts.1⟩ ?_ ?_ ?_ ?_
    · intro x hx
      rw [List.mem_singleton.mp hx]
      refine ⟨rfl, fun K hK => ?_⟩
      rw [show concern ({ req := req } : Handler).req = concern req from rfl, concern_other ho] at hK
      cases hK
    · intro i hi
      exact absurd hi (hfacts.2.1 i)
    · intro e; exact absurd e (hfacts.2.2 false)
    · intro e; cases e
  | @again s links log tr procs j p i h hj hp hh hs _ ih =>
    have hg := ih.good p (List.mem_of_getElem? hj)
    have hph := hg.phase
    rw [hp] at hph
    have := inv_proc (p' := { p with linked := [], phase := .compiling }) ih hj (by rw [hp]; intro e; cases e) rfl []
      ⟨by simp, by simp, hph⟩ (by intro x hx; cases hx)
      (by
        intro k hk
        rw [hp] at hk
        rcases hk with e | e <;> cases e) (by intro e; rw [hp] at e; cases e) (by intro e; cases e)
    simpa using this
  | @exit s links log tr procs j p hj hp _ ih =>
    have hg := ih.good p (List.mem_of_getElem? hj)
    have hph := hg.phase
    rw [hp] at hph
    have := inv_proc (p' := { p with phase := .exited true }) ih hj (by rw [hp]; intro e; cases e) rfl []
      ⟨hg.one, hg.mine, hph.2⟩ (by intro x hx; cases hx)
      (by
        intro k hk
        rw [hp] at hk
        rcases hk with e | e <;> cases e) (by intro e; rw [hp] at e; cases e) (fun _ => hph.1)
    simpa using this
  | @fail s links log tr procs j p hj hp _ ih =>
    have hg := ih.good p (List.mem_of_getElem? hj)
    have := inv_proc (p' := { p with phase := .exited false }) ih hj hp rfl []
      ⟨hg.one, hg.mine, trivial⟩ (by intro x hx; cases hx)
      (fun _ _ => .inl rfl) (fun _ => rfl) (by intro e; cases e)
    simpa using this

/-! ## The property -/

/-- **C144 (partial).** A build script, or anything else that is run once it has been compiled, is run only after what it
contains has been analysed, the analysis found nothing, and what known packages use had been granted. Missing: crates of
the same package and kind that are compiled at the same time, and runs of rustc that link several files, see
`C144_at_the_same_time` and `C144_several_files`. -/
theorem C144_partial : NotBefore oneByOne := by
  intro P idx s links log tr procs h p hp hph
  have := ((build_inv h).good p hp).phase
  rw [hph] at this
  exact this

/-! ## Disagreements and examples -/

namespace C144Ex
open C08Ex (pa idx fsUse netUse)

def script : CrateSel := ⟨pa, .buildScript⟩
/-- The program `x` uses `fs`, others use `net`. -/
def P : Parts := C08Ex.P
def x : LinkInfo := ⟨script, str! "x", []⟩
def y : LinkInfo := ⟨script, str! "y", []⟩
/-- The package may use `fs`. -/
def cfg : Raw := C08Ex.cfg
theorem cfg_nodup : cfg.packages.keys.Nodup := C08Ex.cfg_nodup

/-- Two compilations of the build script at the same time. What the first one linked is looked at when the second one is
done. -/
theorem together : ∃ s links log tr procs, Build ⟨fun _ _ => True, oneByOne.once⟩ P idx s links log tr procs ∧
    log.map Analysis.li = [x] ∧ ∃ p ∈ procs, p.phase = .exited true ∧ p.linked = [(y, 0)] := by
  have r : Build ⟨fun _ _ => True, oneByOne.once⟩ P idx _ _ _ _ _ := .load cfg cfg_nodup .init
  have r := Build.start script trivial r
  have r := Build.start script trivial r
  have r := Build.link 0 _ x rfl rfl rfl rfl r
  have r := Build.check 0 _ rfl rfl r
  have r := Build.linked 0 _ 0 _ .continue_ rfl rfl rfl rfl r
  have r := Build.link 1 _ y rfl rfl rfl rfl r
  have r := Build.check 1 _ rfl rfl r
  have r := Build.linked 1 _ 1 _ .continue_ rfl rfl rfl rfl r
  have r := Build.complete 1 _ [] rfl rfl r
  have r := Build.check 2 _ rfl rfl r
  have r := Build.approved 1 _ 2 _ rfl rfl rfl rfl r
  have r := Build.exit 1 _ rfl rfl r
  exact ⟨_, _, _, _, _, r, rfl, _, .tail _ (.head _), rfl, rfl⟩

/-- One run of rustc links two files. -/
theorem twice : ∃ s links log tr procs, Build ⟨oneByOne.start, fun _ => True⟩ P idx s links log tr procs ∧
    log.map Analysis.li = [x] ∧ ∃ p ∈ procs, p.phase = .exited true ∧ (y, 0) ∈ p.linked := by
  have r : Build ⟨oneByOne.start, fun _ => True⟩ P idx _ _ _ _ _ := .load cfg cfg_nodup .init
  have r := Build.start script (by intro p hp; cases hp) r
  have r := Build.link 0 _ x rfl rfl rfl trivial r
  have r := Build.check 0 _ rfl rfl r
  have r := Build.linked 0 _ 0 _ .continue_ rfl rfl rfl rfl r
  have r := Build.link 0 _ y rfl rfl rfl trivial r
  have r := Build.check 1 _ rfl rfl r
  have r := Build.linked 0 _ 1 _ .continue_ rfl rfl rfl rfl r
  have r := Build.complete 0 _ [] rfl rfl r
  have r := Build.check 2 _ rfl rfl r
  have r := Build.approved 0 _ 2 _ rfl rfl rfl rfl r
  have r := Build.exit 0 _ rfl rfl r
  exact ⟨_, _, _, _, _, r, rfl, _, .head _, rfl, .head _⟩

/-- A build script that needs `fs` waits until the user has granted it, and ends only then. -/
theorem granted : ∃ s links log tr procs, Build oneByOne P idx s links log tr procs ∧
    log.map (fun a => a.problems.length) = [0, 1] ∧ ∃ p ∈ procs, p.phase = .exited true ∧ p.linked = [(x, 0)] := by
  have r : Build oneByOne P idx _ _ _ _ _ := .load {} (by simp [AMap.keys]) .init
  have r := Build.start script (by intro p hp; cases hp) r
  have r := Build.link 0 _ x rfl rfl rfl rfl r
  have r := Build.check 0 _ rfl rfl r
  have r := Build.linked 0 _ 0 _ .continue_ rfl rfl rfl rfl r
  have r := Build.complete 0 _ [] rfl rfl r
  have r := Build.check 1 _ rfl rfl r
  have r := Build.resume 1 _ false rfl rfl cfg cfg_nodup r
  have r := Build.check 1 _ rfl rfl r
  have r := Build.approved 0 _ 1 _ rfl rfl rfl rfl r
  have r := Build.exit 0 _ rfl rfl r
  exact ⟨_, _, _, _, _, r, by decide +kernel, _, .head _, rfl, rfl⟩

theorem not_passed {log : List Analysis} (h : log.map Analysis.li = [x]) : ¬ PassedSince P idx log y 0 := by
  rintro ⟨later, a, earlier, rfl, _, e, _⟩
  have : y ∈ [x] := by
    rw [← h, ← e]
    exact List.mem_map_of_mem (List.mem_append_right _ List.mem_cons_self)
  exact absurd this (by decide)

end C144Ex

/-- **C144, disagreement.** If two crates of the same package and kind are compiled at the same time, then one of them may be
run although nobody has looked at it: each compilation takes whatever of that package and kind was linked first. -/
theorem C144_at_the_same_time : ¬ NotBefore ⟨fun _ _ => True, oneByOne.once⟩ := by
  intro h
  obtain ⟨s, links, log, tr, procs, hb, hl, p, hp, hph, hpl⟩ := C144Ex.together
  exact C144Ex.not_passed hl (h _ _ _ _ _ _ _ hb p hp hph (C144Ex.y, 0) (by rw [hpl]; exact List.mem_singleton_self _))

/-- **C144, disagreement.** If a run of rustc links two files, only the first one is looked at. -/
theorem C144_several_files : ¬ NotBefore ⟨oneByOne.start, fun _ => True⟩ := by
  intro h
  obtain ⟨s, links, log, tr, procs, hb, hl, p, hp, hph, hpl⟩ := C144Ex.twice
  exact C144Ex.not_passed hl (h _ _ _ _ _ _ _ hb p hp hph (C144Ex.y, 0) hpl)

/-- More is possible under weaker rules. -/
theorem Build.weaken {R R' : Rules} (hs : ∀ ps c, R.start ps c → R'.start ps c) (ho : ∀ p, R.once p → R'.once p) {P : Parts}
    {idx : Index} {s : Sys} {links : List LinkInfo} {log : List Analysis} {tr : List CEv} {procs : List Proc}
    (h : Build R P idx s links log tr procs) : Build R' P idx s links log tr procs := by
  induction h with
  | init => exact .init
  | load cfg hn _ ih => exact .load cfg hn ih
  | check i h hh hr _ ih => exact .check i h hh hr ih
  | resume i h retry hh hr cfg hn _ ih => exact .resume i h retry hh hr cfg hn ih
  | resumeBad i h retry hh hr _ ih => exact .resumeBad i h retry hh hr ih
  | giveUp i h retry hh hr _ ih => exact .giveUp i h retry hh hr ih
  | other req h _ ih => exact .other req h ih
  | start c h _ ih => exact .start c (hs _ _ h) ih
  | link j p li h1 h2 h3 h4 _ ih => exact .link j p li h1 h2 h3 (ho _ h4) ih
  | linked j p i h o h1 h2 h3 h4 _ ih => exact .linked j p i h o h1 h2 h3 h4 ih
  | complete j p paths h1 h2 _ ih => exact .complete j p paths h1 h2 ih
  | approved j p i h h1 h2 h3 h4 _ ih => exact .approved j p i h h1 h2 h3 h4 ih
  | ask j p req h1 h2 h3 _ ih => exact .ask j p req h1 (h2.imp id (fun h => ⟨h.1, ho _ h.2⟩)) h3 ih
  | again j p i h h1 h2 h3 h4 _ ih => exact .again j p i h h1 h2 h3 h4 ih
  | exit j p h1 h2 _ ih => exact .exit j p h1 h2 ih
  | fail j p h1 h2 _ ih => exact .fail j p h1 h2 ih

/-- **C144, disagreement.** -/
theorem C144_refuted : ¬ C144_Claim := by
  intro h
  refine C144_at_the_same_time ?_
  intro P idx s links log tr procs hb
  exact h P idx s links log tr procs (hb.weaken (fun _ _ _ => trivial) (fun _ _ => trivial))

/-- The grant came before the build script could be run. -/
example : ∃ s links log tr procs, Build oneByOne C144Ex.P C08Ex.idx s links log tr procs ∧
    (∃ p ∈ procs, p.phase = .exited true ∧ p.linked = [(C144Ex.x, 0)]) ∧
    PassedSince C144Ex.P C08Ex.idx log C144Ex.x 0 := by
  obtain ⟨s, links, log, tr, procs, hb, _, p, hp, hph, hpl⟩ := C144Ex.granted
  exact ⟨s, links, log, tr, procs, hb, ⟨p, hp, hph, hpl⟩,
    C144_partial _ _ _ _ _ _ _ hb p hp hph (C144Ex.x, 0) (by rw [hpl]; exact List.mem_singleton_self _)⟩

end Cackle.Checker
