import Verif.Model.Handlers
import Verif.Props.Checker

/-!
# C08: every linked binary is analysed before a run succeeds
-/

namespace Cackle.Checker
open Cackle Config Perm
open Cackle.ApiMap (Api)

/-- One analysis of a linked binary, as seen from outside: the binary, the checker and the history of
the checker at that time, the scan results that were used and the problems found. -/
structure Analysis where
  li : LinkInfo
  before : State
  tr : List CEv
  out : ScanOut
  problems : List Problem

/-- The analysis made by one call of `handle_request`, if any. -/
def analysisOf (P : Parts) (c : State) (tr : List CEv) (h : Handler) : List Analysis :=
  match h.req with
  | .rustcComplete crate paths =>
    let c1 := { c with paths := recordPaths c.paths crate.pkgId paths }
    match takeLink crate c1.outstanding, handleRequest P c h.req h.cache with
    | some (li, _), (_, some (some out, ps)) => [⟨li, c1, tr, out, ps⟩]
    | _, _ => []
  | _ => []

/-- The usages examined by one call of `handle_request`, latest first. -/
def usedBy (P : Parts) (c : State) (tr : List CEv) (h : Handler) : List CEv :=
  (analysisOf P c tr h).flatMap (fun a => (a.out.usages.map CEv.used).reverse)

/-- The linker invocation reported by a request, if any. -/
def linksOf : Request → List LinkInfo
  | .linkerInvoked li => [li]
  | _ => []

/-- All executions. `links` are the linker invocations reported so far, `log` the analyses made so far
(latest first), `tr` the history of the checker (latest first). -/
inductive SysRun (P : Parts) (idx : Index) :
    Sys → List LinkInfo → List Analysis → List CEv → Prop where
  | init : SysRun P idx { checker := { idx := idx } } [] [] []
  /-- The main thread loads the configuration (main.rs:389, 422). -/
  | load {s : Sys} {links : List LinkInfo} {log : List Analysis} {tr : List CEv} (cfg : Raw)
      (hn : cfg.packages.keys.Nodup) : SysRun P idx s links log tr →
      SysRun P idx { s with checker := updateConfig s.checker cfg } links log (.loaded cfg :: tr)
  /-- A request arrives. -/
  | start {s : Sys} {links : List LinkInfo} {log : List Analysis} {tr : List CEv} (req : Request) :
      SysRun P idx s links log tr →
      SysRun P idx { s with handlers := s.handlers ++ [{ req := req }] } links log tr
  /-- A handler examines its request. -/
  | check {s : Sys} {links : List LinkInfo} {log : List Analysis} {tr : List CEv} (i : Nat)
      (h : Handler) (hh : s.handlers[i]? = some h) (hr : h.status = .running) :
      SysRun P idx s links log tr →
      SysRun P idx { checker := (h.check P s.checker).1
                     handlers := s.handlers.set i (h.check P s.checker).2 }
        (linksOf h.req ++ links) (analysisOf P s.checker tr h ++ log)
        (usedBy P s.checker tr h ++ tr)
  /-- A blocked handler is told to continue and the config file is fine. -/
  | resume {s : Sys} {links : List LinkInfo} {log : List Analysis} {tr : List CEv} (i : Nat)
      (h : Handler) (retry : Bool) (hh : s.handlers[i]? = some h)
      (hr : h.status = .waiting retry) (cfg : Raw) (hn : cfg.packages.keys.Nodup) :
      SysRun P idx s links log tr →
      SysRun P idx { checker := (h.resume s.checker retry (some cfg)).1
                     handlers := s.handlers.set i (h.resume s.checker retry (some cfg)).2 }
        links log (.loaded cfg :: tr)
  /-- A blocked handler is told to continue and the config file cannot be loaded. -/
  | resumeBad {s : Sys} {links : List LinkInfo} {log : List Analysis} {tr : List CEv} (i : Nat)
      (h : Handler) (retry : Bool) (hh : s.handlers[i]? = some h)
      (hr : h.status = .waiting retry) :
      SysRun P idx s links log tr →
      SysRun P idx { checker := (h.resume s.checker retry none).1
                     handlers := s.handlers.set i (h.resume s.checker retry none).2 }
        links log tr
  /-- A blocked handler is told to give up. -/
  | giveUp {s : Sys} {links : List LinkInfo} {log : List Analysis} {tr : List CEv} (i : Nat)
      (h : Handler) (retry : Bool) (hh : s.handlers[i]? = some h)
      (hr : h.status = .waiting retry) :
      SysRun P idx s links log tr →
      SysRun P idx { s with handlers := s.handlers.set i { h with status := .finished .giveUp } }
        links log tr

/-- What must hold for a run to succeed: every request was answered with `Continue` (otherwise the
subprocess, and with it the build, fails) and the final check found no linker invocation that was not
analysed (checker.rs:501-506, main.rs:443-452). -/
def Succeeded (s : Sys) : Prop :=
  (∀ h ∈ s.handlers, h.status = .finished .continue_) ∧ (checkUnused s.checker).isSome

/-- The analysis used scan results of that very binary, made with the API definitions in force. -/
def Analysis.Genuine (P : Parts) (a : Analysis) : Prop :=
  ∃ c o, P.scan c a.li = some o ∧ c.cfg.apis = a.before.cfg.apis ∧
    a.out = { o with apis := a.before.cfg.apis }

/-- The analysis was passed: no problems, which for each API used by a known package means that some
configuration loaded by then grants it, or that all usages are excused ones of a package that is not
a dependency. -/
def Analysis.Passed (idx : Index) (a : Analysis) : Prop :=
  a.problems = [] ∧
  ∀ au ∈ a.out.usages, Known idx au.pkg.name au.scope →
    (∃ cfg, CEv.loaded cfg ∈ a.tr ∧ Grants cfg au.pkg.name au.scope au.api) ∨
    ∀ u ∈ au.usages, ∃ deps, idx.deps.get? au.pkg = some deps ∧
      (∃ pkg, OffTree a.before deps u pkg) ∧ Excused a.before u

/-- The last analysis of the binary was genuine and passed. -/
def AnalysedOk (P : Parts) (idx : Index) (log : List Analysis) (li : LinkInfo) : Prop :=
  ∃ a, log.find? (fun a => a.li = li) = some a ∧ a.Genuine P ∧ a.Passed idx

/-- The English claim C08. -/
def C08_Claim : Prop :=
  ∀ (P : Parts) (idx : Index) (s : Sys) (links : List LinkInfo) (log : List Analysis)
    (tr : List CEv), SysRun P idx s links log tr → Succeeded s →
    ∀ li ∈ links, AnalysedOk P idx log li

/-- The crate of this binary was linked into one file only, or no analysis of its files has found problems, so that nobody was asked to
look at them again. -/
def UnmixedAt (links : List LinkInfo) (log : List Analysis) (li : LinkInfo) : Prop :=
  (∀ li' ∈ links, li'.crate = li.crate → li' = li) ∨ ∀ a ∈ log, a.li.crate = li.crate → a.problems = []

/-- This holds for all binaries. -/
def Unmixed (links : List LinkInfo) (log : List Analysis) : Prop := ∀ li ∈ links, UnmixedAt links log li

/-! ## Lemmas -/

theorem apisUsed_crun {idx : Index} {us : List ApiUsages} {c c' : State} {ps : List Problem}
    {tr : List CEv} (h : apisUsed c us = some (c', ps)) (hr : CRun idx c tr) :
    CRun idx c' ((us.map CEv.used).reverse ++ tr) := by
  induction us generalizing c tr ps with
  | nil =>
    simp only [apisUsed, Option.some.injEq, Prod.mk.injEq] at h
    obtain ⟨rfl, _⟩ := h
    simpa using hr
  | cons au rest ih =>
    unfold apisUsed at h
    split at h
    · cases h
    · rename_i c1 ps1 h1
      split at h
      · cases h
      · rename_i c2 qs h2
        simp only [Option.some.injEq, Prod.mk.injEq] at h
        obtain ⟨rfl, _⟩ := h
        have := ih h2 (.use au ps1 hr h1)
        simpa using this

theorem apisUsed_same {us : List ApiUsages} {c c' : State} {ps : List Problem}
    (h : apisUsed c us = some (c', ps)) :
    c'.outstanding = c.outstanding ∧ c'.paths = c.paths ∧ c'.idx = c.idx ∧ c'.cfg = c.cfg := by
  induction us generalizing c ps with
  | nil =>
    simp only [apisUsed, Option.some.injEq, Prod.mk.injEq] at h
    obtain ⟨rfl, _⟩ := h
    simp
  | cons au rest ih =>
    unfold apisUsed at h
    split at h
    · cases h
    · rename_i c1 ps1 h1
      split at h
      · cases h
      · rename_i c2 qs h2
        simp only [Option.some.injEq, Prod.mk.injEq] at h
        obtain ⟨rfl, _⟩ := h
        have := ih h2
        rcases apiUsed_spec h1 with ⟨_, _, rfl⟩ | ⟨_, rfl⟩ <;> exact this

/-- Every examined usage was examined by `apiUsed` in a state that agrees with the first. -/
theorem apisUsed_each {idx : Index} {us : List ApiUsages} {c c' : State} {ps : List Problem}
    {tr : List CEv} (h : apisUsed c us = some (c', ps)) (hr : CRun idx c tr) (au : ApiUsages)
    (hm : au ∈ us) :
    ∃ c1 c2 ps1 pre, apiUsed c1 au = some (c2, ps1) ∧ CRun idx c1 (pre ++ tr) ∧
      (∀ cfg, CEv.loaded cfg ∉ pre) ∧ c1.paths = c.paths ∧ c1.idx = c.idx ∧ (ps = [] → ps1 = []) := by
  induction us generalizing c tr ps with
  | nil => simp at hm
  | cons x rest ih =>
    unfold apisUsed at h
    split at h
    · cases h
    · rename_i c1 ps1 h1
      split at h
      · cases h
      · rename_i c2 qs h2
        simp only [Option.some.injEq, Prod.mk.injEq] at h
        obtain ⟨rfl, rfl⟩ := h
        rcases List.mem_cons.mp hm with rfl | hm
        · exact ⟨c, c1, ps1, [], h1, hr, by simp, rfl, rfl, by simp +contextual⟩
        · obtain ⟨d1, d2, ps2, pre, e1, e2, e3, e4, e5, e6⟩ := ih h2 (.use x ps1 hr h1) hm
          refine ⟨d1, d2, ps2, pre ++ [.used x], e1, by simpa using e2, ?_, ?_, ?_, ?_⟩
          · intro cfg; simp [e3]
          · rw [e4]
            rcases apiUsed_spec h1 with ⟨_, _, rfl⟩ | ⟨_, rfl⟩ <;> rfl
          · rw [e5]
            rcases apiUsed_spec h1 with ⟨_, _, rfl⟩ | ⟨_, rfl⟩ <;> rfl
          · intro hp
            exact e6 (List.append_eq_nil_iff.mp hp).2

theorem takeLink_some {crate : CrateSel} {l : List LinkInfo} {li : LinkInfo} {rest : List LinkInfo}
    (h : takeLink crate l = some (li, rest)) : li.crate = crate ∧ l.Perm (li :: rest) := by
  induction l generalizing rest with
  | nil => simp [takeLink] at h
  | cons x xs ih =>
    unfold takeLink at h
    split at h
    · rename_i hx
      simp only [Option.some.injEq, Prod.mk.injEq] at h
      obtain ⟨rfl, rfl⟩ := h
      exact ⟨hx, List.Perm.refl _⟩
    · simp only [Option.map_eq_some_iff] at h
      obtain ⟨r, h1, h2⟩ := h
      obtain ⟨li', rest'⟩ := r
      simp only [Prod.mk.injEq] at h2
      obtain ⟨rfl, rfl⟩ := h2
      obtain ⟨h3, h4⟩ := ih h1
      exact ⟨h3, (List.Perm.cons x h4).trans (List.Perm.swap _ _ _)⟩

theorem takeLink_none {crate : CrateSel} {l : List LinkInfo} (h : takeLink crate l = none) :
    ∀ li ∈ l, li.crate ≠ crate := by
  induction l with
  | nil => simp
  | cons x xs ih =>
    unfold takeLink at h
    split at h
    · cases h
    · rename_i hx
      simp only [Option.map_eq_none_iff] at h
      intro li hm
      rcases List.mem_cons.mp hm with rfl | hm
      · exact hx
      · exact ih h li hm

/-- What one completed analysis does. -/
theorem checkLink_spec {scan : State → LinkInfo → Option ScanOut} {c c' : State} {li : LinkInfo}
    {cache : Option ScanOut} {out : ScanOut} {ps : List Problem}
    (h : checkLink scan c li cache = some (c', out, ps)) :
    out.apis = c.cfg.apis ∧
    (cache = some out ∨ ∃ o, scan c li = some o ∧ out = { o with apis := c.cfg.apis }) ∧
    ∃ ps', apisUsed c out.usages = some (c', ps') ∧ (ps = [] → ps' = []) := by
  simp only [checkLink, Option.map_eq_some_iff] at h
  obtain ⟨⟨c1, out1, ps1⟩, h, h'⟩ := h
  simp only [Prod.mk.injEq] at h'
  obtain ⟨rfl, rfl, rfl⟩ := h'
  unfold checkObjects at h
  split at h
  · cases h
  rename_i out2 ho
  simp only [Option.map_eq_some_iff] at h
  obtain ⟨⟨c2, ps2⟩, hs, h'⟩ := h
  simp only [Prod.mk.injEq] at h'
  obtain ⟨rfl, rfl, rfl⟩ := h'
  have hps : ∃ ps', apisUsed c out2.usages = some (c2, ps') ∧ (ps2 = [] → ps' = []) := by
    unfold scanProblems at hs
    split at hs
    · cases hs
    · rename_i c3 ps3 h3
      simp only [Option.some.injEq, Prod.mk.injEq] at hs
      obtain ⟨rfl, rfl⟩ := hs
      exact ⟨ps3, h3, fun e => (List.append_eq_nil_iff.mp e).1⟩
  obtain ⟨ps', hp1, hp2⟩ := hps
  refine ⟨?_, ?_, ps', hp1, fun e => hp2 (List.append_eq_nil_iff.mp e).2⟩
  · unfold graphOutputs at ho
    split at ho
    · rename_i o hc
      simp only [Option.some.injEq] at ho
      subst ho
      simpa using (Option.filter_eq_some_iff.mp hc).2
    · simp only [Option.map_eq_some_iff] at ho
      obtain ⟨o, _, rfl⟩ := ho
      rfl
  · unfold graphOutputs at ho
    split at ho
    · rename_i o hc
      simp only [Option.some.injEq] at ho
      subst ho
      exact .inl (Option.filter_eq_some_iff.mp hc).1
    · simp only [Option.map_eq_some_iff] at ho
      obtain ⟨o, h1, rfl⟩ := ho
      exact .inr ⟨o, h1, rfl⟩

/-- What one call of `rustcComplete` does: nothing to analyse, a failed analysis, or an analysis. -/
theorem rustcComplete_cases (scan : State → LinkInfo → Option ScanOut) (c : State) (crate : CrateSel)
    (paths : List PathC) (cache : Option ScanOut) :
    (takeLink crate c.outstanding = none ∧ rustcComplete scan c crate paths cache =
      ({ c with paths := recordPaths c.paths crate.pkgId paths }, some (cache, []))) ∨
    (∃ li rest, takeLink crate c.outstanding = some (li, rest) ∧
      rustcComplete scan c crate paths cache =
        ({ c with paths := recordPaths c.paths crate.pkgId paths, outstanding := rest }, none)) ∨
    (∃ li rest c' out ps, takeLink crate c.outstanding = some (li, rest) ∧
      checkLink scan { c with paths := recordPaths c.paths crate.pkgId paths, outstanding := rest } li
        cache = some (c', out, ps) ∧
      rustcComplete scan c crate paths cache =
        (if ps = [] then c' else { c' with outstanding := c'.outstanding ++ [li] },
          some (some out, ps))) := by
  unfold rustcComplete
  cases ht : takeLink crate c.outstanding with
  | none => simp [ht]
  | some r =>
    obtain ⟨li, rest⟩ := r
    simp only [ht]
    generalize hc : checkLink scan _ li cache = r
    cases r with
    | none => simp
    | some r =>
      obtain ⟨c', out, ps⟩ := r
      right; right
      refine ⟨li, rest, c', out, ps, rfl, hc, ?_⟩
      by_cases hp : ps = []
      · simp [hp]
      · simp [hp]

/-- What one call of `handle_request` by a handler does. -/
theorem check_cases (P : Parts) (c : State) (tr : List CEv) (h : Handler) :
    (∃ paths st, analysisOf P c tr h = [] ∧
      h.check P c = ({ c with paths := paths, outstanding := c.outstanding ++ linksOf h.req },
        { h with status := st })) ∨
    (∃ crate ps li rest paths', h.req = .rustcComplete crate ps ∧
      takeLink crate c.outstanding = some (li, rest) ∧ analysisOf P c tr h = [] ∧
      h.check P c = ({ c with paths := paths', outstanding := rest }, { h with status := .failed })) ∨
    (∃ crate paths li rest c' out ps st, h.req = .rustcComplete crate paths ∧
      takeLink crate c.outstanding = some (li, rest) ∧
      checkLink P.scan
        { c with paths := recordPaths c.paths crate.pkgId paths, outstanding := rest } li h.cache
        = some (c', out, ps) ∧
      analysisOf P c tr h =
        [⟨li, { c with paths := recordPaths c.paths crate.pkgId paths }, tr, out, ps⟩] ∧
      h.check P c = (if ps = [] then c' else { c' with outstanding := c'.outstanding ++ [li] },
        { h with cache := some out, status := st })) := by
  obtain ⟨req, cache, status⟩ := h
  cases req with
  | rustcComplete crate paths =>
    rcases rustcComplete_cases P.scan c crate paths cache with ⟨h1, h2⟩ | ⟨li, rest, h1, h2⟩ |
      ⟨li, rest, c', out, ps, h1, h2, h3⟩
    · left
      refine ⟨recordPaths c.paths crate.pkgId paths, .finished .continue_, ?_, ?_⟩
      · simp [analysisOf, h1]
      · simp [Handler.check, handleRequest, h2, linksOf]
    · right; left
      refine ⟨crate, paths, li, rest, recordPaths c.paths crate.pkgId paths, rfl, h1, ?_, ?_⟩
      · simp [analysisOf, h1, handleRequest, h2]
      · simp [Handler.check, handleRequest, h2]
    · right; right
      refine ⟨crate, paths, li, rest, c', out, ps,
        if ps = [] then .finished .continue_ else .waiting (shouldSendRetryAll ps), rfl, h1, h2, ?_, ?_⟩
      · simp [analysisOf, h1, handleRequest, h3]
      · simp only [Handler.check, handleRequest, h3]
  | binExecutionComplete crate code output =>
    left
    refine ⟨c.paths, (Handler.check P c ⟨.binExecutionComplete crate code output, cache, status⟩).2.status,
      by simp [analysisOf], ?_⟩
    simp only [Handler.check, handleRequest, linksOf, List.append_nil]
    by_cases h1 : code = 0
    · by_cases h2 : crate.kind = .buildScript
      · cases h3 : P.report c.cfg crate output <;> simp [h1, h2, h3]
      · simp [h1, h2]
    · simp [h1]
  | initial | crateUsesUnsafe | crateUsesExtern | linkerInvoked | rustcStarted =>
    left
    refine ⟨c.paths, ?_⟩
    simp [analysisOf, Handler.check, handleRequest, linksOf]

theorem sys_crun {P : Parts} {idx : Index} {s : Sys} {links : List LinkInfo} {log : List Analysis}
    {tr : List CEv} (h : SysRun P idx s links log tr) : CRun idx s.checker tr := by
  induction h with
  | init => exact .init
  | load cfg hn _ ih => exact .load cfg hn ih
  | start _ _ ih => exact ih
  | @check s links log tr i h hh hr _ ih =>
    rcases check_cases P s.checker tr h with ⟨paths, st, h1, h2⟩ |
      ⟨crate, ps, li, rest, paths', _, _, h1, h2⟩ |
      ⟨crate, paths, li, rest, c', out, ps, st, _, _, h0, h1, h2⟩
    · simp only [usedBy, h1, h2]
      exact .other _ _ ih
    · simp only [usedBy, h1, h2]
      exact .other _ _ ih
    · simp only [usedBy, h1, h2]
      obtain ⟨_, _, ps', h3, _⟩ := checkLink_spec h0
      have := apisUsed_crun h3 (.other _ _ ih)
      simp only [List.flatMap_cons, List.flatMap_nil, List.append_nil]
      split
      · exact this
      · exact .other c'.paths _ this
  | resume i h retry hh hr cfg hn _ ih => exact .load cfg hn ih
  | resumeBad i h retry hh hr _ ih => exact ih
  | giveUp i h retry hh hr _ ih => exact ih

/-- A passed analysis. -/
theorem passed_of_check {P : Parts} {idx : Index} {c : State} {tr : List CEv} (hr : CRun idx c tr)
    {li : LinkInfo} {cache : Option ScanOut} {c' : State} {out : ScanOut} {ps : List Problem}
    (h : checkLink P.scan c li cache = some (c', out, ps)) (before : State)
    (hb : before.paths = c.paths ∧ before.idx = c.idx) (he : ps = []) :
    Analysis.Passed idx ⟨li, before, tr, out, ps⟩ := by
  refine ⟨he, ?_⟩
  intro au hm hk
  obtain ⟨_, _, ps', h3, h4⟩ := checkLink_spec h
  obtain ⟨c1, c2, ps1, pre, h5, h6, h7, h8, h9, h10⟩ := apisUsed_each h3 hr au hm
  have h11 := h10 (h4 he)
  subst h11
  have hC := C06_api_use_reported idx c1 _ h6 au hk
  by_cases hg : ∃ cfg, CEv.loaded cfg ∈ pre ++ tr ∧ Grants cfg au.pkg.name au.scope au.api
  · left
    obtain ⟨cfg, hc, hg⟩ := hg
    rcases List.mem_append.mp hc with hc | hc
    · exact absurd hc (h7 cfg)
    · exact ⟨cfg, hc, hg⟩
  · right
    have hng : ∀ cfg, CEv.loaded cfg ∈ pre ++ tr → ¬ Grants cfg au.pkg.name au.scope au.api :=
      fun cfg hc hx => hg ⟨cfg, hc, hx⟩
    obtain ⟨hd1, hd2⟩ := hC.2 hng
    intro u hu
    cases hdeps : idx.deps.get? au.pkg with
    | none =>
      have := hd1 hdeps
      rw [h5] at this
      have hne : au.usages ≠ [] := fun e => by rw [e] at hu; simp at hu
      simp [hne] at this
    | some deps =>
      refine ⟨deps, rfl, ?_⟩
      have hx := ((hd2 deps hdeps).2 c2 [] h5).1
      classical
      have hperm := hx (fun u => !decide ((∃ pkg, OffTree c1 deps u pkg) ∧ Excused c1 u)) (by simp)
      have hnil := List.Perm.nil_eq hperm
      have hmem : ¬ u ∈ au.usages.filter
          (fun u => !decide ((∃ pkg, OffTree c1 deps u pkg) ∧ Excused c1 u)) := by
        rw [← hnil]; simp
      simp only [List.mem_filter, hu, true_and, Bool.not_eq_eq_eq_not, Bool.not_true,
        decide_eq_false_iff_not, Classical.not_not] at hmem
      obtain ⟨⟨pkg, ho⟩, hexc⟩ := hmem
      constructor
      · refine ⟨pkg, ?_⟩
        simpa [OffTree, hb.2, h9] using ho
      · have hpk : ∀ p, pkgIdsFromPath c1 p = pkgIdsFromPath before p := by
          intro p; simp [pkgIdsFromPath, hb, h8, h9]
        simpa [Excused, hpk] using hexc

/-- The scan results kept by a handler are of a binary of its crate. -/
def CacheOk (P : Parts) (links : List LinkInfo) (h : Handler) : Prop :=
  ∀ o, h.cache = some o → ∃ crate paths, h.req = .rustcComplete crate paths ∧
    ∃ li ∈ links, li.crate = crate ∧
      ∃ c o', P.scan c li = some o' ∧ o = { o' with apis := c.cfg.apis }

theorem CacheOk.mono {P : Parts} {links links' : List LinkInfo} {h : Handler}
    (hc : CacheOk P links h) (hm : ∀ li ∈ links, li ∈ links') : CacheOk P links' h := by
  intro o ho
  obtain ⟨crate, paths, h1, li, h2, h3, h4⟩ := hc o ho
  exact ⟨crate, paths, h1, li, hm li h2, h3, h4⟩

theorem mem_set_cases {α : Type} {l : List α} {i : Nat} {a x : α} (h : x ∈ l.set i a) :
    x = a ∨ x ∈ l := by
  rcases List.mem_or_eq_of_mem_set h with h | h
  · exact .inr h
  · exact .inl h

/-- A handler whose state changes was not failed, so failed ones stay. -/
theorem failed_stays {l : List Handler} {i : Nat} {h h' : Handler} (hh : l[i]? = some h)
    (hr : h.status ≠ .failed) (hf : ∃ x ∈ l, x.status = .failed) :
    ∃ x ∈ l.set i h', x.status = .failed := by
  obtain ⟨x, hx, hxs⟩ := hf
  obtain ⟨j, hj⟩ := List.mem_iff_getElem?.mp hx
  have hne : i ≠ j := by
    rintro rfl
    rw [hh] at hj
    cases hj
    exact hr hxs
  refine ⟨x, List.mem_iff_getElem?.mpr ⟨j, ?_⟩, hxs⟩
  rw [List.getElem?_set_ne hne]
  exact hj

structure SInv (P : Parts) (idx : Index) (s : Sys) (links : List LinkInfo) (log : List Analysis) :
    Prop where
  out : ∀ li ∈ s.checker.outstanding, li ∈ links
  caches : ∀ h ∈ s.handlers, CacheOk P links h
  genuine : ∀ a ∈ log, (UnmixedAt links log a.li → a.Genuine P) ∧ (a.problems = [] → a.Passed idx)
  acc : ∀ li ∈ links, li ∈ s.checker.outstanding ∨
    (∃ a, log.find? (fun a => a.li = li) = some a ∧ a.problems = []) ∨
    ∃ h ∈ s.handlers, h.status = .failed

theorem crate_unique {links : List LinkInfo} (hn : (links.map LinkInfo.crate).Nodup) {a b : LinkInfo}
    (ha : a ∈ links) (hb : b ∈ links) (h : a.crate = b.crate) : a = b := by
  induction links with
  | nil => simp at ha
  | cons x rest ih =>
    simp only [List.map_cons, List.nodup_cons, List.mem_map, not_exists, not_and] at hn
    rcases List.mem_cons.mp ha with ha' | ha' <;> rcases List.mem_cons.mp hb with hb' | hb'
    · rw [ha', hb']
    · subst ha'; exact absurd h.symm (hn.1 b hb')
    · subst hb'; exact absurd h (hn.1 a ha')
    · exact ih hn.2 ha' hb'

theorem Unmixed.of_nodup {links : List LinkInfo} (hn : (links.map LinkInfo.crate).Nodup) (log : List Analysis) : Unmixed links log :=
  fun li hli => .inl (fun _ hli' e => crate_unique hn hli' hli e)

theorem UnmixedAt.before {links links' : List LinkInfo} {log log' : List Analysis} {li : LinkInfo}
    (h : UnmixedAt (links' ++ links) (log' ++ log) li) : UnmixedAt links log li := by
  rcases h with h | h
  · exact .inl (fun li' h' e => h li' (List.mem_append_right _ h') e)
  · exact .inr (fun a ha e => h a (List.mem_append_right _ ha) e)

/-- After an analysis that found nothing the handler is done. -/
theorem check_done {P : Parts} {c : State} {tr : List CEv} {h : Handler} {a : Analysis} (ha : a ∈ analysisOf P c tr h)
    (hp : a.problems = []) : (h.check P c).2.status = .finished .continue_ := by
  unfold analysisOf at ha
  split at ha
  · rename_i crate paths hreq
    simp only at ha
    split at ha
    · rename_i li rest c' out ps h1 h2
      simp only [List.mem_singleton] at ha
      subst ha
      simp only at hp
      subst hp
      unfold Handler.check
      rw [h2]
      rfl
    · cases ha
  · cases ha

/-- A handler that keeps scan results and is not done has found problems in a binary of its crate. -/
def Asked (log : List Analysis) (h : Handler) : Prop :=
  h.cache ≠ none → (h.status ≠ .running ∧ ∀ retry, h.status ≠ .waiting retry) ∨
    ∃ crate paths, h.req = .rustcComplete crate paths ∧ ∃ a ∈ log, a.li.crate = crate ∧ a.problems ≠ []

theorem sys_asked {P : Parts} {idx : Index} {s : Sys} {links : List LinkInfo} {log : List Analysis} {tr : List CEv}
    (h : SysRun P idx s links log tr) : ∀ h ∈ s.handlers, Asked log h := by
  have mono : ∀ {log log' : List Analysis} {h : Handler}, Asked log h → Asked (log' ++ log) h := by
    intro log log' h ha hc
    rcases ha hc with h | ⟨crate, paths, h1, a, h2, h3⟩
    · exact .inl h
    · exact .inr ⟨crate, paths, h1, a, List.mem_append_right _ h2, h3⟩
  have waits : ∀ {log : List Analysis} {h : Handler} {retry : Bool} {st : Status}, Asked log h → h.status = .waiting retry →
      Asked log { h with status := st } := by
    intro log h retry st ha hs hc
    rcases ha hc with h | h
    · exact absurd hs (h.2 retry)
    · exact .inr h
  induction h with
  | init => intro h hm; cases hm
  | load cfg _ _ ih => exact ih
  | start req _ ih =>
    intro h hm
    rcases List.mem_append.mp hm with hm | hm
    · exact ih h hm
    · rw [List.mem_singleton.mp hm]
      intro hc
      exact absurd rfl hc
  | @check s links log tr i h hh hr hrun ih =>
    intro x hx
    have hmem : h ∈ s.handlers := List.mem_of_getElem? hh
    rcases mem_set_cases hx with rfl | hx
    · rcases check_cases P s.checker tr h with ⟨paths, st, g1, g2⟩ |
        ⟨crate, ps, li, rest, paths', g0, gt, g1, g2⟩ |
        ⟨crate, paths, li, rest, c', out, ps, st, g0, gt, gc, g1, g2⟩
      · rw [g2]
        intro hc
        rcases ih h hmem hc with h | h
        · exact absurd hr h.1
        · obtain ⟨crate, paths, h1, a, h2, h3⟩ := h
          exact .inr ⟨crate, paths, h1, a, List.mem_append_right _ h2, h3⟩
      · rw [g2]
        intro _
        exact .inl ⟨(by simp), (by simp)⟩
      · by_cases hp : ps = []
        · have := check_done (P := P) (c := s.checker) (tr := tr) (h := h) (by rw [g1]; exact List.mem_singleton_self _) hp
          intro _
          exact .inl ⟨(by rw [this]; simp), (by rw [this]; simp)⟩
        · rw [g2]
          intro _
          refine .inr ⟨crate, paths, g0, _, List.mem_append_left _ (by rw [g1]; exact List.mem_singleton_self _), ?_, hp⟩
          exact (takeLink_some gt).1
    · exact mono (ih x hx)
  | @resume s links log tr i h retry hh hr cfg hnn _ ih =>
    intro x hx
    rcases mem_set_cases hx with rfl | hx
    · exact waits (ih h (List.mem_of_getElem? hh)) hr
    · exact ih x hx
  | @resumeBad s links log tr i h retry hh hr _ ih =>
    intro x hx
    rcases mem_set_cases hx with rfl | hx
    · exact waits (ih h (List.mem_of_getElem? hh)) hr
    · exact ih x hx
  | @giveUp s links log tr i h retry hh hr _ ih =>
    intro x hx
    rcases mem_set_cases hx with rfl | hx
    · exact waits (ih h (List.mem_of_getElem? hh)) hr
    · exact ih x hx

/-- Scan results that are used again are of the binary for which they were made. -/
theorem same_binary {P : Parts} {idx : Index} {s : Sys} {links : List LinkInfo} {log : List Analysis} {tr : List CEv}
    (hrun : SysRun P idx s links log tr) {li : LinkInfo} (hu : UnmixedAt links log li) {h : Handler} (hm : h ∈ s.handlers) (hr : h.status = .running)
    {out : ScanOut} (hc : h.cache = some out) {crate : CrateSel} {paths : List PathC} (hreq : h.req = .rustcComplete crate paths)
    {li' : LinkInfo} (hli' : li' ∈ links) (e : li.crate = crate) (e' : li'.crate = crate) : li' = li := by
  rcases hu with h' | h'
  · exact h' li' hli' (e'.trans e.symm)
  · rcases sys_asked hrun h hm (by rw [hc]; simp) with h1 | ⟨cr, pa, h1, a, h2, h3, h4⟩
    · exact absurd hr h1.1
    · rw [hreq] at h1
      cases h1
      exact absurd (h' a h2 (h3.trans e.symm)) h4

theorem sys_inv {P : Parts} {idx : Index} {s : Sys} {links : List LinkInfo} {log : List Analysis}
    {tr : List CEv} (h : SysRun P idx s links log tr) :
    SInv P idx s links log := by
  induction h with
  | init => exact ⟨by simp, by simp, by simp, by simp⟩
  | load cfg _ _ ih =>
    obtain ⟨h1, h2, h3, h4⟩ := ih
    exact ⟨h1, h2, h3, h4⟩
  | start req _ ih =>
    obtain ⟨h1, h2, h3, h4⟩ := ih
    refine ⟨h1, ?_, h3, ?_⟩
    · intro h hm
      rcases List.mem_append.mp hm with hm | hm
      · exact h2 h hm
      · simp only [List.mem_singleton] at hm
        subst hm
        intro o ho
        cases ho
    · intro li hm
      rcases h4 li hm with h | h | ⟨x, hx, hxs⟩
      · exact .inl h
      · exact .inr (.inl h)
      · exact .inr (.inr ⟨x, List.mem_append_left _ hx, hxs⟩)
  | @check s links log tr i h hh hr hrun ih =>
    obtain ⟨h1, h2, h3, h4⟩ := ih
    have hmem : h ∈ s.handlers := List.mem_of_getElem? hh
    have hnf : h.status ≠ .failed := by rw [hr]; simp
    have hcr := sys_crun hrun
    rcases check_cases P s.checker tr h with ⟨paths, st, g1, g2⟩ |
      ⟨crate, ps, li, rest, paths', g0, gt, g1, g2⟩ |
      ⟨crate, paths, li, rest, c', out, ps, st, g0, gt, gc, g1, g2⟩
    · rw [g1, g2]
      refine ⟨?_, ?_, fun a ha => ⟨fun hu => (h3 a ha).1 hu.before, (h3 a ha).2⟩, ?_⟩
      · intro l hl
        rcases List.mem_append.mp hl with hl | hl
        · exact List.mem_append_right _ (h1 l hl)
        · exact List.mem_append_left _ hl
      · intro x hx
        rcases mem_set_cases hx with rfl | hx
        · exact CacheOk.mono (h2 h hmem) (fun l hl => List.mem_append_right _ hl)
        · exact CacheOk.mono (h2 x hx) (fun l hl => List.mem_append_right _ hl)
      · intro l hl
        rcases List.mem_append.mp hl with hl | hl
        · exact .inl (List.mem_append_right _ hl)
        · rcases h4 l hl with h | h | h
          · exact .inl (List.mem_append_left _ h)
          · exact .inr (.inl h)
          · exact .inr (.inr (failed_stays hh hnf h))
    · rw [g1, g2]
      have hnl : linksOf h.req = [] := by rw [g0]; rfl
      obtain ⟨e1, e2⟩ := takeLink_some gt
      rw [hnl]
      refine ⟨?_, ?_, h3, ?_⟩
      · intro l hl
        exact h1 l (e2.symm.subset (List.mem_cons_of_mem _ hl))
      · intro x hx
        rcases mem_set_cases hx with rfl | hx
        · exact h2 h hmem
        · exact h2 x hx
      · intro l hl
        right; right
        refine ⟨{ h with status := .failed }, List.mem_iff_getElem?.mpr ⟨i, ?_⟩, rfl⟩
        rw [List.getElem?_set_self]
        exact (List.getElem?_eq_some_iff.mp hh).1
    · rw [g1, g2]
      have hnl : linksOf h.req = [] := by rw [g0]; rfl
      obtain ⟨e1, e2⟩ := takeLink_some gt
      have hli : li ∈ links := h1 li (e2.symm.subset (List.mem_cons_self ..))
      obtain ⟨k1, k2, ps', k3, k4⟩ := checkLink_spec gc
      have hout : c'.outstanding = rest := (apisUsed_same k3).1
      rw [hnl]
      -- the scan results are those of this very binary
      have hgen : ∃ li' ∈ links, li'.crate = li.crate ∧ (UnmixedAt links log li → li' = li) ∧
          ∃ c o, P.scan c li' = some o ∧ c.cfg.apis = s.checker.cfg.apis ∧ out = { o with apis := s.checker.cfg.apis } := by
        rcases k2 with k2 | ⟨o, k2, k2'⟩
        · obtain ⟨cr, pa, q1, li', q2, q3, c0, o', q4, q5⟩ := h2 h hmem out k2
          rw [g0] at q1
          cases q1
          have hap : c0.cfg.apis = s.checker.cfg.apis := by rw [← k1, q5]
          exact ⟨li', q2, q3.trans e1.symm, fun hu => same_binary hrun hu hmem hr k2 g0 q2 e1 q3, c0, o', q4, hap, by rw [q5, hap]⟩
        · exact ⟨li, hli, rfl, fun _ => rfl, _, o, k2, rfl, k2'⟩
      refine ⟨?_, ?_, ?_, ?_⟩
      · intro l hl
        have : l ∈ rest ∨ l = li := by
          by_cases hp : ps = []
          · simp only [hp, if_true] at hl
            rw [hout] at hl
            exact .inl hl
          · simp only [hp, if_false] at hl
            rw [hout] at hl
            simpa using hl
        rcases this with hl | rfl
        · exact h1 l (e2.symm.subset (List.mem_cons_of_mem _ hl))
        · exact hli
      · intro x hx
        rcases mem_set_cases hx with rfl | hx
        · intro o ho
          simp only [Option.some.injEq] at ho
          subst ho
          obtain ⟨li', p1, p2, _, c0, o', q1, q2, q3⟩ := hgen
          exact ⟨crate, paths, g0, li', p1, p2.trans e1, c0, o', q1, by rw [q3, q2]⟩
        · exact h2 x hx
      · intro a ha
        rcases List.mem_append.mp ha with ha | ha
        · simp only [List.mem_singleton] at ha
          subst ha
          refine ⟨fun hu => ?_, fun he => ?_⟩
          · obtain ⟨li', _, _, p3, c0, o', q1, q2, q3⟩ := hgen
            obtain rfl := p3 (hu.before (links' := []) (log' := [_]))
            exact ⟨c0, o', q1, q2, q3⟩
          · exact passed_of_check (.other _ _ hcr) gc _ ⟨rfl, rfl⟩ he
        · exact ⟨fun hu => (h3 a ha).1 (hu.before (links' := []) (log' := [_])), (h3 a ha).2⟩
      · intro l hl
        simp only [List.nil_append] at hl
        by_cases hlli : l = li
        · subst hlli
          by_cases hp : ps = []
          · right; left
            exact ⟨_, by simp; rfl, hp⟩
          · left
            simp [hp]
        · rcases h4 l hl with h | h | h
          · left
            have : l ∈ rest := by
              rcases List.mem_cons.mp (e2.subset h) with h | h
              · exact absurd h hlli
              · exact h
            split
            · rw [hout]; exact this
            · simp [hout, this]
          · right; left
            obtain ⟨a, ha, hap⟩ := h
            refine ⟨a, ?_, hap⟩
            simp only [List.singleton_append]
            rw [List.find?_cons_of_neg (by simpa using fun e => hlli e.symm)]
            exact ha
          · exact .inr (.inr (failed_stays hh hnf h))
  | @resume s links log tr i h retry hh hr cfg hnn _ ih =>
    obtain ⟨h1, h2, h3, h4⟩ := ih
    have hnf : h.status ≠ .failed := by rw [hr]; simp
    refine ⟨h1, ?_, h3, ?_⟩
    · intro x hx
      rcases mem_set_cases hx with rfl | hx
      · exact h2 h (List.mem_of_getElem? hh)
      · exact h2 x hx
    · intro l hl
      rcases h4 l hl with h | h | h
      · exact .inl h
      · exact .inr (.inl h)
      · exact .inr (.inr (failed_stays hh hnf h))
  | @resumeBad s links log tr i h retry hh hr _ ih =>
    obtain ⟨h1, h2, h3, h4⟩ := ih
    have hnf : h.status ≠ .failed := by rw [hr]; simp
    refine ⟨h1, ?_, h3, ?_⟩
    · intro x hx
      rcases mem_set_cases hx with rfl | hx
      · exact h2 h (List.mem_of_getElem? hh)
      · exact h2 x hx
    · intro l hl
      rcases h4 l hl with h | h | h
      · exact .inl h
      · exact .inr (.inl h)
      · exact .inr (.inr (failed_stays hh hnf h))
  | @giveUp s links log tr i h retry hh hr _ ih =>
    obtain ⟨h1, h2, h3, h4⟩ := ih
    have hnf : h.status ≠ .failed := by rw [hr]; simp
    refine ⟨h1, ?_, h3, ?_⟩
    · intro x hx
      rcases mem_set_cases hx with rfl | hx
      · exact h2 h (List.mem_of_getElem? hh)
      · exact h2 x hx
    · intro l hl
      rcases h4 l hl with h | h | h
      · exact .inl h
      · exact .inr (.inl h)
      · exact .inr (.inr (failed_stays hh hnf h))

/-- **C08 (partial).** In every successful run the last analysis of each linked binary used scan results of
that binary made with the API definitions then in force, and found no problems, if its crate was linked
into no other file or no problems were found in its files. Missing: binaries that share a crate selector
if there were problems, see `C08_binary_not_analysed`. -/
theorem C08_linked_analysed_partial (P : Parts) (idx : Index) (s : Sys) (links : List LinkInfo)
    (log : List Analysis) (tr : List CEv) (h : SysRun P idx s links log tr) (hs : Succeeded s)
    (li : LinkInfo) (hli : li ∈ links) (hn : UnmixedAt links log li) :
    AnalysedOk P idx log li := by
  obtain ⟨h1, h2, h3, h4⟩ := sys_inv h
  rcases h4 li hli with h | ⟨a, ha, hp⟩ | ⟨x, hx, hxs⟩
  · have : s.checker.outstanding = [] := by
      have := hs.2
      unfold checkUnused at this
      split at this
      · simp at this
      · rename_i hne
        simpa using hne
    rw [this] at h
    simp at h
  · have := h3 a (List.mem_of_find?_eq_some ha)
    exact ⟨a, ha, this.1 ((show a.li = li by simpa using List.find?_some ha) ▸ hn), this.2 hp⟩
  · have := hs.1 x hx
    rw [hxs] at this
    cases this

/-! ## The disagreement, and non-vacuity

Package `a` produces two binaries `x` (which uses `fs`) and `y` (which uses `net`). -/
namespace C08Ex

def pa : PkgId := ⟨str! "a", str! "1.0.0", true⟩
def idx : Index := { pkgs := [⟨str! "a", false, false⟩] }
def crate : CrateSel := ⟨pa, .primary⟩
def usage : ApiUsage :=
  { address := 0, symbolStart := 0, binPath := [], scope := .all, loc := ⟨[], 0, none⟩, outer := none,
    from_ := .symbol [], to := .symbol [], toName := [str! "std"], toSource := .symbol [] }
def fsUse : ApiUsages := ⟨pa, .all, str! "fs", [usage]⟩
def netUse : ApiUsages := ⟨pa, .all, str! "net", [usage]⟩
def P : Parts :=
  { scan := fun _ li => some { usages := if li.outputFile = str! "x" then [fsUse] else [netUse] }
    report := fun _ _ _ => some [] }
def x : LinkInfo := ⟨crate, str! "x", []⟩
def y : LinkInfo := ⟨crate, str! "y", []⟩
/-- The user allows `fs`, but not `net`. -/
def cfg : Raw := { packages := [(str! "a", .leaf { allowApis := [str! "fs"] })] }
theorem cfg_nodup : cfg.packages.keys.Nodup := by decide

theorem succeeded_of {s : Sys} {n : Nat}
    (h1 : s.handlers.map Handler.status = List.replicate n (.finished .continue_))
    (h2 : s.checker.outstanding = []) : Succeeded s := by
  constructor
  · intro h hm
    have : h.status ∈ s.handlers.map Handler.status := List.mem_map.mpr ⟨h, hm, rfl⟩
    rw [h1] at this
    exact (List.mem_replicate.mp this).2
  · simp [checkUnused, h2]

/-- Both binaries are linked; two completed compilations are handled concurrently. -/
theorem bad_run : ∃ s log tr, SysRun P idx s [y, x] log tr ∧ Succeeded s ∧
    (log.find? (fun a => a.li = y)).map (fun a => a.out.usages) = some [fsUse] := by
  have r : SysRun P idx _ _ _ _ := .load {} (by simp [AMap.keys]) .init
  have r := SysRun.start (.linkerInvoked x) r
  have r := SysRun.check 0 _ rfl rfl r
  have r := SysRun.start (.rustcComplete crate []) r
  have r := SysRun.check 1 _ rfl rfl r
  have r := SysRun.start (.linkerInvoked y) r
  have r := SysRun.check 2 _ rfl rfl r
  have r := SysRun.start (.rustcComplete crate []) r
  have r := SysRun.check 3 _ rfl rfl r
  have r := SysRun.resume 1 _ _ rfl rfl cfg cfg_nodup r
  have r := SysRun.check 1 _ rfl rfl r
  have r := SysRun.resume 3 _ _ rfl rfl cfg cfg_nodup r
  have r := SysRun.check 3 _ rfl rfl r
  refine ⟨_, _, _, r, succeeded_of (n := 4) (by decide +kernel) (by decide +kernel), by decide +kernel⟩

/-- The same with a single binary: the run is a legitimate success. -/
theorem good_run : ∃ s log tr, SysRun P idx s [x] log tr ∧ Succeeded s := by
  have r : SysRun P idx _ _ _ _ := .load {} (by simp [AMap.keys]) .init
  have r := SysRun.start (.linkerInvoked x) r
  have r := SysRun.check 0 _ rfl rfl r
  have r := SysRun.start (.rustcComplete crate []) r
  have r := SysRun.check 1 _ rfl rfl r
  have r := SysRun.resume 1 _ _ rfl rfl cfg cfg_nodup r
  have r := SysRun.check 1 _ rfl rfl r
  exact ⟨_, _, _, r, succeeded_of (n := 2) rfl rfl⟩

/-- The user has allowed both. -/
def cfg2 : Raw := { packages := [(str! "a", .leaf { allowApis := [str! "fs", str! "net"] })] }

/-- Both binaries are linked before the first completed compilation is handled: this is a legitimate success too. -/
theorem good_both : ∃ s log tr, SysRun P idx s [y, x] log tr ∧ Succeeded s ∧ ∀ a ∈ log, a.problems = [] := by
  have r : SysRun P idx _ _ _ _ := .load cfg2 (by decide) .init
  have r := SysRun.start (.linkerInvoked x) r
  have r := SysRun.start (.linkerInvoked y) r
  have r := SysRun.check 0 _ rfl rfl r
  have r := SysRun.check 1 _ rfl rfl r
  have r := SysRun.start (.rustcComplete crate []) r
  have r := SysRun.start (.rustcComplete crate []) r
  have r := SysRun.check 3 _ rfl rfl r
  have r := SysRun.check 2 _ rfl rfl r
  exact ⟨_, _, _, r, succeeded_of (n := 4) (by decide +kernel) (by decide +kernel), by decide +kernel⟩

end C08Ex

/-- **C08, disagreement.** There is a successful run in which a linked binary that uses an API that no
configuration grants was never scanned: the results of the other binary of the same crate were used. -/
theorem C08_binary_not_analysed : ¬ C08_Claim := by
  intro hc
  obtain ⟨s, log, tr, hr, hs, hau⟩ := C08Ex.bad_run
  obtain ⟨a, ha, hu⟩ := Option.map_eq_some_iff.mp hau
  obtain ⟨b, hb, ⟨c, o, h1, _, h3⟩, _⟩ := hc _ _ s _ log tr hr hs C08Ex.y (by simp)
  rw [ha] at hb
  cases hb
  have hl : a.li = C08Ex.y := by simpa using List.find?_some ha
  rw [hl] at h1
  have : o = { usages := [C08Ex.netUse] } := by
    have h2 : C08Ex.P.scan c C08Ex.y = some { usages := [C08Ex.netUse] } := rfl
    rw [h2] at h1
    exact (Option.some.inj h1).symm
  subst this
  rw [h3] at hu
  simp only [List.cons.injEq, and_true] at hu
  exact absurd hu (by decide)

example : ∃ s log tr, SysRun C08Ex.P C08Ex.idx s [C08Ex.x] log tr ∧ Succeeded s ∧
    AnalysedOk C08Ex.P C08Ex.idx log C08Ex.x := by
  obtain ⟨s, log, tr, hr, hs⟩ := C08Ex.good_run
  exact ⟨s, log, tr, hr, hs, C08_linked_analysed_partial _ _ s _ log tr hr hs _ (by simp) (Unmixed.of_nodup (by simp) _ _ (by simp))⟩

example : ∃ s log tr, SysRun C08Ex.P C08Ex.idx s [C08Ex.y, C08Ex.x] log tr ∧ Succeeded s ∧
    ∀ li ∈ [C08Ex.y, C08Ex.x], AnalysedOk C08Ex.P C08Ex.idx log li := by
  obtain ⟨s, log, tr, hr, hs, hp⟩ := C08Ex.good_both
  exact ⟨s, log, tr, hr, hs, fun _ h => C08_linked_analysed_partial _ _ s _ log tr hr hs _ h (.inr (fun a ha _ => hp a ha))⟩

end Cackle.Checker
