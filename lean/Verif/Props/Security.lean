import Verif.Props.EndToEnd
import Verif.Props.Server

/-!
# C122: a build that succeeds uses only permitted APIs

The analysis of binaries (C77), the handling of requests (C08), the server (C109) and the phases of a run (C15) together.
-/

namespace Cackle.Security
open Cackle Checker Config Perm
open Cackle.ApiMap (Api)
open Cackle.Graph (Bin Obj UsesApi SamePlace OnTree Agrees scanBin Key Single)

/-! ## Specification -/

/-- The parts of the checker, with binaries and object files as they are on disk. `order` is the order in which maps are iterated over;
it may be different each time. -/
def parts (disk : LinkInfo → Option (Bin × List Obj)) (n : Nat)
    (order : State → LinkInfo → AMap Key (List Single) → List (Key × List Single))
    (report : Raw → CrateSel → Str → Option (List Problem)) : Parts where
  scan c li :=
    match disk li with
    | none => none
    | some (b, objs) =>
      match scanBin c n (order c li) { b with crate := li.crate } objs with
      | .ok out => some out
      | _ => none
  report := report

/-- One step of the checker and the handlers of requests. -/
inductive Step (P : Parts) : Sys → Sys → Prop where
  | load {s : Sys} (cfg : Raw) : Step P s { s with checker := updateConfig s.checker cfg }
  | start {s : Sys} (req : Request) : Step P s { s with handlers := s.handlers ++ [{ req := req }] }
  | check {s : Sys} (i : Nat) (h : Handler) : s.handlers[i]? = some h → h.status = .running →
      Step P s { checker := (h.check P s.checker).1, handlers := s.handlers.set i (h.check P s.checker).2 }
  | resume {s : Sys} (i : Nat) (h : Handler) (retry : Bool) (cfg : Option Raw) : s.handlers[i]? = some h →
      h.status = .waiting retry →
      Step P s { checker := (h.resume s.checker retry cfg).1, handlers := s.handlers.set i (h.resume s.checker retry cfg).2 }
  | giveUp {s : Sys} (i : Nat) (h : Handler) (retry : Bool) : s.handlers[i]? = some h → h.status = .waiting retry →
      Step P s { s with handlers := s.handlers.set i { h with status := .finished .giveUp } }

/-- What can come later. -/
inductive Later (P : Parts) (s : Sys) : Sys → Prop where
  | refl : Later P s s
  | step {s' s'' : Sys} : Later P s s' → Step P s' s'' → Later P s s''

/-- At some time before `s`, when the linking of the binary had been reported and the compiler had told the source files of its crate, this was
the state of the checker. `tr` is what had happened to the checker by then. -/
def During (P : Parts) (idx : Index) (s : Sys) (li : LinkInfo) (c : State) (tr : List CEv) : Prop :=
  ∃ s0 links log paths rest, SysRun P idx s0 links log tr ∧ Later P s0 s ∧ li ∈ s0.checker.outstanding ∧
    c = { s0.checker with paths := recordPaths s0.checker.paths li.crate.pkgId paths, outstanding := rest }

/-- What each package uses in this binary is granted to it. The files are attributed to packages, and functions to APIs, as in `c`. -/
def OnlyPermitted (idx : Index) (granted : Str → Scope → Api → Prop) (c : State) (crate : CrateSel) (b : Bin) (objs : List Obj) : Prop :=
  ∀ (pkg : PkgId) (a : Api) (loc : SourceLoc) (name : List Str), UsesApi c b objs pkg a loc name →
    Known idx pkg.name (determine pkg crate) → OnTree idx pkg name → granted pkg.name (determine pkg crate) a

/-- The same, but only for places where nothing is used by the name of a package that is not a dependency. -/
def OnlyPermittedOnTree (idx : Index) (granted : Str → Scope → Api → Prop) (c : State) (crate : CrateSel) (b : Bin) (objs : List Obj) : Prop :=
  ∀ (pkg : PkgId) (a : Api) (loc : SourceLoc) (name : List Str), UsesApi c b objs pkg a loc name →
    Known idx pkg.name (determine pkg crate) →
    (∀ l m, SamePlace l loc → UsesApi c b objs pkg a l m → OnTree idx pkg m) → granted pkg.name (determine pkg crate) a

/-- Some configuration that was loaded grants it. -/
def GrantedIn (tr : List CEv) (pkg : Str) (s : Scope) (a : Api) : Prop := ∃ cfg, CEv.loaded cfg ∈ tr ∧ Grants cfg pkg s a

/-- Debug info names inlined functions as it names their symbols. -/
def NamesAgree (b : Bin) : Prop := ∀ f ∈ b.inlined, Agrees b f.from_ ∧ Agrees b f.to

/-- The English claim C122: after a successful run in which each crate was linked once, the configuration in force at the end grants to each
package what it uses in each linked binary, with source files attributed to packages as at the last analysis of the binary. -/
def C122_Claim : Prop :=
  ∀ (disk : LinkInfo → Option (Bin × List Obj)) (n : Nat)
    (order : State → LinkInfo → AMap Key (List Single) → List (Key × List Single)) (report : Raw → CrateSel → Str → Option (List Problem))
    (idx : Index) (s : Sys) (links : List LinkInfo) (log : List Analysis) (tr : List CEv),
    (∀ c li g, (order c li g).Perm g) → SysRun (parts disk n order report) idx s links log tr → Succeeded s →
    (∀ cfg, CEv.loaded cfg ∈ tr → cfg.apis.keys.Nodup) → (links.map LinkInfo.crate).Nodup →
    ∀ li ∈ links, ∃ a b objs, log.find? (fun a => a.li = li) = some a ∧ disk li = some (b, objs) ∧
      (NamesAgree b → OnlyPermitted idx (Grants s.checker.cfg) { a.before with cfg := s.checker.cfg } li.crate b objs)

/-! ## Lemmas -/

theorem During.step {P : Parts} {idx : Index} {s s' : Sys} {li : LinkInfo} {c : State} {tr : List CEv}
    (h : During P idx s li c tr) (hs : Step P s s') : During P idx s' li c tr := by
  obtain ⟨s0, l, g, p, r, h1, h2, h3, h4⟩ := h
  exact ⟨s0, l, g, p, r, h1, .step h2 hs, h3, h4⟩

/-- Scan results of this binary, made during the run. -/
def Own (P : Parts) (idx : Index) (s : Sys) (tr : List CEv) (li : LinkInfo) (o : ScanOut) : Prop :=
  ∃ c tr0 o', During P idx s li c tr0 ∧ tr0 <:+ tr ∧ P.scan c li = some o' ∧ o = { o' with apis := c.cfg.apis }

theorem Own.step {P : Parts} {idx : Index} {s s' : Sys} {tr tr' : List CEv} {li : LinkInfo} {o : ScanOut}
    (h : Own P idx s tr li o) (hs : Step P s s') (ht : tr <:+ tr') : Own P idx s' tr' li o := by
  obtain ⟨c, t, o', h1, h2, h3, h4⟩ := h
  exact ⟨c, t, o', h1.step hs, h2.trans ht, h3, h4⟩

structure PInv (P : Parts) (idx : Index) (s : Sys) (links : List LinkInfo) (log : List Analysis) (tr : List CEv) : Prop where
  out : ∀ li ∈ s.checker.outstanding, li ∈ links
  caches : ∀ h ∈ s.handlers, ∀ o, h.cache = some o → ∃ crate paths, h.req = .rustcComplete crate paths ∧
    ∃ li ∈ links, li.crate = crate ∧ Own P idx s tr li o
  log : ∀ a ∈ log, a.tr <:+ tr ∧ a.before.idx = idx ∧ a.out.apis = a.before.cfg.apis ∧ (UnmixedAt links log a.li → Own P idx s tr a.li a.out)

theorem PInv.step {P : Parts} {idx : Index} {s s' : Sys} {links : List LinkInfo} {log : List Analysis} {tr tr' : List CEv}
    (h : PInv P idx s links log tr) (hs : Step P s s') (ht : tr <:+ tr') (h1 : s'.checker.outstanding = s.checker.outstanding)
    (h2 : ∀ x ∈ s'.handlers, x.cache = none ∨ ∃ y ∈ s.handlers, x.req = y.req ∧ x.cache = y.cache) :
    PInv P idx s' links log tr' := by
  refine ⟨by rw [h1]; exact h.out, ?_, ?_⟩
  · intro x hx o ho
    rcases h2 x hx with e | ⟨y, hy, e1, e2⟩
    · rw [e] at ho; cases ho
    · obtain ⟨crate, paths, g1, li, g2, g3, g4⟩ := h.caches y hy o (e2 ▸ ho)
      exact ⟨crate, paths, e1 ▸ g1, li, g2, g3, g4.step hs ht⟩
  · intro a ha
    obtain ⟨g1, g2, g3, g4⟩ := h.log a ha
    exact ⟨g1.trans ht, g2, g3, fun hu => (g4 hu).step hs ht⟩

theorem set_handlers {l : List Handler} {i : Nat} {h h' : Handler} (hh : l[i]? = some h) (h1 : h'.req = h.req) (h2 : h'.cache = h.cache) :
    ∀ x ∈ l.set i h', x.cache = none ∨ ∃ y ∈ l, x.req = y.req ∧ x.cache = y.cache := by
  intro x hx
  rcases mem_set_cases hx with rfl | hx
  · exact .inr ⟨h, List.mem_of_getElem? hh, h1, h2⟩
  · exact .inr ⟨x, hx, rfl, rfl⟩

theorem sys_prov {P : Parts} {idx : Index} {s : Sys} {links : List LinkInfo} {log : List Analysis}
    {tr : List CEv} (h : SysRun P idx s links log tr) : PInv P idx s links log tr := by
  induction h with
  | init => exact ⟨by simp, by simp, by simp⟩
  | load cfg _ _ ih =>
    exact ih.step (.load cfg) (List.suffix_cons ..) rfl (fun x hx => .inr ⟨x, hx, rfl, rfl⟩)
  | start req _ ih =>
    refine ih.step (.start req) (List.suffix_refl _) rfl (fun x hx => ?_)
    rcases List.mem_append.mp hx with hx | hx
    · exact .inr ⟨x, hx, rfl, rfl⟩
    · rw [List.mem_singleton.mp hx]; exact .inl rfl
  | resume i h retry hh hr cfg hnn _ ih =>
    refine ih.step (.resume i h retry (some cfg) hh hr) (List.suffix_cons ..) rfl ?_
    exact set_handlers hh rfl rfl
  | resumeBad i h retry hh hr _ ih =>
    refine ih.step (.resume i h retry none hh hr) (List.suffix_refl _) rfl ?_
    exact set_handlers hh rfl rfl
  | giveUp i h retry hh hr _ ih =>
    refine ih.step (.giveUp i h retry hh hr) (List.suffix_refl _) rfl ?_
    exact set_handlers hh rfl rfl
  | @check s links log tr i h hh hr hrun ih =>
    have hmem : h ∈ s.handlers := List.mem_of_getElem? hh
    have hstep : Step P s { checker := (h.check P s.checker).1, handlers := s.handlers.set i (h.check P s.checker).2 } :=
      .check i h hh hr
    have hsuf : tr <:+ usedBy P s.checker tr h ++ tr := List.suffix_append ..
    rcases check_cases P s.checker tr h with ⟨paths, st, g1, g2⟩ |
      ⟨crate, ps, li, rest, paths', g0, gt, g1, g2⟩ |
      ⟨crate, paths, li, rest, c', out, ps, st, g0, gt, gc, g1, g2⟩
    · have hu : usedBy P s.checker tr h = [] := by simp [usedBy, g1]
      rw [g2] at hstep
      rw [g1, g2, hu]
      refine ⟨?_, ?_, fun a ha => ⟨(ih.log a ha).1, (ih.log a ha).2.1, (ih.log a ha).2.2.1,
        fun hu => ((ih.log a ha).2.2.2 hu.before).step hstep (List.suffix_refl _)⟩⟩
      · intro l hl
        rcases List.mem_append.mp hl with hl | hl
        · exact List.mem_append_right _ (ih.out l hl)
        · exact List.mem_append_left _ hl
      · intro x hx o ho
        have : ∃ y ∈ s.handlers, x.req = y.req ∧ y.cache = some o := by
          rcases mem_set_cases hx with rfl | hx
          · exact ⟨h, hmem, rfl, ho⟩
          · exact ⟨x, hx, rfl, ho⟩
        obtain ⟨y, hy, e1, e2⟩ := this
        obtain ⟨crate, pa, q1, li, q2, q3, q4⟩ := ih.caches y hy o e2
        exact ⟨crate, pa, e1.trans q1, li, List.mem_append_right _ q2, q3, q4.step hstep (List.suffix_refl _)⟩
    · have hu : usedBy P s.checker tr h = [] := by simp [usedBy, g1]
      have hnl : linksOf h.req = [] := by rw [g0]; rfl
      obtain ⟨e1, e2⟩ := takeLink_some gt
      rw [g2] at hstep
      rw [g1, g2, hu, hnl]
      refine ⟨?_, ?_, fun a ha => ⟨(ih.log a ha).1, (ih.log a ha).2.1, (ih.log a ha).2.2.1,
        fun hu => ((ih.log a ha).2.2.2 hu).step hstep (List.suffix_refl _)⟩⟩
      · intro l hl
        exact ih.out l (e2.symm.subset (List.mem_cons_of_mem _ hl))
      · intro x hx o ho
        have : ∃ y ∈ s.handlers, x.req = y.req ∧ y.cache = some o := by
          rcases mem_set_cases hx with rfl | hx
          · exact ⟨h, hmem, rfl, ho⟩
          · exact ⟨x, hx, rfl, ho⟩
        obtain ⟨y, hy, e1, e2⟩ := this
        obtain ⟨crate, pa, q1, li, q2, q3, q4⟩ := ih.caches y hy o e2
        exact ⟨crate, pa, e1.trans q1, li, q2, q3, q4.step hstep (List.suffix_refl _)⟩
    · have hnl : linksOf h.req = [] := by rw [g0]; rfl
      obtain ⟨e1, e2⟩ := takeLink_some gt
      have hlo : li ∈ s.checker.outstanding := e2.symm.subset (List.mem_cons_self ..)
      have hli : li ∈ links := ih.out li hlo
      obtain ⟨k1, k2, ps', k3, k4⟩ := checkLink_spec gc
      have hout : c'.outstanding = rest := (apisUsed_same k3).1
      -- the scan results are those of this very binary
      have hown : ∃ li' ∈ links, li'.crate = li.crate ∧ (UnmixedAt links log li → li' = li) ∧ Own P idx s tr li' out := by
        rcases k2 with k2 | ⟨o, k2, k2'⟩
        · obtain ⟨cr, pa, q1, li', q2, q3, q4⟩ := ih.caches h hmem out k2
          rw [g0] at q1
          cases q1
          exact ⟨li', q2, q3.trans e1.symm, fun hu => same_binary hrun hu hmem hr k2 g0 q2 e1 q3, q4⟩
        · exact ⟨li, hli, rfl, fun _ => rfl, _, tr, o, ⟨s, links, log, paths, rest, hrun, .refl, hlo, by rw [e1]⟩, List.suffix_refl _, k2, k2'⟩
      rw [g2] at hstep
      rw [g1, g2, hnl]
      obtain ⟨li', p1, p2, p3, hown⟩ := hown
      have hown' := hown.step hstep hsuf
      refine ⟨?_, ?_, ?_⟩
      · intro l hl
        have : l ∈ rest ∨ l = li := by
          by_cases hp : ps = []
          · simp only [hp, if_true] at hl
            rw [hout] at hl
            exact .inl hl
          · simp only [hp, if_false] at hl
            rw [hout] at hl
            simpa using hl
        rcases this with hl | rfl
        · exact ih.out l (e2.symm.subset (List.mem_cons_of_mem _ hl))
        · exact hli
      · intro x hx o ho
        rcases mem_set_cases hx with rfl | hx
        · simp only [Option.some.injEq] at ho
          subst ho
          exact ⟨crate, paths, g0, li', p1, p2.trans e1, hown'⟩
        · obtain ⟨crate, pa, q1, li, q2, q3, q4⟩ := ih.caches x hx o ho
          exact ⟨crate, pa, q1, li, q2, q3, q4.step hstep hsuf⟩
      · intro a ha
        rcases List.mem_append.mp ha with ha | ha
        · simp only [List.mem_singleton] at ha
          subst ha
          exact ⟨hsuf, run_idx (c := s.checker) (sys_crun hrun), k1,
            fun hu => p3 (hu.before (links' := []) (log' := [_])) ▸ hown'⟩
        · exact ⟨(ih.log a ha).1.trans hsuf, (ih.log a ha).2.1, (ih.log a ha).2.2.1,
            fun hu => ((ih.log a ha).2.2.2 (hu.before (links' := []) (log' := [_]))).step hstep hsuf⟩

/-- The configuration of the checker was loaded, unless none was. -/
theorem run_cfg {idx : Index} {c : State} {tr : List CEv} (h : CRun idx c tr) :
    (c.cfg = {} ∧ ∀ cfg, CEv.loaded cfg ∉ tr) ∨ CEv.loaded c.cfg ∈ tr := by
  induction h with
  | init => exact .inl ⟨rfl, by simp⟩
  | load cfg hn h ih => exact .inr (List.mem_cons_self ..)
  | use au ps h hu ih =>
    rcases apiUsed_spec hu with ⟨_, _, rfl⟩ | ⟨_, rfl⟩ <;>
      exact ih.imp (fun ⟨a, b⟩ => ⟨a, by simpa using b⟩) (List.mem_cons_of_mem _)
  | other p o h ih => exact ih

/-- The crate is not used when references are collected. -/
theorem uses_crate {b : Bin} {objs : List Obj} {x y : Graph.SymName} {loc : SourceLoc} (crate : CrateSel) :
    Graph.Uses { b with crate := crate } objs x y loc ↔ Graph.Uses b objs x y loc := by
  constructor
  · rintro (⟨h1, h2⟩ | ⟨h1, h2, h3, h4, h5, h6, h7, h8, h9⟩)
    · exact .inlined h1 h2
    · exact .relocation (b := b) h1 h2 h3 h4 h5 h6 h7 h8 h9
  · rintro (⟨h1, h2⟩ | ⟨h1, h2, h3, h4, h5, h6, h7, h8, h9⟩)
    · exact .inlined h1 h2
    · exact .relocation (b := { b with crate := crate }) h1 h2 h3 h4 h5 h6 h7 h8 h9

theorem usesApi_crate {c : State} {b : Bin} {objs : List Obj} {pkg : PkgId} {x : Api} {l : SourceLoc} {m : List Str} (crate : CrateSel) :
    UsesApi c { b with crate := crate } objs pkg x l m ↔ UsesApi c b objs pkg x l m := by
  unfold UsesApi
  simp only [uses_crate]

/-! ## The property -/

/-- **C122 (partial).** For all contents of binaries and object files, all executions, answers of the user and orders of iteration: after a
successful run, each linked binary was analysed. The results used by the last analysis were those of a scan of this binary, made during the run
after the compiler had told the source files of its crate, with the definitions of APIs in force at that analysis; and each API that a package
uses in it is granted to the package by a configuration loaded in this run.

Missing: changes of the configuration after the analysis of the binary (`C122_defined_later`); binaries that share a crate selector if there were problems in one of them (C08);
inlined functions that debug info names differently from their symbols, and uses at the place of a use by the name of a package that is not a
dependency (C77). Source files are attributed to packages as known at the scan. -/
theorem C122_only_permitted_partial (disk : LinkInfo → Option (Bin × List Obj)) (n : Nat)
    (order : State → LinkInfo → AMap Key (List Single) → List (Key × List Single)) (report : Raw → CrateSel → Str → Option (List Problem))
    (idx : Index) (s : Sys) (links : List LinkInfo) (log : List Analysis) (tr : List CEv)
    (hord : ∀ c li g, (order c li g).Perm g) (h : SysRun (parts disk n order report) idx s links log tr) (hs : Succeeded s)
    (hapis : ∀ cfg, CEv.loaded cfg ∈ tr → cfg.apis.keys.Nodup) (li : LinkInfo) (hli : li ∈ links) (hn : UnmixedAt links log li) :
    ∃ a b objs c tr0, log.find? (fun a => a.li = li) = some a ∧ disk li = some (b, objs) ∧
      During (parts disk n order report) idx s li c tr0 ∧ tr0 <:+ tr ∧ c.cfg.apis = a.before.cfg.apis ∧
      (NamesAgree b → OnlyPermittedOnTree idx (GrantedIn tr) c li.crate b objs) := by
  obtain ⟨a, ha, _, hp1, hp2⟩ := C08_linked_analysed_partial _ idx s links log tr h hs li hli hn
  have hl : a.li = li := by simpa using List.find?_some ha
  obtain ⟨hsuf, hbi, hba, hown⟩ := (sys_prov h).log a (List.mem_of_find?_eq_some ha)
  obtain ⟨c, tr0, o, hd, ht0, hscan, hout⟩ := hown (hl ▸ hn)
  rw [hl] at hd hscan
  obtain ⟨s0, links0, log0, paths, rest, hrun0, hlater, hin0, hc⟩ := id hd
  have hcr := sys_crun hrun0
  have hck : (AMap.keys c.cfg.apis).Nodup := by
    rw [hc]
    rcases run_cfg hcr with ⟨e, _⟩ | e
    · show s0.checker.cfg.apis.keys.Nodup
      rw [e]
      exact List.nodup_nil
    · exact hapis _ (ht0.subset e)
  simp only [parts] at hscan
  cases hdisk : disk li with
  | none => rw [hdisk] at hscan; cases hscan
  | some r =>
    obtain ⟨b, objs⟩ := r
    rw [hdisk] at hscan
    simp only [] at hscan
    refine ⟨a, b, objs, c, tr0, ha, rfl, hd, ht0, by rw [← hba, hout], fun hin => ?_⟩
    cases hsb : scanBin c n (order c li) { b with crate := li.crate } objs with
    | ok out =>
      rw [hsb] at hscan
      cases hscan
      have hin' : ∀ f ∈ ({ b with crate := li.crate } : Bin).inlined,
          Agrees { b with crate := li.crate } f.from_ ∧ Agrees { b with crate := li.crate } f.to := hin
      obtain ⟨hall, hsound⟩ := Graph.scan_usages hck (hord c li) hsb hin'
      intro pkg x loc name hu hk htree
      obtain ⟨au, hau, rfl, rfl, u, hu1, hu2⟩ := hall pkg x loc name ((usesApi_crate _).mpr hu)
      obtain ⟨hscope, hgen⟩ := hsound au hau
      have hau' : au ∈ a.out.usages := by rw [hout]; exact hau
      rcases hp2 au hau' (by rw [hscope]; exact hk) with ⟨cfg, h1, h2⟩ | hex
      · exact ⟨cfg, hsuf.subset h1, by rw [hscope] at h2; exact h2⟩
      · obtain ⟨deps, hdeps, ⟨p, first, e1, e2, e3⟩, _⟩ := hex u hu1
        rcases htree u.loc u.toName hu2 ((usesApi_crate _).mp (hgen u hu1)) deps hdeps first e1 with q | q
        · exact absurd q e2
        · rw [hbi, q] at e3
          cases e3
    | _ => rw [hsb] at hscan; cases hscan

/-- C122, partial: if the configuration did not change during the run, then it grants what is used. -/
theorem C122_unchanged_partial (disk : LinkInfo → Option (Bin × List Obj)) (n : Nat)
    (order : State → LinkInfo → AMap Key (List Single) → List (Key × List Single)) (report : Raw → CrateSel → Str → Option (List Problem))
    (idx : Index) (s : Sys) (links : List LinkInfo) (log : List Analysis) (tr : List CEv)
    (hord : ∀ c li g, (order c li g).Perm g) (h : SysRun (parts disk n order report) idx s links log tr) (hs : Succeeded s)
    (cfg : Raw) (hone : ∀ cfg', CEv.loaded cfg' ∈ tr → cfg' = cfg) (hapis : cfg.apis.keys.Nodup)
    (li : LinkInfo) (hli : li ∈ links) (hn : UnmixedAt links log li) :
    ∃ b objs c tr0, disk li = some (b, objs) ∧ During (parts disk n order report) idx s li c tr0 ∧
      ((∃ cfg', CEv.loaded cfg' ∈ tr0) → c.cfg = cfg) ∧ (NamesAgree b → OnlyPermittedOnTree idx (Grants cfg) c li.crate b objs) := by
  obtain ⟨a, b, objs, c, tr0, _, h2, h3, ht, _, h5⟩ := C122_only_permitted_partial disk n order report idx s links log tr hord h hs
    (fun cfg' hc => hone cfg' hc ▸ hapis) li hli hn
  refine ⟨b, objs, c, tr0, h2, h3, ?_, fun hin pkg x loc name hu hk htree => ?_⟩
  · obtain ⟨s0, _, _, _, _, hrun, _, _, rfl⟩ := h3
    rintro ⟨cfg', hc⟩
    rcases run_cfg (sys_crun hrun) with ⟨_, e⟩ | e
    · exact absurd hc (e cfg')
    · exact hone _ (ht.subset e)
  · obtain ⟨cfg', hc, hg⟩ := h5 hin pkg x loc name hu hk htree
    exact hone cfg' hc ▸ hg

/-- C122 for the whole program, partial: if cackle reports success after a full run, in which all connections are those of programs that cargo
needs, then in each binary whose linking was reported, each package uses only APIs that are granted to it (with the restrictions of
`C122_only_permitted_partial`). -/
theorem C122_success_partial (disk : LinkInfo → Option (Bin × List Obj)) (n : Nat)
    (order : State → LinkInfo → AMap Key (List Single) → List (Key × List Single)) (report : Raw → CrateSel → Str → Option (List Problem))
    (hord : ∀ c li g, (order c li g).Perm g) {idx : Index} {sys : Sys} {links : List LinkInfo} {log : List Analysis} {tr : List CEv}
    {m : Nat} {s : Server.State} {p : Main.Phases} {store : Store.State} {str : List Store.Ev}
    (hs : SysRun (parts disk n order report) idx sys links log tr) (he : Server.Exec (parts disk n order report) { sys := sys } m s)
    (hf : Main.Fits p store str) (hinit : p.initial = some .continue_ → ∀ h ∈ sys.handlers, h.status = .finished .continue_)
    (hbuild : p.build = decide (s.pc = .returned .ok)) (hunused : p.unused = checkUnused s.sys.checker)
    (hreq : ∀ c ∈ s.conns, c.required = true) (h : Main.success true p = true) :
    ∃ links' log' tr', SysRun (parts disk n order report) idx s.sys links' log' tr' ∧
      ((∀ cfg, CEv.loaded cfg ∈ tr' → cfg.apis.keys.Nodup) →
        ∀ conn ∈ s.conns, ∀ li, conn.message = some (.request (.linkerInvoked li)) → UnmixedAt links' log' li →
          ∃ a b objs c tr0, log'.find? (fun a => a.li = li) = some a ∧ disk li = some (b, objs) ∧
            During (parts disk n order report) idx s.sys li c tr0 ∧ tr0 <:+ tr' ∧ c.cfg.apis = a.before.cfg.apis ∧
            (NamesAgree b → OnlyPermittedOnTree idx (GrantedIn tr') c li.crate b objs)) := by
  obtain ⟨l, g, t, e1, e2, e3⟩ := Server.C109_succeeded hs he hf hinit hbuild hunused hreq h
  exact ⟨l, g, t, e1, fun hapis conn hc li hm hn =>
    C122_only_permitted_partial disk n order report idx s.sys l g t hord e1 e3 hapis li (e2 conn hc li hm) hn⟩

/-! ## The disagreement, and non-vacuity

Package `p` uses `std::fs::read` at line 3 of `/p/a.rs`, in the binary of `Props/EndToEnd.lean`. -/
namespace Ex

open Cackle.Graph (pp pq wIdx wCfg wBin wObj wPlace wRef wTree wTrie)

def li : LinkInfo := ⟨⟨pp, .primary⟩, str! "/bin", []⟩
def disk (l : LinkInfo) : Option (Bin × List Obj) := if l = li then some (wBin, [wObj]) else none
def P : Parts := parts disk 40 (fun _ _ g => g) (fun _ _ _ => some [])
def files : List PathC := [pathOf (str! "/p/a.rs")]
/-- The API is defined, and granted to `p`. -/
def grant : Raw := { wCfg with packages := [(str! "p", .leaf { allowApis := [str! "fs"] })] }

/-- What was known when the binary was analysed. -/
def st (cfg : Raw) : State :=
  { updateConfig { idx := wIdx [str! "q"] } cfg with paths := [(pathOf (str! "/p/a.rs"), [pp])] }

theorem uses (c : State) (h1 : c.cfg.apis = wCfg.apis) (h2 : pkgIdsFromPath c (pathOf (str! "/p/a.rs")) = some [pp]) :
    UsesApi c wBin [wObj] pp (str! "fs") wPlace [str! "std", str! "fs", str! "read"] :=
  Graph.usesApi_of_ref (n := 40) (r := wRef) (ids := [pp]) (fh := []) (t := wTree)
    (by rw [h1]; simp [wCfg, AMap.keys]) (by rw [h1]; exact wTrie [])
    (refs := [wRef, { wRef with address := 108, target := ⟨some (str! "qfs"), some ⟨[str! "q"], str! "fs"⟩⟩ }])
    (by decide +kernel) (by simp) rfl h2 (by simp) (by decide +kernel) (by simp)
    (th := [⟨[str! "std", str! "fs", str! "read"], .debugName [str! "std", str! "fs"] (str! "read"), [str! "fs"]⟩])
    (by decide +kernel) ⟨_, List.mem_singleton.mpr rfl, rfl, List.mem_singleton.mpr rfl⟩ (by decide)

theorem onTree (m : List Str) : OnTree (wIdx [str! "q"]) pp m := by
  intro deps hd first hf
  cases hd
  by_cases e : first = str! "q"
  · exact .inl (by rw [e]; simp)
  · refine .inr ?_
    simp only [wIdx, AMap.get?]
    rw [if_neg (fun e' => e e'.symm)]

theorem known : Known (wIdx [str! "q"]) (str! "p") .all :=
  ⟨⟨str! "p", true, false⟩, by simp [wIdx], rfl, by simp, by simp⟩

theorem refused : ¬ Grants wCfg (str! "p") .all (str! "fs") := by
  rintro ⟨s, _, p, hp, _⟩
  cases s <;> cases hp

theorem loaded_check {P : Parts} {c : State} {h : Handler} {tr : List CEv} {cfg : Raw}
    (hm : CEv.loaded cfg ∈ usedBy P c tr h ++ tr) : CEv.loaded cfg ∈ tr := by
  rcases List.mem_append.mp hm with hm | hm
  · simp [usedBy] at hm
  · exact hm

/-- The binary is analysed while no APIs are defined; then the user changes the configuration. -/
theorem late_run : ∃ s log tr, SysRun P (wIdx [str! "q"]) s [li] log tr ∧ Succeeded s ∧ s.checker.cfg = wCfg ∧
    (∀ cfg, CEv.loaded cfg ∈ tr → cfg = {} ∨ cfg = wCfg) ∧
    (log.find? (fun a => a.li = li)).map (fun a => pkgIdsFromPath a.before (pathOf (str! "/p/a.rs"))) = some (some [pp]) := by
  have r : SysRun P (wIdx [str! "q"]) _ _ _ _ := .load {} (by simp [AMap.keys]) .init
  have r := SysRun.start (.linkerInvoked li) r
  have r := SysRun.check 0 _ rfl rfl r
  have r := SysRun.start (.rustcComplete ⟨pp, .primary⟩ files) r
  have r := SysRun.check 1 _ rfl rfl r
  have r := SysRun.load wCfg (by simp [wCfg, AMap.keys]) r
  refine ⟨_, _, _, r, C08Ex.succeeded_of (n := 2) (by decide +kernel) (by decide +kernel), rfl, ?_, by decide +kernel⟩
  intro cfg hc
  rcases List.mem_cons.mp hc with hc | hc
  · cases hc; exact .inr rfl
  · rcases List.mem_cons.mp (loaded_check (loaded_check hc)) with hc | hc
    · cases hc; exact .inl rfl
    · cases hc

/-- The same with a single configuration that grants the API. -/
theorem good_run : ∃ s log tr, SysRun P (wIdx [str! "q"]) s [li] log tr ∧ Succeeded s ∧
    (∀ cfg, CEv.loaded cfg ∈ tr → cfg = grant) := by
  have r : SysRun P (wIdx [str! "q"]) _ _ _ _ := .load grant (by simp [grant, AMap.keys]) .init
  have r := SysRun.start (.linkerInvoked li) r
  have r := SysRun.check 0 _ rfl rfl r
  have r := SysRun.start (.rustcComplete ⟨pp, .primary⟩ files) r
  have r := SysRun.check 1 _ rfl rfl r
  refine ⟨_, _, _, r, C08Ex.succeeded_of (n := 2) (by decide +kernel) (by decide +kernel), ?_⟩
  intro cfg hc
  rcases List.mem_cons.mp (loaded_check (loaded_check hc)) with hc | hc
  · cases hc; rfl
  · cases hc

end Ex

/-- **C122, disagreement.** A binary is not analysed again when the configuration changes during the run: a package uses an API that is defined
and not granted at the end, and the run succeeds. -/
theorem C122_defined_later : ¬ C122_Claim := by
  intro h
  obtain ⟨s, log, tr, hr, hs, hcfg, htr, hlog⟩ := Ex.late_run
  obtain ⟨a, b, objs, ha, hd, hp⟩ := h Ex.disk 40 (fun _ _ g => g) (fun _ _ _ => some []) (Graph.wIdx [str! "q"]) s _ log tr
    (fun _ _ g => .refl g) hr hs (by
      intro cfg hc
      rcases htr cfg hc with rfl | rfl
      · exact List.nodup_nil
      · simp [Graph.wCfg, AMap.keys]) (by simp) Ex.li (by simp)
  rw [ha] at hlog
  simp only [Option.map_some, Option.some.injEq] at hlog
  simp only [Ex.disk, if_true, Option.some.injEq, Prod.mk.injEq] at hd
  obtain ⟨rfl, rfl⟩ := hd
  have := hp (by intro f hf; cases hf) Graph.pp (str! "fs") Graph.wPlace _ (Ex.uses _ (by rw [hcfg]) hlog) Ex.known (Ex.onTree _)
  rw [hcfg] at this
  exact Ex.refused this

example : ∃ s b objs c tr0, Ex.disk Ex.li = some (b, objs) ∧ During Ex.P (Graph.wIdx [str! "q"]) s Ex.li c tr0 ∧
    (NamesAgree b → OnlyPermittedOnTree (Graph.wIdx [str! "q"]) (Grants Ex.grant) c Ex.li.crate b objs) ∧
    NamesAgree Graph.wBin ∧ Grants Ex.grant (str! "p") .all (str! "fs") := by
  obtain ⟨s, log, tr, hr, hs, htr⟩ := Ex.good_run
  obtain ⟨b, objs, c, tr0, h1, h2, _, h3⟩ := C122_unchanged_partial Ex.disk 40 (fun _ _ g => g) (fun _ _ _ => some [])
    (Graph.wIdx [str! "q"]) s _ log tr (fun _ _ g => .refl g) hr hs Ex.grant htr (by simp [Ex.grant, Graph.wCfg, AMap.keys])
    Ex.li (by simp) (Unmixed.of_nodup (by simp) _ _ (by simp))
  exact ⟨s, b, objs, c, tr0, h1, h2, h3, (fun f hf => by cases hf), .all, by simp [chain], _, rfl, List.mem_singleton.mpr rfl⟩

/-- The hypotheses about the use are met in a state after the compiler has told the source files. -/
example : UsesApi (Ex.st Ex.grant) Graph.wBin [Graph.wObj] Graph.pp (str! "fs") Graph.wPlace [str! "std", str! "fs", str! "read"] :=
  Ex.uses _ rfl rfl

example : ∃ s log tr a b objs c tr0, SysRun Ex.P (Graph.wIdx [str! "q"]) s [Ex.li] log tr ∧ log.find? (fun a => a.li = Ex.li) = some a ∧
    Ex.disk Ex.li = some (b, objs) ∧ During Ex.P (Graph.wIdx [str! "q"]) s Ex.li c tr0 ∧
    (NamesAgree b → OnlyPermittedOnTree (Graph.wIdx [str! "q"]) (GrantedIn tr) c Ex.li.crate b objs) := by
  obtain ⟨s, log, tr, hr, hs, htr⟩ := Ex.good_run
  obtain ⟨a, b, objs, c, tr0, h0, h1, h2, _, _, h3⟩ := C122_only_permitted_partial Ex.disk 40 (fun _ _ g => g) (fun _ _ _ => some [])
    (Graph.wIdx [str! "q"]) s _ log tr (fun _ _ g => .refl g) hr hs
    (fun cfg hc => by rw [htr cfg hc]; simp [Ex.grant, Graph.wCfg, AMap.keys]) Ex.li (by simp) (Unmixed.of_nodup (by simp) _ _ (by simp))
  exact ⟨s, log, tr, a, b, objs, c, tr0, hr, h0, h1, h2, h3⟩

/-- The whole program: the linking of the binary is reported, then the end of its compilation, and cargo ends. -/
theorem Ex.build_reach : ∃ n s, Server.Exec Ex.P { sys := { checker := { idx := Graph.wIdx [str! "q"] } } } n s ∧ s.pc = .returned .ok ∧
    (∀ c ∈ s.conns, c.required = true) ∧ s.sys.checker.outstanding = [] ∧
    s.conns.map (·.message) = [some (.request (.linkerInvoked Ex.li)), some (.request (.rustcComplete ⟨Graph.pp, .primary⟩ Ex.files))] := by
  have r := Server.Exec.refl (P := Ex.P) { sys := { checker := { idx := Graph.wIdx [str! "q"] } } }
  have r := Server.Exec.act (.load Ex.grant) r (by simp [Server.Act.Possible, Ex.grant, AMap.keys])
  have r := Server.Exec.act (.connect true) r (by intro _ h; cases h)
  have r := Server.Exec.act (.connect true) r (by intro _ h; cases h)
  have r := Server.Exec.main r (Server.Ex.free (.inl rfl))
  have r := Server.Exec.main r (Server.Ex.free (.inr (.inl rfl)))
  have r := Server.Exec.main r (Server.Ex.free (.inr (.inr (.inl rfl))))
  have r := Server.Exec.act (.send 0 (.request (.linkerInvoked Ex.li))) r (by intro h; cases h)
  have r := Server.Exec.main r (Server.not_blocked (by intro c h; cases h; rfl))
  have r := Server.Exec.act (.check 0) r trivial
  have r := Server.Exec.act (.thread 0) r trivial
  have r := Server.Exec.act (.thread 0) r trivial
  have r := Server.Exec.main r (Server.Ex.free (.inl rfl))
  have r := Server.Exec.main r (Server.Ex.free (.inr (.inl rfl)))
  have r := Server.Exec.main r (Server.Ex.free (.inr (.inr (.inl rfl))))
  have r := Server.Exec.act (.send 1 (.request (.rustcComplete ⟨Graph.pp, .primary⟩ Ex.files))) r (by intro h; cases h)
  have r := Server.Exec.main r (Server.not_blocked (by intro c h; cases h; rfl))
  have r := Server.Exec.act (.check 1) r trivial
  have r := Server.Exec.act (.thread 1) r trivial
  have r := Server.Exec.act (.thread 1) r trivial
  have r := Server.Exec.act (.exit (some 0)) r ⟨rfl, fun _ c hc _ => by
    rcases List.mem_cons.mp hc with rfl | hc
    · exact ⟨_, .continue_, rfl, by decide +kernel, fun _ => rfl⟩
    · rw [List.mem_singleton.mp hc]
      exact ⟨_, .continue_, rfl, by decide +kernel, fun _ => rfl⟩⟩
  have r := Server.Exec.main r (Server.Ex.free (.inl rfl))
  have r := Server.Exec.main r (Server.Ex.free (.inr (.inr (.inr (.inl ⟨some 0, rfl⟩)))))
  refine ⟨_, _, r, rfl, ?_, by decide +kernel, rfl⟩
  intro c hc
  rcases List.mem_cons.mp hc with rfl | hc
  · rfl
  · rw [List.mem_singleton.mp hc]

example : ∃ s links' log' tr', SysRun Ex.P (Graph.wIdx [str! "q"]) s links' log' tr' ∧
    ((∀ cfg, CEv.loaded cfg ∈ tr' → cfg.apis.keys.Nodup) → UnmixedAt links' log' Ex.li →
      ∃ b objs c tr0, Ex.disk Ex.li = some (b, objs) ∧ During Ex.P (Graph.wIdx [str! "q"]) s Ex.li c tr0 ∧
        (NamesAgree b → OnlyPermittedOnTree (Graph.wIdx [str! "q"]) (GrantedIn tr') c Ex.li.crate b objs)) := by
  obtain ⟨n, s, he, h1, h2, h3, h4⟩ := Ex.build_reach
  obtain ⟨us, hus⟩ : ∃ us, checkUnused s.sys.checker = some us := by simp [checkUnused, h3]
  obtain ⟨l, g, t, e1, e2⟩ := C122_success_partial Ex.disk 40 (fun _ _ g => g) (fun _ _ _ => some []) (fun _ _ g => .refl g)
    (p := Server.Ex.phases us) (store := {}) (str := []) .init he
    ⟨.init, rfl, by simp [Server.Ex.phases], by simp [Server.Ex.phases], by simp [Server.Ex.phases]⟩ (fun _ h hm => by cases hm)
    (by rw [h1]; rfl) hus.symm h2 (by simp [Main.success, Main.run, Server.Ex.phases, Main.cleanOk, Outcome.and])
  refine ⟨s.sys, l, g, t, e1, fun k1 k2 => ?_⟩
  cases hc : s.conns with
  | nil => rw [hc] at h4; cases h4
  | cons c cs =>
    rw [hc] at h4
    simp only [List.map_cons, List.cons.injEq] at h4
    obtain ⟨_, b, objs, c, tr0, _, q1, q2, _, _, q3⟩ := e2 k1 c (by rw [hc]; exact List.mem_cons_self) _ h4.1 k2
    exact ⟨b, objs, c, tr0, q1, q2, q3⟩

end Cackle.Security
