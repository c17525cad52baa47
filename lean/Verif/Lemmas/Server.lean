import Verif.Props.ServerSpec
import Verif.Props.Answer

/-!
# Invariants of the server
-/

namespace Cackle.Server
open Cackle Checker Config

/-! ## Handlers -/

/-- What a step may do to the handlers: requests and results stay. -/
structure Moves (a b : Sys) : Prop where
  length : b.handlers.length = a.handlers.length
  keeps : ∀ (i : Nat) (h : Handler), a.handlers[i]? = some h → ∃ h' : Handler, b.handlers[i]? = some h' ∧ h'.req = h.req ∧
    ((resultOf h.status).isSome = true → h' = h)

theorem Moves.refl (a : Sys) : Moves a a := ⟨rfl, fun _ h hh => ⟨h, hh, rfl, fun _ => rfl⟩⟩

theorem Moves.set {a : Sys} {c : Checker.State} {i : Nat} {h h' : Handler} (hh : a.handlers[i]? = some h) (hq : h'.req = h.req)
    (hs : resultOf h.status = none) : Moves a { checker := c, handlers := a.handlers.set i h' } := by
  refine ⟨by simp, ?_⟩
  intro j x hx
  simp only [List.getElem?_set]
  by_cases hj : i = j
  · subst hj
    have hlt : i < a.handlers.length := (List.getElem?_eq_some_iff.mp hh).1
    rw [hh] at hx
    cases hx
    refine ⟨h', by simp [hlt], hq, ?_⟩
    rw [hs]; intro e; cases e
  · exact ⟨x, by simp [hj, hx], rfl, fun _ => rfl⟩

theorem check_req (P : Parts) (c : Checker.State) (h : Handler) : (h.check P c).2.req = h.req := by
  unfold Handler.check
  split <;> rfl

theorem resume_req (c : Checker.State) (h : Handler) (b : Bool) (cfg : Option Raw) : (h.resume c b cfg).2.req = h.req := by
  unfold Handler.resume
  split <;> rfl

theorem handlerStep_moves (P : Parts) (sys : Sys) (i : Nat) (a : Told) : Moves sys (handlerStep P sys i a) := by
  unfold handlerStep
  split
  · exact Moves.refl _
  rename_i h hh
  split
  · rename_i hs
    exact Moves.set hh (check_req _ _ _) (by rw [hs]; rfl)
  · rename_i hs
    exact Moves.set hh (resume_req _ _ _ _) (by rw [hs]; rfl)
  · rename_i hs
    exact Moves.set (h' := { h with status := .finished .giveUp }) hh rfl (by rw [hs]; rfl)
  · exact Moves.refl _

/-- A request that is not refused: its handler never waits, gives up or fails. -/
def Quiet (h : Handler) : Prop := ¬ Respects h.req → h.status = .running ∨ h.status = .finished .continue_

theorem check_quiet (P : Parts) (c : Checker.State) {h : Handler} : Quiet (h.check P c).2 := by
  intro hr
  rw [check_req] at hr
  unfold Handler.check
  cases hq : h.req <;> rw [hq] at hr <;> simp only [Respects, not_true_eq_false] at hr <;> simp [handleRequest]

theorem handlerStep_quiet {P : Parts} {sys : Sys} {i : Nat} {a : Told} (hq : ∀ h ∈ sys.handlers, Quiet h) :
    ∀ h ∈ (handlerStep P sys i a).handlers, Quiet h := by
  unfold handlerStep
  split
  · exact hq
  rename_i h hh
  have hm := List.mem_of_getElem? hh
  split
  · intro x hx
    rcases List.mem_or_eq_of_mem_set hx with hx | rfl
    · exact hq x hx
    · exact check_quiet _ _
  · rename_i retry cfg hs
    intro x hx
    rcases List.mem_or_eq_of_mem_set hx with hx | rfl
    · exact hq x hx
    · intro hr
      rw [resume_req] at hr
      rcases hq h hm hr with e | e <;> rw [e] at hs <;> cases hs
  · rename_i hs
    intro x hx
    rcases List.mem_or_eq_of_mem_set hx with hx | rfl
    · exact hq x hx
    · intro hr
      rcases hq h hm hr with e | e <;> rw [e] at hs <;> cases hs
  · exact hq

/-- The steps of a handler are those of `SysRun`. -/
theorem handlerStep_run {P : Parts} {idx : Index} {sys : Sys} {links : List LinkInfo} {log : List Analysis} {tr : List CEv}
    (h : SysRun P idx sys links log tr) (i : Nat) (a : Told)
    (hn : ∀ cfg, a = .resume (some cfg) → cfg.packages.keys.Nodup) :
    ∃ links' log' tr', SysRun P idx (handlerStep P sys i a) links' log' tr' ∧ (∀ l ∈ links, l ∈ links') := by
  unfold handlerStep
  split
  · exact ⟨links, log, tr, h, fun _ h => h⟩
  rename_i x hx
  split
  · rename_i hs
    exact ⟨_, _, _, .check i x hx hs h, fun l hl => List.mem_append_right _ hl⟩
  · rename_i retry cfg hs
    cases cfg with
    | none => exact ⟨_, _, _, .resumeBad i x retry hx hs h, fun _ h => h⟩
    | some cfg => exact ⟨_, _, _, .resume i x retry hx hs cfg (hn cfg rfl) h, fun _ h => h⟩
  · rename_i retry hs
    exact ⟨_, _, _, .giveUp i x retry hx hs h, fun _ h => h⟩
  · exact ⟨links, log, tr, h, fun _ h => h⟩

/-- A linker invocation that has been examined is among the reported ones. -/
theorem linked_reported {P : Parts} {idx : Index} {sys : Sys} {links : List LinkInfo} {log : List Analysis} {tr : List CEv}
    (h : SysRun P idx sys links log tr) : ∀ x ∈ sys.handlers, ∀ li, x.req = .linkerInvoked li → x.status ≠ .running → li ∈ links := by
  induction h with
  | init => simp
  | load cfg hn h ih => exact ih
  | start req h ih =>
    intro x hx li hr hs
    rcases List.mem_append.mp hx with hx | hx
    · exact ih x hx li hr hs
    · simp only [List.mem_singleton] at hx
      subst hx
      exact absurd rfl hs
  | check i y hh hr h ih =>
    intro x hx li hq hs
    rcases List.mem_or_eq_of_mem_set hx with hx | rfl
    · exact List.mem_append_right _ (ih x hx li hq hs)
    · rw [check_req] at hq
      exact List.mem_append_left _ (by simp [linksOf, hq])
  | resume i y retry hh hr cfg hn h ih =>
    intro x hx li hq hs
    rcases List.mem_or_eq_of_mem_set hx with hx | rfl
    · exact ih x hx li hq hs
    · rw [resume_req] at hq
      exact ih y (List.mem_of_getElem? hh) li hq (by rw [hr]; intro e; cases e)
  | resumeBad i y retry hh hr h ih =>
    intro x hx li hq hs
    rcases List.mem_or_eq_of_mem_set hx with hx | rfl
    · exact ih x hx li hq hs
    · rw [resume_req] at hq
      exact ih y (List.mem_of_getElem? hh) li hq (by rw [hr]; intro e; cases e)
  | giveUp i y retry hh hr h ih =>
    intro x hx li hq hs
    rcases List.mem_or_eq_of_mem_set hx with hx | rfl
    · exact ih x hx li hq hs
    · exact ih y (List.mem_of_getElem? hh) li hq (by rw [hr]; intro e; cases e)

/-! ## The invariant -/

/-- What is known about the connection of a thread, by where it is. -/
def StageOk (c : Conn) (res : Option (Option Outcome)) : Stage → Prop
  | .handling => c.answer = none
  | .signalled => ∃ x, res = some x ∧ c.answer = none
  | .answered => ∃ x, res = some x ∧ c.answer = some (x.getD .giveUp)
  | .writeFailed => ∃ x, res = some x ∧ c.answer = none ∧ c.gone = true
  | .done => ∃ x, res = some x ∧ (c.answer = some (x.getD .giveUp) ∨ (c.answer = none ∧ c.gone = true))

/-- What is known about a thread. -/
def ThreadOk (conns : List Conn) (handlers : List Handler) (t : Thread) : Prop :=
  ∃ c r h, conns[t.conn]? = some c ∧ c.message = some (.request r) ∧ handlers[t.handler]? = some h ∧ h.req = r ∧
    StageOk c (resultOf h.status) t.stage

/-- The connection that is being read. -/
def readingConn : Pc → List Nat
  | .reading c => [c]
  | _ => []

/-- What is known about the main thread and cargo. -/
def PcOk (cargo : Option (Option Int)) : Pc → Prop
  | .ending code => cargo = some code
  | .returned .ok => cargo = some (some 0)
  | .returned (.error _) => cargo ≠ none
  | .returned .status => cargo ≠ none
  | _ => True

/-- The error in the channel is one of this thread. -/
def ErrorOk (conns : List Conn) (handlers : List Handler) (threads : List Thread) (e : Nat) : Prop :=
  ∃ t c h, threads[e]? = some t ∧ conns[t.conn]? = some c ∧ handlers[t.handler]? = some h ∧ t.stage = .done ∧
    (resultOf h.status = some none ∨ c.gone = true)

structure Inv (base : Nat) (s : State) : Prop where
  threads : ∀ t ∈ s.threads, ThreadOk s.conns s.sys.handlers t ∧ base ≤ t.handler
  served : ∀ i, base ≤ i → i < s.sys.handlers.length → ∃ t ∈ s.threads, t.handler = i
  quiet : ∀ h ∈ s.sys.handlers, Quiet h
  conns : ∀ i c, s.conns[i]? = some c → c.answer ≠ none → ∃ t ∈ s.threads, t.conn = i
  distinct : (readingConn s.pc ++ s.queue ++ s.threads.map (·.conn)).Nodup
  handlers : (s.threads.map (·.handler)).Nodup
  bound : ∀ c ∈ readingConn s.pc ++ s.queue ++ s.threads.map (·.conn), c < s.conns.length
  pc : PcOk s.cargo s.pc
  zero : s.cargo = some (some 0) → ∀ c ∈ s.conns, c.required = true → Content c
  errors : ∀ e ∈ s.errors, ErrorOk s.conns s.sys.handlers s.threads e
  kept : ∀ (j : Nat) (t : Thread) (h : Handler), s.threads[j]? = some t → t.stage = .done → s.sys.handlers[t.handler]? = some h →
    resultOf h.status = some none → j ∈ s.errors

theorem StageOk.mono {c c' : Conn} {r r' : Option (Option Outcome)} {st : Stage} (h : StageOk c r st)
    (ha : c'.answer = c.answer) (hg : c.gone = true → c'.gone = true) (hr : r.isSome = true → r' = r) : StageOk c' r' st := by
  cases st with
  | handling => simpa [StageOk, ha] using h
  | signalled =>
    obtain ⟨x, h1, h2⟩ := h
    exact ⟨x, by rw [hr (by rw [h1]; rfl), h1], by rw [ha, h2]⟩
  | answered =>
    obtain ⟨x, h1, h2⟩ := h
    exact ⟨x, by rw [hr (by rw [h1]; rfl), h1], by rw [ha, h2]⟩
  | writeFailed =>
    obtain ⟨x, h1, h2, h3⟩ := h
    exact ⟨x, by rw [hr (by rw [h1]; rfl), h1], by rw [ha, h2], hg h3⟩
  | done =>
    obtain ⟨x, h1, h2⟩ := h
    refine ⟨x, by rw [hr (by rw [h1]; rfl), h1], ?_⟩
    rw [ha]
    rcases h2 with h2 | ⟨h2, h3⟩
    · exact Or.inl h2
    · exact Or.inr ⟨h2, hg h3⟩

/-- Steps of handlers keep the invariant. -/
theorem Inv.onSys {base : Nat} {s : State} (hi : Inv base s) {sys : Sys} (hm : Moves s.sys sys)
    (hq : ∀ h ∈ sys.handlers, Quiet h) : Inv base { s with sys := sys } := by
  refine ⟨?_, ?_, hq, hi.conns, hi.distinct, hi.handlers, hi.bound, hi.pc, hi.zero, ?_, ?_⟩
  · intro t ht
    obtain ⟨⟨c, r, h, h1, h2, h3, h4, h5⟩, hb⟩ := hi.threads t ht
    obtain ⟨h', g1, g2, g3⟩ := hm.keeps _ _ h3
    refine ⟨⟨c, r, h', h1, h2, g1, by rw [g2, h4], ?_⟩, hb⟩
    exact h5.mono rfl id (fun e => by rw [g3 e])
  · intro i h1 h2
    exact hi.served i h1 (by rw [hm.length] at h2; exact h2)
  · intro e he
    obtain ⟨t, c, h, h1, h2, h3, h4, h5⟩ := hi.errors e he
    obtain ⟨h', g1, g2, g3⟩ := hm.keeps _ _ h3
    refine ⟨t, c, h', h1, h2, g1, h4, ?_⟩
    rcases h5 with h5 | h5
    · left; rw [g3 (by rw [h5]; rfl)]; exact h5
    · exact Or.inr h5
  · intro j t h h1 h2 h3 h4
    have hr := (hi.threads t (List.mem_of_getElem? h1)).1
    obtain ⟨c, r, h0, e1, e2, e3, e4, e5⟩ := hr
    rw [h2] at e5
    obtain ⟨x, hx, _⟩ := e5
    obtain ⟨h', g1, g2, g3⟩ := hm.keeps _ _ e3
    have := g3 (by rw [hx]; rfl)
    subst this
    have hh : h = h' := by
      have := h3.symm.trans g1
      exact Option.some.inj this
    subst hh
    exact hi.kept j t h h1 h2 e3 h4

/-- The change of a connection that programs can make. -/
structure Grows (c c' : Conn) : Prop where
  required : c'.required = c.required
  message : c.message ≠ none → c'.message = c.message
  answer : c'.answer = c.answer
  gone : c.gone = true → c'.gone = true

theorem Inv.onConn {base : Nat} {s : State} (hi : Inv base s) {k : Nat} {f : Conn → Conn} (hf : ∀ c, Grows c (f c)) :
    Inv base (onConn s k f) := by
  unfold Server.onConn
  split
  · exact hi
  rename_i x hx
  have hlt : k < s.conns.length := (List.getElem?_eq_some_iff.mp hx).1
  have key : ∀ (i : Nat) (c : Conn), s.conns[i]? = some c → ∃ c', (s.conns.set k (f x))[i]? = some c' ∧ Grows c c' := by
    intro i c hc
    by_cases hik : k = i
    · subst hik
      rw [hx] at hc; cases hc
      exact ⟨f x, by simp [hlt], hf x⟩
    · exact ⟨c, by simp [List.getElem?_set, hik, hc], ⟨rfl, fun _ => rfl, rfl, id⟩⟩
  have key' : ∀ (i : Nat) (c' : Conn), (s.conns.set k (f x))[i]? = some c' → ∃ c, s.conns[i]? = some c ∧ Grows c c' := by
    intro i c' hc
    have hil : i < s.conns.length := by
      have := (List.getElem?_eq_some_iff.mp hc).1
      simpa using this
    obtain ⟨c, h1⟩ : ∃ c, s.conns[i]? = some c := ⟨s.conns[i], List.getElem?_eq_getElem hil⟩
    obtain ⟨c'', h2, h3⟩ := key i c h1
    rw [h2] at hc
    cases hc
    exact ⟨c, h1, h3⟩
  refine ⟨?_, hi.served, hi.quiet, ?_, hi.distinct, hi.handlers, ?_, hi.pc, ?_, ?_, hi.kept⟩
  · intro t ht
    obtain ⟨⟨c, r, h, h1, h2, h3, h4, h5⟩, hb⟩ := hi.threads t ht
    obtain ⟨c', g1, g2⟩ := key _ _ h1
    exact ⟨⟨c', r, h, g1, by rw [g2.message (by rw [h2]; simp), h2], h3, h4, h5.mono g2.answer g2.gone (fun _ => rfl)⟩, hb⟩
  · intro i c hc ha
    obtain ⟨c0, h1, h2⟩ := key' i c hc
    exact hi.conns i c0 h1 (by rw [← h2.answer]; exact ha)
  · intro c hc
    simpa using hi.bound c hc
  · intro hz c hc hr
    obtain ⟨i, hi'⟩ := List.getElem?_of_mem hc
    obtain ⟨c0, h1, h2⟩ := key' i c hi'
    obtain ⟨r, o, e1, e2, e3⟩ := hi.zero hz c0 (List.mem_of_getElem? h1) (by rw [← h2.required]; exact hr)
    exact ⟨r, o, by rw [h2.message (by rw [e1]; simp), e1], by rw [h2.answer, e2], e3⟩
  · intro e he
    obtain ⟨t, c, h, h1, h2, h3, h4, h5⟩ := hi.errors e he
    obtain ⟨c', g1, g2⟩ := key _ _ h2
    exact ⟨t, c', h, h1, g1, h3, h4, h5.imp id g2.gone⟩

theorem Inv.connect {base : Nat} {s : State} (hi : Inv base s) {b : Bool} (hb : b = true → s.cargo ≠ some (some 0)) :
    Inv base { s with conns := s.conns ++ [{ required := b }], queue := s.queue ++ [s.conns.length] } := by
  have key : ∀ (i : Nat) (c : Conn), s.conns[i]? = some c → (s.conns ++ [({ required := b } : Conn)])[i]? = some c := by
    intro i c hc
    have hlt : i < s.conns.length := (List.getElem?_eq_some_iff.mp hc).1
    rw [List.getElem?_append_left hlt, hc]
  refine ⟨?_, hi.served, hi.quiet, ?_, ?_, hi.handlers, ?_, hi.pc, ?_, ?_, hi.kept⟩
  · intro t ht
    obtain ⟨⟨c, r, h, h1, h2, h3, h4, h5⟩, hb⟩ := hi.threads t ht
    exact ⟨⟨c, r, h, key _ _ h1, h2, h3, h4, h5⟩, hb⟩
  · intro i c hc ha
    by_cases hlt : i < s.conns.length
    · rw [List.getElem?_append_left hlt] at hc
      exact hi.conns i c hc ha
    · rw [List.getElem?_append_right (by omega)] at hc
      cases hk : i - s.conns.length with
      | zero =>
        rw [hk] at hc
        simp only [List.getElem?_cons_zero, Option.some.injEq] at hc
        subst hc
        exact absurd rfl ha
      | succ k => rw [hk] at hc; simp at hc
  · have h1 := hi.distinct
    have h2 : s.conns.length ∉ readingConn s.pc ++ s.queue ++ s.threads.map (·.conn) := by
      intro h
      have := hi.bound _ h
      omega
    have hp : (readingConn s.pc ++ (s.queue ++ [s.conns.length]) ++ s.threads.map (·.conn)).Perm
        (s.conns.length :: (readingConn s.pc ++ s.queue ++ s.threads.map (·.conn))) := by
      have e : readingConn s.pc ++ (s.queue ++ [s.conns.length]) ++ s.threads.map (·.conn) =
          (readingConn s.pc ++ s.queue) ++ s.conns.length :: s.threads.map (·.conn) := by simp
      rw [e]
      exact List.perm_middle
    exact hp.nodup_iff.mpr (List.nodup_cons.mpr ⟨h2, h1⟩)
  · intro c hc
    simp only [List.length_append, List.length_cons, List.length_nil]
    simp only [List.mem_append, List.mem_singleton] at hc
    have := hi.bound c
    simp only [List.mem_append] at this
    rcases hc with (hc | hc | hc) | hc
    · have := this (Or.inl (Or.inl hc)); omega
    · have := this (Or.inl (Or.inr hc)); omega
    · omega
    · have := this (Or.inr hc); omega
  · intro hz c hc hr
    rcases List.mem_append.mp hc with hc | hc
    · exact hi.zero hz c hc hr
    · simp only [List.mem_singleton] at hc
      subst hc
      exact absurd hz (hb hr)
  · intro e he
    obtain ⟨t, c, h, h1, h2, h3, h4, h5⟩ := hi.errors e he
    exact ⟨t, c, h, h1, key _ _ h2, h3, h4, h5⟩

/-- A change of one thread and its connection keeps the invariant. -/
theorem Inv.onThread {base : Nat} {s s' : State} (hi : Inv base s) {j : Nat} {t : Thread} {st : Stage} {c c' : Conn} {h : Handler}
    (hj : s.threads[j]? = some t) (hc : s.conns[t.conn]? = some c) (hh : s.sys.handlers[t.handler]? = some h)
    (e1 : s'.sys = s.sys) (e2 : s'.conns = s.conns.set t.conn c') (e3 : s'.queue = s.queue)
    (e4 : s'.threads = s.threads.set j { t with stage := st }) (e5 : s'.cargo = s.cargo) (e6 : s'.pc = s.pc)
    (hr : c'.required = c.required) (hm : c'.message = c.message) (hg : c'.gone = c.gone)
    (ha : ∀ o, c.answer = some o → c'.answer = some o)
    (hs : StageOk c' (resultOf h.status) st) (hold : t.stage ≠ .done)
    (herr : ∀ e, e ∈ s'.errors ↔ e ∈ s.errors ∨ (e = j ∧ st = .done ∧ (resultOf h.status = some none ∨ c.gone = true) ∧
      s'.errors = s.errors ++ [j]))
    (hkept : st = .done → resultOf h.status = some none → j ∈ s'.errors) : Inv base s' := by
  have hjl : j < s.threads.length := (List.getElem?_eq_some_iff.mp hj).1
  have hcl : t.conn < s.conns.length := (List.getElem?_eq_some_iff.mp hc).1
  have hmem : t ∈ s.threads := List.mem_of_getElem? hj
  -- connections of other threads are the same
  have other : ∀ (i : Nat) (u : Thread), s.threads[i]? = some u → i ≠ j → u.conn ≠ t.conn := by
    intro i u hu hij heq
    have hn : (s.threads.map (·.conn)).Nodup := (List.nodup_append.mp hi.distinct).2.1
    have hil : i < s.threads.length := (List.getElem?_eq_some_iff.mp hu).1
    have h1 : (s.threads.map (·.conn))[i]? = some u.conn := by simp [hu]
    have h2 : (s.threads.map (·.conn))[j]? = some t.conn := by simp [hj]
    rw [heq, ← h2] at h1
    exact hij ((List.getElem?_inj (by simpa using hil) hn).mp h1)
  have mapc : s'.threads.map (·.conn) = s.threads.map (·.conn) := by
    rw [e4, List.map_set]
    apply List.ext_getElem?
    intro i
    by_cases hij : j = i
    · subst hij; simp [hjl, (List.getElem?_eq_some_iff.mp hj).2]
    · simp [List.getElem?_set, hij]
  have maph : s'.threads.map (·.handler) = s.threads.map (·.handler) := by
    rw [e4, List.map_set]
    apply List.ext_getElem?
    intro i
    by_cases hij : j = i
    · subst hij; simp [hjl, (List.getElem?_eq_some_iff.mp hj).2]
    · simp [List.getElem?_set, hij]
  have hback : ∀ (i : Nat) (u : Thread), s'.threads[i]? = some u → (i = j ∧ u = { t with stage := st }) ∨ (i ≠ j ∧ s.threads[i]? = some u) := by
    intro i u hu
    rw [e4] at hu
    by_cases hij : j = i
    · subst hij
      left
      simp only [List.getElem?_set, hjl, if_true, Option.some.injEq] at hu
      exact ⟨rfl, hu.symm⟩
    · right
      rw [List.getElem?_set_ne hij] at hu
      exact ⟨fun e => hij e.symm, hu⟩
  have hconn : ∀ (k : Nat) (d : Conn), k ≠ t.conn → s.conns[k]? = some d → s'.conns[k]? = some d := by
    intro k d hk hd
    rw [e2, List.getElem?_set_ne (fun e => hk e.symm)]
    exact hd
  have hconn' : s'.conns[t.conn]? = some c' := by rw [e2]; simp [hcl]
  refine ⟨?_, ?_, by rw [e1]; exact hi.quiet, ?_, by rw [mapc, e3, e6]; exact hi.distinct, by rw [maph]; exact hi.handlers, ?_,
    by rw [e5, e6]; exact hi.pc, ?_, ?_, ?_⟩
  · intro u hu
    obtain ⟨i, hu'⟩ := List.getElem?_of_mem hu
    rcases hback i u hu' with ⟨rfl, rfl⟩ | ⟨hij, hu''⟩
    · obtain ⟨⟨c0, r, h0, g1, g2, g3, g4, g5⟩, hb⟩ := hi.threads t hmem
      rw [hc] at g1; cases g1
      rw [hh] at g3; cases g3
      refine ⟨⟨c', r, h, hconn', by rw [hm, g2], by rw [e1]; exact hh, g4, hs⟩, hb⟩
    · obtain ⟨⟨c0, r, h0, g1, g2, g3, g4, g5⟩, hb⟩ := hi.threads u (List.mem_of_getElem? hu'')
      exact ⟨⟨c0, r, h0, hconn _ _ (other i u hu'' hij) g1, g2, by rw [e1]; exact g3, g4, g5⟩, hb⟩
  · intro i h1 h2
    rw [e1] at h2
    obtain ⟨u, hu, he⟩ := hi.served i h1 h2
    have : i ∈ s'.threads.map (·.handler) := by rw [maph]; exact List.mem_map.mpr ⟨u, hu, he⟩
    obtain ⟨v, hv, hv'⟩ := List.mem_map.mp this
    exact ⟨v, hv, hv'⟩
  · intro i d hd hne
    have : i ∈ s'.threads.map (·.conn) := by
      rw [mapc]
      by_cases hi' : i = t.conn
      · subst hi'; exact List.mem_map.mpr ⟨t, hmem, rfl⟩
      · rw [e2, List.getElem?_set_ne (fun e => hi' e.symm)] at hd
        obtain ⟨u, hu, he⟩ := hi.conns i d hd hne
        exact List.mem_map.mpr ⟨u, hu, he⟩
    obtain ⟨v, hv, hv'⟩ := List.mem_map.mp this
    exact ⟨v, hv, hv'⟩
  · rw [mapc, e3, e6, e2]
    simpa using hi.bound
  · intro hz d hd hreq
    rw [e5] at hz
    obtain ⟨i, hd'⟩ := List.getElem?_of_mem hd
    by_cases hi' : i = t.conn
    · subst hi'
      rw [hconn'] at hd'
      cases hd'
      obtain ⟨r, o, g1, g2, g3⟩ := hi.zero hz c (List.mem_of_getElem? hc) (by rw [← hr]; exact hreq)
      exact ⟨r, o, by rw [hm, g1], ha o g2, g3⟩
    · rw [e2, List.getElem?_set_ne (fun e => hi' e.symm)] at hd'
      exact hi.zero hz d (List.mem_of_getElem? hd') hreq
  · intro e he
    rcases (herr e).mp he with he | ⟨rfl, g1, g2, g3⟩
    · obtain ⟨u, d, x, h1, h2, h3, h4, h5⟩ := hi.errors e he
      have hne : e ≠ j := by
        intro heq
        subst heq
        rw [hj] at h1; cases h1
        exact hold h4
      refine ⟨u, d, x, ?_, hconn _ _ (other e u h1 hne) h2, by rw [e1]; exact h3, h4, h5⟩
      rw [e4, List.getElem?_set_ne (fun e => hne e.symm)]
      exact h1
    · refine ⟨{ t with stage := st }, c', h, by rw [e4]; simp [hjl], hconn', by rw [e1]; exact hh, g1, ?_⟩
      rcases g2 with g2 | g2
      · exact Or.inl g2
      · exact Or.inr (by rw [hg]; exact g2)
  · intro i u x h1 h2 h3 h4
    rw [e1] at h3
    rcases hback i u h1 with ⟨rfl, rfl⟩ | ⟨hij, hu⟩
    · simp only at h3 h2
      rw [hh] at h3; cases h3
      exact hkept h2 h4
    · exact (herr i).mpr (Or.inl (hi.kept i u x hu h2 h3 h4))

theorem Inv.thread {base : Nat} {s : State} (hi : Inv base s) (j : Nat) : Inv base (threadStep s j) := by
  unfold threadStep
  split
  · exact hi
  rename_i t ht
  obtain ⟨⟨c, r, h, h1, h2, h3, h4, h5⟩, hb⟩ := hi.threads t (List.mem_of_getElem? ht)
  have hres : threadResult s t = resultOf h.status := by simp [threadResult, h3]
  have hset : s.conns = s.conns.set t.conn c := by
    apply List.ext_getElem?
    intro i
    have hcl : t.conn < s.conns.length := (List.getElem?_eq_some_iff.mp h1).1
    by_cases hij : t.conn = i
    · subst hij; simp [hcl, (List.getElem?_eq_some_iff.mp h1).2]
    · simp [List.getElem?_set, hij]
  split
  · rename_i hst
    unfold signal
    rw [hres]
    split
    · exact hi
    rename_i x hx
    rw [hst] at h5
    refine hi.onThread (st := .signalled) (c' := c) ht h1 h3 rfl hset rfl rfl rfl rfl rfl rfl rfl (fun _ h => h) ⟨x, hx, h5⟩
      (by rw [hst]; decide) ?_ (by intro e; cases e)
    intro e
    constructor
    · exact Or.inl
    · rintro (e | ⟨_, e, _⟩)
      · exact e
      · cases e
  · rename_i hst
    unfold answer
    rw [hres]
    split
    · rename_i x d hx hd
      rw [h1] at hd; cases hd
      rw [hst] at h5
      obtain ⟨y, hy, hn⟩ := h5
      rw [hx] at hy; cases hy
      split
      · rename_i hg
        refine hi.onThread (st := .writeFailed) (c' := c) ht h1 h3 rfl hset rfl rfl rfl rfl rfl rfl rfl (fun _ h => h) ⟨x, hx, hn, hg⟩
          (by rw [hst]; decide) ?_ (by intro e; cases e)
        intro e
        constructor
        · exact Or.inl
        · rintro (e | ⟨_, e, _⟩)
          · exact e
          · cases e
      · refine hi.onThread (st := .answered) (c' := { c with answer := some (x.getD .giveUp) }) ht h1 h3 rfl rfl rfl rfl rfl rfl rfl rfl
          rfl (fun o ho => by rw [hn] at ho; cases ho) ⟨x, hx, rfl⟩ (by rw [hst]; decide) ?_ (by intro e; cases e)
        intro e
        constructor
        · exact Or.inl
        · rintro (e | ⟨_, e, _⟩)
          · exact e
          · cases e
    · exact hi
  all_goals first
    | exact hi
    | rename_i hst
      have hdone : StageOk c (resultOf h.status) .done := by
        rw [hst] at h5
        obtain ⟨x, hx⟩ := h5
        first
          | exact ⟨x, hx.1, Or.inl hx.2⟩
          | exact ⟨x, hx.1, Or.inr hx.2⟩
      unfold sendError
      rw [hres]
      refine hi.onThread (st := .done) (c' := c) ht h1 h3 rfl hset rfl rfl rfl rfl rfl rfl rfl (fun _ h => h) hdone
        (by rw [hst]; decide) ?_ ?_
      · intro e
        simp only
        split
        · rename_i hcond
          simp only [List.mem_append, List.mem_singleton]
          constructor
          · rintro (h | h)
            · exact Or.inl h
            · refine Or.inr ⟨h, trivial, ?_, trivial⟩
              rcases hcond with hcond | hcond
              · rw [hst] at hcond h5
                first
                  | exact Or.inr (by obtain ⟨x, _, _, hg⟩ := h5; exact hg)
                  | cases hcond
              · exact Or.inl hcond
          · rintro (h | h)
            · exact Or.inl h
            · exact Or.inr h.1
        · constructor
          · exact Or.inl
          · rintro (h | ⟨_, _, _, h⟩)
            · exact h
            · exfalso
              have := congrArg List.length h
              simp at this
      · intro _ hx
        simp [hx]

theorem Inv.main {base : Nat} {s : State} (hi : Inv base s) (hb : base ≤ s.sys.handlers.length) : Inv base (mainStep s) := by
  unfold mainStep
  split
  · rename_i hpc
    have hd := hi.distinct
    have hbd := hi.bound
    rw [hpc] at hd hbd
    split
    · rename_i code hc
      exact ⟨hi.threads, hi.served, hi.quiet, hi.conns, hd, hi.handlers, hbd, hc, hi.zero, hi.errors, hi.kept⟩
    · exact ⟨hi.threads, hi.served, hi.quiet, hi.conns, hd, hi.handlers, hbd, trivial, hi.zero, hi.errors, hi.kept⟩
  · rename_i code hpc
    have hd := hi.distinct
    have hbd := hi.bound
    have hp := hi.pc
    rw [hpc] at hd hbd hp
    have hp' : s.cargo = some code := hp
    split
    · exact ⟨hi.threads, hi.served, hi.quiet, hi.conns, hd, hi.handlers, hbd, by simp [PcOk, hp'], hi.zero, hi.errors, hi.kept⟩
    · split
      · rename_i h0
        exact ⟨hi.threads, hi.served, hi.quiet, hi.conns, hd, hi.handlers, hbd, by simp [PcOk, hp', h0], hi.zero, hi.errors, hi.kept⟩
      · exact ⟨hi.threads, hi.served, hi.quiet, hi.conns, hd, hi.handlers, hbd, by simp [PcOk, hp'], hi.zero, hi.errors, hi.kept⟩
  · rename_i hpc
    have hd := hi.distinct
    have hbd := hi.bound
    rw [hpc] at hd hbd
    split
    · exact ⟨hi.threads, hi.served, hi.quiet, hi.conns, hd, hi.handlers, hbd, trivial, hi.zero, hi.errors, hi.kept⟩
    · refine ⟨hi.threads, hi.served, hi.quiet, hi.conns, hd, hi.handlers, hbd, trivial, ?_, hi.errors, hi.kept⟩
      intro hz
      apply hi.zero
      simp only at hz
      cases hc : s.cargo with
      | none => rw [hc] at hz; cases hz
      | some x => rw [hc] at hz; exact hz
  · rename_i hpc
    have hd := hi.distinct
    have hbd := hi.bound
    rw [hpc] at hd hbd
    split
    · exact ⟨hi.threads, hi.served, hi.quiet, hi.conns, hd, hi.handlers, hbd, trivial, hi.zero, hi.errors, hi.kept⟩
    · rename_i c q hq
      rw [hq] at hd hbd
      exact ⟨hi.threads, hi.served, hi.quiet, hi.conns, hd, hi.handlers, hbd, trivial, hi.zero, hi.errors, hi.kept⟩
  · rename_i c hpc
    have hd := hi.distinct
    have hbd := hi.bound
    rw [hpc] at hd hbd
    split
    · exact hi
    · refine ⟨hi.threads, hi.served, hi.quiet, hi.conns, ?_, hi.handlers, ?_, trivial, hi.zero, hi.errors, hi.kept⟩
      · simp only [readingConn, List.nil_append]
        simp only [readingConn, List.cons_append, List.nil_append] at hd
        exact (List.nodup_cons.mp hd).2
      · intro x hx
        exact hbd x (by simp only [readingConn, List.nil_append, List.cons_append, List.mem_cons] at hx ⊢; exact Or.inr hx)
    · rename_i r hr
      obtain ⟨d, hd1, hd2⟩ := Option.bind_eq_some_iff.mp hr
      have hnew : c ∉ s.threads.map (·.conn) := by
        simp only [readingConn, List.cons_append, List.nil_append] at hd
        intro h
        exact (List.nodup_cons.mp hd).1 (List.mem_append_right _ h)
      have hans : d.answer = none := by
        cases ha : d.answer with
        | none => rfl
        | some o =>
          obtain ⟨t, ht, he⟩ := hi.conns c d hd1 (by rw [ha]; simp)
          exact absurd (List.mem_map.mpr ⟨t, ht, he⟩) hnew
      have hold : ∀ (i : Nat) (h : Handler), s.sys.handlers[i]? = some h → (s.sys.handlers ++ [({ req := r } : Handler)])[i]? = some h := by
        intro i h hh
        rw [List.getElem?_append_left (List.getElem?_eq_some_iff.mp hh).1, hh]
      refine ⟨?_, ?_, ?_, ?_, ?_, ?_, ?_, trivial, hi.zero, ?_, ?_⟩
      · intro t ht
        rcases List.mem_append.mp ht with ht | ht
        · obtain ⟨⟨c0, r0, h, h1, h2, h3, h4, h5⟩, hb⟩ := hi.threads t ht
          exact ⟨⟨c0, r0, h, h1, h2, hold _ _ h3, h4, h5⟩, hb⟩
        · simp only [List.mem_singleton] at ht
          subst ht
          exact ⟨⟨d, r, { req := r }, hd1, hd2, by simp, rfl, hans⟩, hb⟩
      · intro i h1 h2
        simp only [List.length_append, List.length_cons, List.length_nil] at h2
        by_cases hlt : i < s.sys.handlers.length
        · obtain ⟨t, ht, he⟩ := hi.served i h1 hlt
          exact ⟨t, List.mem_append_left _ ht, he⟩
        · exact ⟨_, List.mem_append_right _ (List.mem_singleton.mpr rfl), by simp only; omega⟩
      · intro h hh
        rcases List.mem_append.mp hh with hh | hh
        · exact hi.quiet h hh
        · simp only [List.mem_singleton] at hh
          subst hh
          exact fun _ => Or.inl rfl
      · intro i x hx hne
        obtain ⟨t, ht, he⟩ := hi.conns i x hx hne
        exact ⟨t, List.mem_append_left _ ht, he⟩
      · simp only [readingConn, List.cons_append, List.nil_append] at hd ⊢
        rw [List.map_append]
        have hp : (s.queue ++ (s.threads.map (·.conn) ++ [c])).Perm (c :: (s.queue ++ s.threads.map (·.conn))) := by
          rw [← List.append_assoc]
          exact List.perm_append_singleton _ _
        exact hp.nodup_iff.mpr hd
      · rw [List.map_append]
        refine List.nodup_append.mpr ⟨hi.handlers, by simp, ?_⟩
        intro a ha b hb
        simp only [List.map_cons, List.map_nil, List.mem_singleton] at hb
        subst hb
        intro e
        obtain ⟨t, ht, he⟩ := List.mem_map.mp ha
        obtain ⟨⟨_, _, _, _, _, h3, _⟩, _⟩ := hi.threads t ht
        have := (List.getElem?_eq_some_iff.mp h3).1
        omega
      · intro x hx
        simp only [readingConn, List.cons_append, List.nil_append] at hbd hx
        rw [List.map_append] at hx
        simp only [List.mem_append, List.map_cons, List.map_nil, List.mem_singleton] at hx
        rcases hx with hx | hx | hx
        · exact hbd x (by simp [hx])
        · exact hbd x (by simp only [List.mem_cons, List.mem_append]; exact Or.inr (Or.inr hx))
        · exact hbd x (by simp [hx])
      · intro e he
        obtain ⟨t, c0, h, h1, h2, h3, h4, h5⟩ := hi.errors e he
        refine ⟨t, c0, h, ?_, h2, hold _ _ h3, h4, h5⟩
        rw [List.getElem?_append_left (List.getElem?_eq_some_iff.mp h1).1, h1]
      · intro j t h h1 h2 h3 h4
        by_cases hlt : j < s.threads.length
        · rw [List.getElem?_append_left hlt] at h1
          obtain ⟨⟨_, _, h0, _, _, h3', _⟩, _⟩ := hi.threads t (List.mem_of_getElem? h1)
          have h3'' := hold _ _ h3'
          have : h = h0 := by
            have := h3.symm.trans h3''
            exact Option.some.inj this
          subst this
          exact hi.kept j t h h1 h2 h3' h4
        · rw [List.getElem?_append_right (by omega)] at h1
          cases hk : j - s.threads.length with
          | zero =>
            rw [hk] at h1
            simp only [List.getElem?_cons_zero, Option.some.injEq] at h1
            subst h1
            cases h2
          | succ k => rw [hk] at h1; simp at h1
  · exact hi

theorem Inv.act {base : Nat} {P : Parts} {s : State} (hi : Inv base s) (a : Act) (hp : a.Possible s) : Inv base (act P s a) := by
  cases a with
  | thread j => exact hi.thread j
  | check i => exact hi.onSys (handlerStep_moves _ _ _ _) (handlerStep_quiet hi.quiet)
  | resume i cfg => exact hi.onSys (handlerStep_moves _ _ _ _) (handlerStep_quiet hi.quiet)
  | giveUp i => exact hi.onSys (handlerStep_moves _ _ _ _) (handlerStep_quiet hi.quiet)
  | load cfg => exact hi.onSys ⟨rfl, fun _ h hh => ⟨h, hh, rfl, fun _ => rfl⟩⟩ hi.quiet
  | connect b => exact hi.connect hp
  | send c m =>
    refine hi.onConn (fun c => ⟨rfl, ?_, rfl, id⟩)
    intro hne
    cases hm : c.message with
    | none => exact absurd hm hne
    | some m => rfl
  | hangUp c =>
    refine hi.onConn (fun c => ⟨rfl, ?_, rfl, fun _ => rfl⟩)
    intro hne
    cases hm : c.message with
    | none => exact absurd hm hne
    | some m => rfl
  | exit code =>
    obtain ⟨h1, h2⟩ := hp
    refine ⟨hi.threads, hi.served, hi.quiet, hi.conns, hi.distinct, hi.handlers, hi.bound, ?_, ?_, hi.errors, hi.kept⟩
    · have := hi.pc
      simp only [Server.act, h1]
      rw [h1] at this
      cases hpc : s.pc with
      | ending c => rw [hpc] at this; cases this
      | returned r =>
        rw [hpc] at this
        cases r with
        | ok => cases this
        | error e => exact absurd rfl this
        | status => exact absurd rfl this
        | malformed => trivial
      | top => trivial
      | checkAbort => trivial
      | accept => trivial
      | reading c => trivial
    · intro hz
      simp only [Server.act, h1, Option.none_or, Option.some.injEq] at hz
      exact h2 hz
  | quit => exact ⟨hi.threads, hi.served, hi.quiet, hi.conns, hi.distinct, hi.handlers, hi.bound, hi.pc, hi.zero, hi.errors, hi.kept⟩

theorem mainStep_handlers (s : State) : s.sys.handlers.length ≤ (mainStep s).sys.handlers.length := by
  unfold mainStep
  repeat' split
  all_goals simp

theorem threadStep_sys (s : State) (j : Nat) : (threadStep s j).sys = s.sys := by
  unfold threadStep signal answer sendError
  repeat' split
  all_goals rfl

theorem act_handlers (P : Parts) (s : State) (a : Act) : (act P s a).sys.handlers.length = s.sys.handlers.length := by
  cases a with
  | thread j => simp only [act, threadStep_sys]
  | check i => exact (handlerStep_moves _ _ _ _).length
  | resume i cfg => exact (handlerStep_moves _ _ _ _).length
  | giveUp i => exact (handlerStep_moves _ _ _ _).length
  | send c m => simp only [act, onConn]; split <;> rfl
  | hangUp c => simp only [act, onConn]; split <;> rfl
  | _ => rfl

/-- The invariant holds in all executions. -/
theorem Inv.exec {P : Parts} {base : Nat} {s s' : State} {n : Nat} (h : Exec P s n s') (hi : Inv base s)
    (hb : base ≤ s.sys.handlers.length) : Inv base s' ∧ base ≤ s'.sys.handlers.length := by
  induction h with
  | refl => exact ⟨hi, hb⟩
  | main h hn ih => exact ⟨ih.1.main ih.2, Nat.le_trans ih.2 (mainStep_handlers _)⟩
  | act a h hp ih => exact ⟨ih.1.act a hp, by rw [act_handlers]; exact ih.2⟩

/-- The invariant holds at the start. -/
theorem Inv.start {sys : Sys} (hq : ∀ h ∈ sys.handlers, Quiet h) : Inv sys.handlers.length { sys := sys } := by
  refine ⟨by simp, ?_, hq, by simp, by simp [readingConn], by simp, by simp [readingConn], trivial, by simp, by simp, by simp⟩
  intro i h1 h2
  exact absurd h2 (by simp only; omega)

/-- What the handlers do in an execution is a `SysRun`. -/
theorem exec_run {P : Parts} {idx : Index} {s s' : State} {n : Nat} (h : Exec P s n s') {links : List LinkInfo}
    {log : List Analysis} {tr : List CEv} (hr : SysRun P idx s.sys links log tr) :
    ∃ links' log' tr', SysRun P idx s'.sys links' log' tr' ∧ ∀ l ∈ links, l ∈ links' := by
  induction h with
  | refl => exact ⟨links, log, tr, hr, fun _ h => h⟩
  | @main s' n h hn ih =>
    obtain ⟨l, g, t, h1, h2⟩ := ih
    unfold mainStep
    repeat' split
    all_goals first
      | exact ⟨l, g, t, h1, h2⟩
      | exact ⟨l, g, t, .start _ h1, h2⟩
  | @act s' n a h hp ih =>
    obtain ⟨l, g, t, h1, h2⟩ := ih
    have step : ∀ (i : Nat) (b : Told), (∀ cfg, b = .resume (some cfg) → cfg.packages.keys.Nodup) →
        ∃ links' log' tr', SysRun P idx (handlerStep P s'.sys i b) links' log' tr' ∧ ∀ x ∈ links, x ∈ links' := by
      intro i b hb
      obtain ⟨l', g', t', e1, e2⟩ := handlerStep_run h1 i b hb
      exact ⟨l', g', t', e1, fun x hx => e2 x (h2 x hx)⟩
    cases a with
    | thread j => simp only [Server.act, threadStep_sys]; exact ⟨l, g, t, h1, h2⟩
    | check i => exact step i .check (fun _ e => by cases e)
    | resume i cfg =>
      refine step i (.resume cfg) (fun c e => ?_)
      cases e
      exact hp
    | giveUp i => exact step i .giveUp (fun _ e => by cases e)
    | load cfg => exact ⟨l, g, _, .load cfg hp h1, h2⟩
    | send c m => simp only [Server.act, onConn]; split <;> exact ⟨l, g, t, h1, h2⟩
    | hangUp c => simp only [Server.act, onConn]; split <;> exact ⟨l, g, t, h1, h2⟩
    | connect b => exact ⟨l, g, t, h1, h2⟩
    | exit code => exact ⟨l, g, t, h1, h2⟩
    | quit => exact ⟨l, g, t, h1, h2⟩

/-- What the handlers do in an execution is an `HRun`. -/
theorem exec_hrun {P : Parts} {idx : Index} {s s' : State} {n : Nat} (h : Exec P s n s') {tr : List HEv}
    (hr : HRun P idx s.sys tr) : ∃ tr', HRun P idx s'.sys tr' := by
  induction h with
  | refl => exact ⟨tr, hr⟩
  | main h hn ih =>
    obtain ⟨t, h1⟩ := ih
    unfold mainStep
    repeat' split
    all_goals first
      | exact ⟨t, h1⟩
      | exact ⟨t, .start _ h1⟩
  | @act s' n a h hp ih =>
    obtain ⟨t, h1⟩ := ih
    have step : ∀ (i : Nat) (b : Told), ∃ tr', HRun P idx (handlerStep P s'.sys i b) tr' := by
      intro i b
      unfold handlerStep
      split
      · exact ⟨t, h1⟩
      rename_i x hx
      split
      · rename_i hs
        exact ⟨_, .check i x hx hs h1⟩
      · rename_i retry cfg hs
        exact ⟨_, .resume i x retry hx hs cfg h1⟩
      · rename_i retry hs
        exact ⟨_, .giveUp i x retry hx hs h1⟩
      · exact ⟨t, h1⟩
    cases a with
    | thread j => simp only [Server.act, threadStep_sys]; exact ⟨t, h1⟩
    | check i => exact step i .check
    | resume i cfg => exact step i (.resume cfg)
    | giveUp i => exact step i .giveUp
    | load cfg => exact ⟨_, .load cfg h1⟩
    | send c m => simp only [Server.act, onConn]; split <;> exact ⟨t, h1⟩
    | hangUp c => simp only [Server.act, onConn]; split <;> exact ⟨t, h1⟩
    | connect b => exact ⟨t, h1⟩
    | exit code => exact ⟨t, h1⟩
    | quit => exact ⟨t, h1⟩

/-- A handler that has a result keeps it. -/
theorem exec_keeps {P : Parts} {s s' : State} {n : Nat} (h : Exec P s n s') :
    ∀ (i : Nat) (x : Handler), s.sys.handlers[i]? = some x → (resultOf x.status).isSome = true → s'.sys.handlers[i]? = some x := by
  induction h with
  | refl => exact fun _ _ h _ => h
  | @main s' n h hn ih =>
    intro i x hx hr
    have h1 := ih i x hx hr
    unfold mainStep
    repeat' split
    all_goals first
      | exact h1
      | simp only
        rw [List.getElem?_append_left (List.getElem?_eq_some_iff.mp h1).1, h1]
  | @act s' n a h hp ih =>
    intro i x hx hr
    have h1 := ih i x hx hr
    have step : ∀ (k : Nat) (b : Told), (handlerStep P s'.sys k b).handlers[i]? = some x := by
      intro k b
      obtain ⟨y, g1, g2, g3⟩ := (handlerStep_moves P s'.sys k b).keeps i x h1
      rw [g1, g3 hr]
    cases a with
    | thread j => simp only [Server.act, threadStep_sys]; exact h1
    | check i => exact step i .check
    | resume i cfg => exact step i (.resume cfg)
    | giveUp i => exact step i .giveUp
    | load cfg => exact h1
    | send c m => simp only [Server.act, onConn]; split <;> exact h1
    | hangUp c => simp only [Server.act, onConn]; split <;> exact h1
    | connect b => exact h1
    | exit code => exact h1
    | quit => exact h1

/-! ## Small facts about the steps of others -/

theorem act_pc (P : Parts) (s : State) (a : Act) : (act P s a).pc = s.pc := by
  cases a with
  | thread j =>
    simp only [act]
    unfold threadStep signal answer sendError
    repeat' split
    all_goals rfl
  | send c m => simp only [act, onConn]; split <;> rfl
  | hangUp c => simp only [act, onConn]; split <;> rfl
  | _ => rfl

theorem act_cargo (P : Parts) (s : State) (a : Act) (h : s.cargo ≠ none) : (act P s a).cargo = s.cargo := by
  cases a with
  | thread j =>
    simp only [act]
    unfold threadStep signal answer sendError
    repeat' split
    all_goals rfl
  | send c m => simp only [act, onConn]; split <;> rfl
  | hangUp c => simp only [act, onConn]; split <;> rfl
  | exit code =>
    simp only [act]
    cases hc : s.cargo with
    | none => exact absurd hc h
    | some x => rfl
  | _ => rfl

theorem act_aborts (P : Parts) (s : State) (a : Act) : s.aborts ≤ (act P s a).aborts := by
  cases a with
  | thread j =>
    simp only [act]
    unfold threadStep signal answer sendError
    repeat' split
    all_goals first
      | exact Nat.le_refl _
      | exact Nat.le_succ _
      | (simp only; split <;> omega)
  | send c m => simp only [act, onConn]; split <;> exact Nat.le_refl _
  | hangUp c => simp only [act, onConn]; split <;> exact Nat.le_refl _
  | quit => exact Nat.le_succ _
  | _ => exact Nat.le_refl _

theorem act_errors (P : Parts) (s : State) (a : Act) : ∀ e ∈ s.errors, e ∈ (act P s a).errors := by
  intro e he
  cases a with
  | thread j =>
    simp only [act]
    unfold threadStep signal answer sendError
    repeat' split
    all_goals first
      | exact he
      | exact List.mem_append_left _ he
      | (simp only; split <;> simp [he])
  | send c m => simp only [act, onConn]; split <;> exact he
  | hangUp c => simp only [act, onConn]; split <;> exact he
  | _ => exact he

theorem mainStep_errors (s : State) : (mainStep s).errors = s.errors := by
  unfold mainStep
  repeat' split
  all_goals rfl

/-- The error that is returned is one in the channel. -/
theorem returned_error {P : Parts} {s s' : State} {n : Nat} (h : Exec P s n s') (h0 : ∀ e, s.pc = .returned (.error e) → e ∈ s.errors) :
    ∀ e, s'.pc = .returned (.error e) → e ∈ s'.errors := by
  induction h with
  | refl => exact h0
  | @main s' n h hn ih =>
    intro e he
    rw [mainStep_errors]
    unfold mainStep at he
    repeat' split at he
    all_goals first
      | exact ih e he
      | (simp only [Pc.returned.injEq, Result.error.injEq] at he; subst he; rename_i hh; rw [hh]; exact List.mem_cons_self)
      | cases he
  | @act s' n a h hp ih =>
    intro e he
    rw [act_pc] at he
    exact act_errors P s' a e (ih e he)

/-- The signal to abort is under way, or cargo has ended. -/
def Stopping (s : State) : Prop := 0 < s.aborts ∨ s.cargo ≠ none

theorem Stopping.main {s : State} (h : Stopping s) : Stopping (mainStep s) := by
  unfold mainStep
  repeat' split
  all_goals first
    | exact h
    | (right; simp only; cases s.cargo <;> simp)

theorem Stopping.act {P : Parts} {s : State} (h : Stopping s) (a : Act) : Stopping (act P s a) := by
  rcases h with h | h
  · exact Or.inl (Nat.lt_of_lt_of_le h (act_aborts P s a))
  · exact Or.inr (by rw [act_cargo P s a h]; exact h)

/-- Whoever has passed the signal and was refused has sent it. -/
def Signalled (s : State) : Prop :=
  ∀ t ∈ s.threads, t.stage ≠ .handling → ∀ (x : Option Outcome), threadResult s t = some x → x.getD .giveUp = .giveUp → Stopping s

theorem Signalled.onSys {base : Nat} {s : State} (hi : Inv base s) (hs : Signalled s) {sys : Sys} (hm : Moves s.sys sys) :
    Signalled { s with sys := sys } := by
  intro t ht hst x hx ho
  obtain ⟨⟨c, r, h, h1, h2, h3, h4, h5⟩, _⟩ := hi.threads t ht
  have hres : ∃ y, resultOf h.status = some y := by
    cases hst' : t.stage <;> rw [hst'] at h5 hst
    · exact absurd rfl hst
    all_goals obtain ⟨y, h6, _⟩ := h5; exact ⟨y, h6⟩
  obtain ⟨y, hy⟩ := hres
  obtain ⟨h', g1, _, g3⟩ := hm.keeps _ _ h3
  rw [g3 (by rw [hy]; rfl)] at g1
  refine hs t ht hst x ?_ ho
  simp only [threadResult, g1, h3] at hx ⊢
  exact hx

theorem Signalled.thread {base : Nat} {s : State} (hi : Inv base s) (hs : Signalled s) (j : Nat) : Signalled (threadStep s j) := by
  by_cases hstop : Stopping s
  · intro _ _ _ _ _ _
    exact hstop.act (P := { scan := fun _ _ => none, report := fun _ _ _ => none }) (.thread j)
  intro t ht hst x hx ho
  have hsys : threadResult (threadStep s j) t = threadResult s t := by simp only [threadResult, threadStep_sys]
  rw [hsys] at hx
  cases htj : s.threads[j]? with
  | none =>
    rw [show threadStep s j = s by simp [threadStep, htj]] at ht ⊢
    exact hs t ht hst x hx ho
  | some u =>
    by_cases hold : ∃ t' ∈ s.threads, t'.stage ≠ .handling ∧ t'.handler = t.handler
    · obtain ⟨t', h1, h2, h3⟩ := hold
      exact absurd (hs t' h1 h2 x (by rw [← hx]; simp only [threadResult, h3]) ho) hstop
    · have hmem := List.mem_of_getElem? htj
      have hu : u.stage = .handling := by
        cases hus : u.stage with
        | handling => rfl
        | done =>
          rw [show threadStep s j = s by simp [threadStep, htj, hus]] at ht
          exact absurd ⟨t, ht, hst, rfl⟩ hold
        | _ =>
          exfalso
          have : t ∈ s.threads ∨ t.handler = u.handler := by
            simp only [threadStep, htj, hus] at ht
            first
              | unfold answer at ht
              | unfold sendError at ht
            repeat' split at ht
            all_goals first
              | exact Or.inl ht
              | (rcases List.mem_or_eq_of_mem_set ht with h | h
                 · exact Or.inl h
                 · exact Or.inr (by rw [h]))
          rcases this with h | h
          · exact hold ⟨t, h, hst, rfl⟩
          · exact hold ⟨u, hmem, (by rw [hus]; intro h; cases h), h.symm⟩
      simp only [threadStep, htj, hu, signal] at ht ⊢
      cases hr : threadResult s u with
      | none => rw [hr] at ht; exact absurd ⟨t, ht, hst, rfl⟩ hold
      | some y =>
        rw [hr] at ht
        simp only at ht ⊢
        rcases List.mem_or_eq_of_mem_set ht with h | h
        · exact absurd ⟨t, h, hst, rfl⟩ hold
        · subst h
          simp only [threadResult] at hx hr
          rw [hr] at hx
          cases hx
          left
          simp only [ho, if_true]
          omega

theorem Signalled.exec {P : Parts} {base : Nat} {s s' : State} {n : Nat} (h : Exec P s n s') (hi : Inv base s)
    (hb : base ≤ s.sys.handlers.length) (hs : Signalled s) : Signalled s' := by
  induction h with
  | refl => exact hs
  | @main s' n h hn ih =>
    have hi' := (Inv.exec h hi hb).1
    intro t ht hst x hx ho
    have : t ∈ s'.threads ∧ threadResult s' t = some x := by
      have hmem : t ∈ s'.threads := by
        unfold mainStep at ht
        repeat' split at ht
        all_goals first
          | exact ht
          | (rcases List.mem_append.mp ht with h | h
             · exact h
             · rw [List.mem_singleton.mp h] at hst; exact absurd rfl hst)
      refine ⟨hmem, ?_⟩
      obtain ⟨⟨c, r, h, h1, h2, h3, h4, h5⟩, _⟩ := hi'.threads t hmem
      have : (mainStep s').sys.handlers[t.handler]? = some h := by
        unfold mainStep
        repeat' split
        all_goals first
          | exact h3
          | (simp only; rw [List.getElem?_append_left (List.getElem?_eq_some_iff.mp h3).1]; exact h3)
      simp only [threadResult, this] at hx
      simp only [threadResult, h3]
      exact hx
    exact (ih t this.1 hst x this.2 ho).main
  | @act s' n a h hp ih =>
    have hi' := (Inv.exec h hi hb).1
    cases a with
    | thread j => exact Signalled.thread hi' ih j
    | check i => exact Signalled.onSys hi' ih (handlerStep_moves _ _ _ _)
    | resume i cfg => exact Signalled.onSys hi' ih (handlerStep_moves _ _ _ _)
    | giveUp i => exact Signalled.onSys hi' ih (handlerStep_moves _ _ _ _)
    | load cfg => exact Signalled.onSys hi' ih ⟨rfl, fun _ h hh => ⟨h, hh, rfl, fun _ => rfl⟩⟩
    | connect b => exact ih
    | send c m => simp only [Server.act, onConn]; split <;> exact ih
    | hangUp c => simp only [Server.act, onConn]; split <;> exact ih
    | exit code => intro t ht hst x hx ho; exact (ih t ht hst x hx ho).act (P := P) (.exit code)
    | quit => intro t ht hst x hx ho; exact (ih t ht hst x hx ho).act (P := P) .quit

/-- How many steps the main thread may need until it looks at the abort channel. -/
def abortRank : Pc → Nat
  | .checkAbort => 1
  | .top => 2
  | .reading _ => 3
  | .accept => 4
  | _ => 0

/-- How many steps the main thread may need to return. -/
def endRank : Pc → Nat
  | .returned _ => 0
  | .ending _ => 1
  | .top => 2
  | .reading _ => 3
  | .accept => 4
  | .checkAbort => 5

end Cackle.Server
