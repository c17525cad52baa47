import Verif.Lemmas.Server
import Verif.Props.Main

/-!
# C109 to C114: running cargo and serving its requests
-/

namespace Cackle.Server
open Cackle Checker Config

/-- A state that can be reached during the build, which starts when everything before it went well. -/
def Reachable (P : Parts) (s : State) : Prop :=
  ∃ (sys : Sys) (n : Nat), (∀ h ∈ sys.handlers, h.status = .finished .continue_) ∧ Exec P { sys := sys } n s

theorem inv_of {P : Parts} {sys : Sys} {n : Nat} {s : State} (h0 : ∀ h ∈ sys.handlers, h.status = .finished .continue_)
    (h : Exec P { sys := sys } n s) : Inv sys.handlers.length s :=
  (Inv.exec h (Inv.start (fun x hx _ => Or.inr (h0 x hx))) (Nat.le_refl _)).1

/-- The request has been handled, to its end and without a complaint, and this is what the program was told. -/
def Approved (s : State) (c : Conn) : Prop :=
  c.answer = some .continue_ ∧
    ∃ (r : Request) (i : Nat) (h : Handler), c.message = some (.request r) ∧ s.sys.handlers[i]? = some h ∧ h.req = r ∧
      h.status = .finished .continue_

/-! ## C112: answers -/

/-- What a handler says: to continue, or not. -/
def Says (h : Handler) (o : Outcome) : Prop :=
  (o = .continue_ ∧ h.status = .finished .continue_) ∨ (o = .giveUp ∧ (h.status = .finished .giveUp ∨ h.status = .failed))

/-- C112: a program gets the result of handling its own request as answer. -/
theorem C112_own_answer {P : Parts} {s : State} (hr : Reachable P s) {i : Nat} {c : Conn} {o : Outcome} (hc : s.conns[i]? = some c)
    (ha : c.answer = some o) :
    ∃ (r : Request) (k : Nat) (h : Handler), c.message = some (.request r) ∧ s.sys.handlers[k]? = some h ∧ h.req = r ∧ Says h o ∧
      ∀ (j : Nat) (d : Conn) (p : Outcome), s.conns[j]? = some d → d.answer = some p → j ≠ i →
        ∃ (k' : Nat) (h' : Handler), s.sys.handlers[k']? = some h' ∧ d.message = some (.request h'.req) ∧ Says h' p ∧ k' ≠ k := by
  obtain ⟨sys, n, h0, he⟩ := hr
  have hi := inv_of h0 he
  have key : ∀ (i : Nat) (c : Conn) (o : Outcome), s.conns[i]? = some c → c.answer = some o →
      ∃ t ∈ s.threads, t.conn = i ∧ ∃ r h, c.message = some (.request r) ∧ s.sys.handlers[t.handler]? = some h ∧ h.req = r ∧ Says h o := by
    intro i c o hc ha
    obtain ⟨t, ht, rfl⟩ := hi.conns i c hc (by rw [ha]; simp)
    obtain ⟨⟨c', r, h, h1, h2, h3, h4, h5⟩, _⟩ := hi.threads t ht
    rw [hc] at h1; cases h1
    refine ⟨t, ht, rfl, r, h, h2, h3, h4, ?_⟩
    have hres : ∃ x, resultOf h.status = some x ∧ o = x.getD .giveUp := by
      cases hst : t.stage <;> rw [hst] at h5 <;> simp only [StageOk, ha] at h5
      · cases h5
      · obtain ⟨x, _, h⟩ := h5; cases h
      · obtain ⟨x, h6, h7⟩ := h5; exact ⟨x, h6, Option.some.inj h7⟩
      · obtain ⟨x, _, h, _⟩ := h5; cases h
      · obtain ⟨x, h6, h7 | ⟨h7, _⟩⟩ := h5
        · exact ⟨x, h6, Option.some.inj h7⟩
        · cases h7
    obtain ⟨x, h6, rfl⟩ := hres
    cases hs : h.status with
    | running => rw [hs] at h6; cases h6
    | waiting b => rw [hs] at h6; cases h6
    | failed => rw [hs] at h6; cases h6; exact Or.inr ⟨rfl, Or.inr hs⟩
    | finished p =>
      rw [hs] at h6; cases h6
      cases p with
      | continue_ => exact Or.inl ⟨rfl, hs⟩
      | giveUp => exact Or.inr ⟨rfl, Or.inl hs⟩
  obtain ⟨t, ht, rfl, r, h, h1, h2, h3, h4⟩ := key i c o hc ha
  refine ⟨r, t.handler, h, h1, h2, h3, h4, ?_⟩
  intro j d p hd hp hne
  obtain ⟨t', ht', rfl, r', h', g1, g2, g3, g4⟩ := key j d p hd hp
  refine ⟨t'.handler, h', g2, by rw [g1, g3], g4, ?_⟩
  intro heq
  obtain ⟨a, ha'⟩ := List.getElem?_of_mem ht
  obtain ⟨b, hb'⟩ := List.getElem?_of_mem ht'
  have hal : a < s.threads.length := (List.getElem?_eq_some_iff.mp ha').1
  have e1 : (s.threads.map (·.handler))[a]? = some t.handler := by simp [ha']
  have e2 : (s.threads.map (·.handler))[b]? = some t'.handler := by simp [hb']
  rw [heq, ← e1] at e2
  have := (List.getElem?_inj (by simpa using hal) hi.handlers).mp e2.symm
  subst this
  rw [ha'] at hb'
  cases hb'
  exact hne rfl

/-- An answer is final. -/
theorem C112_answer_final {P : Parts} {s s' : State} {n : Nat} (hr : Reachable P s) (h : Exec P s n s') {i : Nat} {c : Conn} {o : Outcome}
    (hc : s.conns[i]? = some c) (ha : c.answer = some o) : ∃ c', s'.conns[i]? = some c' ∧ c'.answer = some o := by
  obtain ⟨sys, m, h0, he⟩ := hr
  have hi := inv_of h0 he
  have hb : sys.handlers.length ≤ s.sys.handlers.length :=
    (Inv.exec he (Inv.start (fun x hx _ => Or.inr (h0 x hx))) (Nat.le_refl _)).2
  clear he
  have hall : ∃ c', s'.conns[i]? = some c' ∧ c'.answer = some o := by
    induction h with
    | refl => exact ⟨c, hc, ha⟩
    | @main s' n h hn ih =>
      obtain ⟨c', h1, h2⟩ := ih
      have : (mainStep s').conns = s'.conns := by
        unfold mainStep
        repeat' split
        all_goals rfl
      rw [this]
      exact ⟨c', h1, h2⟩
    | @act s' n a h hp ih =>
      obtain ⟨c', h1, h2⟩ := ih
      have hi' := (Inv.exec h hi hb).1
      have onc : ∀ (k : Nat) (f : Conn → Conn), (∀ x, (f x).answer = x.answer) →
          ∃ c', (onConn s' k f).conns[i]? = some c' ∧ c'.answer = some o := by
        intro k f hf
        unfold onConn
        split
        · exact ⟨c', h1, h2⟩
        rename_i x hx
        by_cases hk : k = i
        · subst hk
          rw [h1] at hx; cases hx
          exact ⟨f c', by simp [(List.getElem?_eq_some_iff.mp h1).1], by rw [hf, h2]⟩
        · exact ⟨c', by simp only; rw [List.getElem?_set_ne hk]; exact h1, h2⟩
      cases a with
      | thread j =>
        simp only [Server.act]
        unfold threadStep
        split
        · exact ⟨c', h1, h2⟩
        rename_i t ht
        split
        · unfold signal; split <;> exact ⟨c', h1, h2⟩
        · rename_i hst
          unfold answer
          split
          · rename_i r d hr hd
            split
            · exact ⟨c', h1, h2⟩
            · by_cases hk : t.conn = i
              · subst hk
                rw [h1] at hd; cases hd
                obtain ⟨⟨c0, _, hh, g1, _, _, _, g5⟩, _⟩ := hi'.threads t (List.mem_of_getElem? ht)
                rw [h1] at g1; cases g1
                rw [hst] at g5
                obtain ⟨_, _, g6⟩ := g5
                rw [h2] at g6; cases g6
              · exact ⟨c', by simp only; rw [List.getElem?_set_ne hk]; exact h1, h2⟩
          · exact ⟨c', h1, h2⟩
        · unfold sendError; exact ⟨c', h1, h2⟩
        · unfold sendError; exact ⟨c', h1, h2⟩
        · exact ⟨c', h1, h2⟩
      | check i => exact ⟨c', h1, h2⟩
      | resume i cfg => exact ⟨c', h1, h2⟩
      | giveUp i => exact ⟨c', h1, h2⟩
      | load cfg => exact ⟨c', h1, h2⟩
      | connect b =>
        refine ⟨c', ?_, h2⟩
        simp only [Server.act]
        rw [List.getElem?_append_left (List.getElem?_eq_some_iff.mp h1).1, h1]
      | send k m => exact onc k _ (fun _ => rfl)
      | hangUp k => exact onc k _ (fun _ => rfl)
      | exit code => exact ⟨c', h1, h2⟩
      | quit => exact ⟨c', h1, h2⟩
  exact hall

/-! ## C109: success -/

/-- C109: if the build succeeds, every request that was made has been approved. -/
def C109_Claim : Prop :=
  ∀ (P : Parts) (s : State), Reachable P s → s.pc = .returned .ok →
    ∀ c ∈ s.conns, ∀ r, c.message = some (.request r) → Approved s c

/-- C109, partial: it holds for every program whose failure makes cargo fail; all of them have made their request. Missing: other
programs. -/
theorem C109_success_partial {P : Parts} {s : State} (hr : Reachable P s) (hok : s.pc = .returned .ok) :
    ∀ c ∈ s.conns, c.required = true → Approved s c := by
  intro c hc hreq
  have hr' := hr
  obtain ⟨sys, n, h0, he⟩ := hr
  have hi := inv_of h0 he
  have hz : s.cargo = some (some 0) := by
    have := hi.pc
    rw [hok] at this
    exact this
  obtain ⟨r, o, h1, h2, h3⟩ := hi.zero hz c hc hreq
  obtain ⟨i, hi'⟩ := List.getElem?_of_mem hc
  obtain ⟨r', k, h, g1, g2, g3, g4, _⟩ := C112_own_answer hr' hi' h2
  rw [h1] at g1
  cases g1
  have hs : o = .continue_ ∧ h.status = .finished .continue_ := by
    rcases g4 with g4 | ⟨e1, e2⟩
    · exact g4
    · exfalso
      by_cases hres : Respects r
      · rw [h3 hres] at e1; cases e1
      · have := hi.quiet h (List.mem_of_getElem? g2) (by rw [g3]; exact hres)
        rcases this with e | e <;> rw [e] at e2 <;> rcases e2 with e2 | e2 <;> cases e2
  exact ⟨by rw [h2, hs.1], r, k, h, h1, g2, g3, hs.2⟩

/-- C109 with C65: the last check of each such request found nothing, or only problems after which the program repeats its work, and these
were solved. -/
theorem C109_checked {P : Parts} {idx : Index} {sys : Sys} {tr : List HEv} {n : Nat} {s : State} (hs : HRun P idx sys tr)
    (h0 : ∀ h ∈ sys.handlers, h.status = .finished .continue_) (he : Exec P { sys := sys } n s) (hok : s.pc = .returned .ok) :
    ∃ tr', HRun P idx s.sys tr' ∧ ∀ c ∈ s.conns, c.required = true → ∃ (r : Request) (i : Nat) (h : Handler), c.message = some (.request r) ∧
      s.sys.handlers[i]? = some h ∧ h.req = r ∧
      ((∃ rest, history tr' i = .checked i [] :: rest) ∨
        ∃ ps rest, history tr' i = .resolved i :: .checked i ps :: rest ∧ ps ≠ [] ∧ ∀ p ∈ ps, RepeatedBySubprocess p) := by
  obtain ⟨tr', ht⟩ := exec_hrun he hs
  refine ⟨tr', ht, ?_⟩
  intro c hc hreq
  obtain ⟨_, r, i, h, h1, h2, h3, h4⟩ := C109_success_partial ⟨sys, n, h0, he⟩ hok c hc hreq
  exact ⟨r, i, h, h1, h2, h3, C65_continue_means_checked P idx s.sys tr' ht i h h2 h4⟩

/-- C109 with C15: if cackle reports success after a full run, in which all connections are those of programs that cargo needs, then all
requests were approved and no reported linking is left without an analysis. -/
theorem C109_succeeded {P : Parts} {idx : Index} {sys : Sys} {links : List LinkInfo} {log : List Analysis} {tr : List CEv}
    {n : Nat} {s : State} {p : Main.Phases} {store : Store.State} {str : List Store.Ev}
    (hs : SysRun P idx sys links log tr) (he : Exec P { sys := sys } n s) (hf : Main.Fits p store str)
    (hinit : p.initial = some .continue_ → ∀ h ∈ sys.handlers, h.status = .finished .continue_)
    (hbuild : p.build = decide (s.pc = .returned .ok)) (hunused : p.unused = checkUnused s.sys.checker)
    (hreq : ∀ c ∈ s.conns, c.required = true) (h : Main.success true p = true) :
    ∃ links' log' tr', SysRun P idx s.sys links' log' tr' ∧
      (∀ c ∈ s.conns, ∀ li, c.message = some (.request (.linkerInvoked li)) → li ∈ links') ∧
      Succeeded s.sys := by
  obtain ⟨_, _, _, _, h5, _, _, _, h9, _, h11⟩ := Main.C15_success true p store str hf s.sys.checker hunused h
  have h0 := hinit h5
  have hok : s.pc = .returned .ok := by
    rw [hbuild] at h9
    simpa using h9
  have hi := inv_of h0 he
  obtain ⟨l, g, t, e1, _⟩ := exec_run he hs
  have happ := C109_success_partial ⟨sys, n, h0, he⟩ hok
  refine ⟨l, g, t, e1, ?_, ?_⟩
  · intro c hc li hm
    obtain ⟨_, r, i, x, g1, g2, g3, g4⟩ := happ c hc (hreq c hc)
    rw [hm] at g1
    cases g1
    exact linked_reported e1 x (List.mem_of_getElem? g2) li g3 (by rw [g4]; intro e; cases e)
  · refine ⟨?_, ?_⟩
    · intro x hx
      obtain ⟨i, hx'⟩ := List.getElem?_of_mem hx
      have hlt : i < s.sys.handlers.length := (List.getElem?_eq_some_iff.mp hx').1
      by_cases hb : sys.handlers.length ≤ i
      · obtain ⟨th, ht, rfl⟩ := hi.served i hb hlt
        obtain ⟨⟨c, r, y, f1, f2, f3, f4, f5⟩, _⟩ := hi.threads th ht
        rw [hx'] at f3
        cases f3
        obtain ⟨ha, _⟩ := happ c (List.mem_of_getElem? f1) (hreq c (List.mem_of_getElem? f1))
        obtain ⟨r', k, z, q1, q2, q3, q4, _⟩ := C112_own_answer ⟨sys, n, h0, he⟩ f1 ha
        cases hst : th.stage <;> rw [hst] at f5 <;> simp only [StageOk, ha] at f5
        · cases f5
        · obtain ⟨_, _, f⟩ := f5; cases f
        · obtain ⟨v, f6, f7⟩ := f5
          cases hv : x.status with
          | running => rw [hv] at f6; cases f6
          | waiting b => rw [hv] at f6; cases f6
          | failed => rw [hv] at f6; cases f6; cases f7
          | finished o => rw [hv] at f6; cases f6; cases o <;> first | rfl | cases f7
        · obtain ⟨_, _, f, _⟩ := f5; cases f
        · obtain ⟨v, f6, f7 | ⟨f7, _⟩⟩ := f5
          · cases hv : x.status with
            | running => rw [hv] at f6; cases f6
            | waiting b => rw [hv] at f6; cases f6
            | failed => rw [hv] at f6; cases f6; cases f7
            | finished o => rw [hv] at f6; cases f6; cases o <;> first | rfl | cases f7
          · cases f7
      · -- a handler from before the build
        have hkeep := exec_keeps he
        obtain ⟨y, hy⟩ : ∃ y, sys.handlers[i]? = some y := ⟨sys.handlers[i], List.getElem?_eq_getElem (by omega)⟩
        have hys := h0 y (List.mem_of_getElem? hy)
        have := hkeep i y hy (by rw [hys]; rfl)
        rw [hx'] at this
        cases this
        exact hys
    · have := (h11 rfl).1
      simp [checkUnused, this]

/-- C109 with C08 and C15: if cackle reports success after a full run, in which all connections are those of programs that cargo
needs, then each binary whose linking was reported has been analysed, and its last analysis found nothing (if its crate
was not linked twice or no problems were found in it, see C08). -/
theorem C109_every_binary_analysed {P : Parts} {idx : Index} {sys : Sys} {links : List LinkInfo} {log : List Analysis} {tr : List CEv}
    {n : Nat} {s : State} {p : Main.Phases} {store : Store.State} {str : List Store.Ev}
    (hs : SysRun P idx sys links log tr) (he : Exec P { sys := sys } n s) (hf : Main.Fits p store str)
    (hinit : p.initial = some .continue_ → ∀ h ∈ sys.handlers, h.status = .finished .continue_)
    (hbuild : p.build = decide (s.pc = .returned .ok)) (hunused : p.unused = checkUnused s.sys.checker)
    (hreq : ∀ c ∈ s.conns, c.required = true) (h : Main.success true p = true) :
    ∃ links' log' tr', SysRun P idx s.sys links' log' tr' ∧
      (∀ c ∈ s.conns, ∀ li, c.message = some (.request (.linkerInvoked li)) → li ∈ links') ∧
      ∀ li ∈ links', UnmixedAt links' log' li → AnalysedOk P idx log' li := by
  obtain ⟨l, g, t, e1, e2, e3⟩ := C109_succeeded hs he hf hinit hbuild hunused hreq h
  exact ⟨l, g, t, e1, e2, fun li hli hn => C08_linked_analysed_partial P idx s.sys l g t e1 e3 li hli hn⟩

/-! ## C110: stopping cargo -/

/-- C110: after the signal to abort, the main thread stops cargo without waiting for anybody. -/
def C110_Claim : Prop := ∀ (P : Parts) (s : State), Reachable P s → 0 < s.aborts → ∃ k, (mains k s).cargo ≠ none

/-- C110, partial: whatever else happens, cargo has ended after four steps of the main thread, unless a request that cannot be read
has made it return. Missing: that the main thread can make these steps; it is blocked while it reads a request. -/
theorem C110_abort_partial {P : Parts} {s s' : State} {n : Nat} (hr : Reachable P s) (ha : 0 < s.aborts) (h : Exec P s n s')
    (hn : 4 ≤ n) : s'.cargo ≠ none ∨ s'.pc = .returned .malformed := by
  have hi : PcOk s.cargo s.pc := by
    obtain ⟨sys, m, h0, he⟩ := hr
    exact (inv_of h0 he).pc
  have key : s'.cargo ≠ none ∨ s'.pc = .returned .malformed ∨ (0 < s'.aborts ∧ 0 < abortRank s'.pc ∧ abortRank s'.pc + n ≤ 4) := by
    clear hn
    induction h with
    | refl =>
      cases hc : s.cargo with
      | some x => left; simp
      | none =>
        rw [hc] at hi
        right
        cases hp : s.pc with
        | ending c => rw [hp] at hi; cases hi
        | returned r =>
          rw [hp] at hi
          cases r with
          | ok => cases hi
          | error e => exact absurd rfl hi
          | status => exact absurd rfl hi
          | malformed => exact Or.inl rfl
        | top => exact Or.inr ⟨ha, by simp [abortRank], by simp [abortRank]⟩
        | checkAbort => exact Or.inr ⟨ha, by simp [abortRank], by simp [abortRank]⟩
        | accept => exact Or.inr ⟨ha, by simp [abortRank], by simp [abortRank]⟩
        | reading c => exact Or.inr ⟨ha, by simp [abortRank], by simp [abortRank]⟩
    | @main s' n h hb ih =>
      by_cases hc : s'.cargo = none
      · rcases ih with h1 | h1 | ⟨h1, h2, h3⟩
        · exact absurd hc h1
        · right; left
          simp [mainStep, h1]
        · cases hp : s'.pc with
          | ending c => rw [hp] at h2; exact absurd h2 (by simp [abortRank])
          | returned r => rw [hp] at h2; exact absurd h2 (by simp [abortRank])
          | top =>
            right; right
            rw [hp] at h3
            simp only [mainStep, hp, hc, abortRank] at h3 ⊢
            exact ⟨h1, by omega, by omega⟩
          | checkAbort =>
            left
            simp only [mainStep, hp]
            rw [if_neg (by omega)]
            simp [hc]
          | accept =>
            right; right
            rw [hp] at h3
            simp only [mainStep, hp, abortRank] at h3 ⊢
            split
            · exact ⟨h1, by simp, by simp only; omega⟩
            · exact ⟨h1, by simp, by simp only; omega⟩
          | reading c =>
            rw [hp] at h3
            simp only [mainStep, hp, abortRank] at h3 ⊢
            split
            · rename_i hm
              exact absurd ⟨c, hp, hm⟩ hb
            · right; left; rfl
            · right; right
              exact ⟨h1, by simp, by simp only; omega⟩
      · left
        unfold mainStep
        repeat' split
        all_goals first
          | exact hc
          | (simp only; cases hx : s'.cargo with
              | none => exact absurd hx hc
              | some x => simp)
    | @act s' n a h hp ih =>
      rcases ih with h1 | h1 | ⟨h1, h2, h3⟩
      · left; rw [act_cargo P s' a h1]; exact h1
      · right; left; rw [act_pc]; exact h1
      · right; right
        rw [act_pc]
        exact ⟨Nat.lt_of_lt_of_le h1 (act_aborts P s' a), h2, h3⟩
  rcases key with h1 | h1 | ⟨_, h2, h3⟩
  · exact Or.inl h1
  · exact Or.inr h1
  · omega

/-- C110: a program is told to give up only when the signal to abort is under way, or cargo has ended already. -/
theorem C110_refusal_aborts {P : Parts} {s : State} (hr : Reachable P s) {c : Conn} (hc : c ∈ s.conns) (ha : c.answer = some .giveUp) :
    0 < s.aborts ∨ s.cargo ≠ none := by
  obtain ⟨sys, n, h0, he⟩ := hr
  have hi := inv_of h0 he
  have hs := Signalled.exec he (Inv.start (fun x hx _ => Or.inr (h0 x hx))) (Nat.le_refl _) (fun t ht => by cases ht)
  obtain ⟨i, hi'⟩ := List.getElem?_of_mem hc
  obtain ⟨t, ht, rfl⟩ := hi.conns i c hi' (by rw [ha]; simp)
  obtain ⟨⟨c', r, h, h1, h2, h3, h4, h5⟩, _⟩ := hi.threads t ht
  rw [hi'] at h1; cases h1
  have hres : threadResult s t = resultOf h.status := by simp [threadResult, h3]
  cases hst : t.stage <;> rw [hst] at h5 <;> simp only [StageOk, ha] at h5
  · cases h5
  · obtain ⟨_, _, f⟩ := h5; cases f
  · obtain ⟨x, h6, h7⟩ := h5
    exact hs t ht (by rw [hst]; intro h; cases h) x (by rw [hres, h6]) (Option.some.inj h7).symm
  · obtain ⟨_, _, f, _⟩ := h5; cases f
  · obtain ⟨x, h6, h7 | ⟨h7, _⟩⟩ := h5
    · exact hs t ht (by rw [hst]; intro h; cases h) x (by rw [hres, h6]) (Option.some.inj h7).symm
    · cases h7

/-- C110, partial: once a program has been refused, cargo has ended after four steps of the main thread (see `C110_abort_partial`). -/
theorem C110_refused_partial {P : Parts} {s s' : State} {n : Nat} (hr : Reachable P s) {c : Conn} (hc : c ∈ s.conns)
    (ha : c.answer = some .giveUp) (h : Exec P s n s') (hn : 4 ≤ n) : s'.cargo ≠ none ∨ s'.pc = .returned .malformed := by
  rcases C110_refusal_aborts hr hc ha with h1 | h1
  · exact C110_abort_partial hr h1 h hn
  · left
    clear hn
    induction h with
    | refl => exact h1
    | @main s' n h hb ih =>
      unfold mainStep
      repeat' split
      all_goals first
        | exact ih
        | (simp only; cases hx : s'.cargo with
            | none => exact absurd hx ih
            | some x => simp)
    | @act s' n a h hp ih => rw [act_cargo P s' a ih]; exact ih

/-! ## C111: cargo has ended -/

/-- C111: when the build is over, cargo has ended. -/
def C111_Claim : Prop := ∀ (P : Parts) (s : State) (r : Result), Reachable P s → s.pc = .returned r → s.cargo ≠ none

/-- C111, partial: it holds unless a request could not be read. -/
theorem C111_ended_partial {P : Parts} {s : State} {r : Result} (hr : Reachable P s) (hp : s.pc = .returned r) (hm : r ≠ .malformed) :
    s.cargo ≠ none ∧ (r = .ok → s.cargo = some (some 0)) := by
  obtain ⟨sys, m, h0, he⟩ := hr
  have hi := (inv_of h0 he).pc
  rw [hp] at hi
  cases r with
  | ok => exact ⟨by rw [hi]; simp, fun _ => hi⟩
  | error e => exact ⟨hi, fun e => by cases e⟩
  | status => exact ⟨hi, fun e => by cases e⟩
  | malformed => exact absurd rfl hm

/-! ## C113: errors -/

/-- C113: if handling a request failed and the build is over, an error of a request is what is reported. -/
def C113_Claim : Prop := ∀ (P : Parts) (s : State) (r : Result), Reachable P s → s.pc = .returned r →
  (∃ h ∈ s.sys.handlers, h.status = .failed) → ∃ e, r = .error e

/-- C113, partial: if handling a request of a program that cargo needs failed, the build fails. Missing: that the error is reported. -/
theorem C113_error_fails_partial {P : Parts} {s : State} {r : Result} (hr : Reachable P s) (hp : s.pc = .returned r) {t : Thread}
    (ht : t ∈ s.threads) {c : Conn} (hc : s.conns[t.conn]? = some c) (hreq : c.required = true) {h : Handler}
    (hh : s.sys.handlers[t.handler]? = some h) (hf : h.status ≠ .finished .continue_) : r ≠ .ok := by
  rintro rfl
  have hr' := hr
  obtain ⟨ha, _⟩ := C109_success_partial hr hp c (List.mem_of_getElem? hc) hreq
  obtain ⟨sys, n, h0, he⟩ := hr'
  obtain ⟨⟨c', r, h', h1, h2, h3, h4, h5⟩, _⟩ := (inv_of h0 he).threads t ht
  rw [hc] at h1; cases h1
  rw [hh] at h3; cases h3
  apply hf
  have fin : ∀ x, resultOf h.status = some x → some Outcome.continue_ = some (x.getD .giveUp) → h.status = .finished .continue_ := by
    intro x f6 f7
    cases hv : h.status with
    | running => rw [hv] at f6; cases f6
    | waiting b => rw [hv] at f6; cases f6
    | failed => rw [hv] at f6; cases f6; cases f7
    | finished o => rw [hv] at f6; cases f6; cases o <;> first | rfl | cases f7
  cases hst : t.stage <;> rw [hst] at h5 <;> simp only [StageOk, ha] at h5
  · cases h5
  · obtain ⟨_, _, f⟩ := h5; cases f
  · obtain ⟨v, f6, f7⟩ := h5; exact fin v f6 f7
  · obtain ⟨_, _, f, _⟩ := h5; cases f
  · obtain ⟨v, f6, f7 | ⟨f7, _⟩⟩ := h5
    · exact fin v f6 f7
    · cases f7

/-- C113, partial: an error that a thread has sent before the build is over is not lost: then an error of a request is reported (or that
a request cannot be read). -/
theorem C113_error_in_time {P : Parts} {s s' : State} {n : Nat} {r : Result} (hr : Reachable P s) {j : Nat} {t : Thread} {h : Handler}
    (ht : s.threads[j]? = some t) (hd : t.stage = .done) (hh : s.sys.handlers[t.handler]? = some h) (hf : h.status = .failed)
    (hs : ∀ r, s.pc ≠ .returned r) (he : Exec P s n s') (hp : s'.pc = .returned r) : (∃ e, r = .error e) ∨ r = .malformed := by
  obtain ⟨sys, m, h0, h1⟩ := hr
  have hj := (inv_of h0 h1).kept j t h ht hd hh (by rw [hf]; rfl)
  have key : j ∈ s'.errors ∧ ∀ r, s'.pc = .returned r → (∃ e, r = .error e) ∨ r = .malformed := by
    clear hp
    induction he with
    | refl => exact ⟨hj, fun r hr => absurd hr (hs r)⟩
    | @main s' n h hb ih =>
      obtain ⟨ih1, ih2⟩ := ih
      refine ⟨by rw [mainStep_errors]; exact ih1, ?_⟩
      intro r hr
      unfold mainStep at hr
      repeat' split at hr
      all_goals first
        | exact ih2 r hr
        | (rename_i hnil _; rw [hnil] at ih1; cases ih1)
        | (cases hr; exact Or.inl ⟨_, rfl⟩)
        | (cases hr; exact Or.inr rfl)
        | cases hr
    | @act s' n a h hp ih =>
      refine ⟨act_errors P s' a j ih.1, ?_⟩
      intro r hr
      rw [act_pc] at hr
      exact ih.2 r hr
  exact key.2 r hp

/-- C113: the error that is reported is one of a request that was handled: handling it failed, or the program did not wait for
the answer. -/
theorem C113_error_genuine {P : Parts} {s : State} {e : Nat} (hr : Reachable P s) (hp : s.pc = .returned (.error e)) :
    ∃ t c h, s.threads[e]? = some t ∧ s.conns[t.conn]? = some c ∧ s.sys.handlers[t.handler]? = some h ∧
      (h.status = .failed ∨ c.gone = true) := by
  obtain ⟨sys, n, h0, he⟩ := hr
  have hi := inv_of h0 he
  have hm := returned_error he (fun e h => by cases h) e hp
  obtain ⟨t, c, h, h1, h2, h3, h4, h5⟩ := hi.errors e hm
  refine ⟨t, c, h, h1, h2, h3, ?_⟩
  rcases h5 with h5 | h5
  · left
    cases hv : h.status with
    | running => rw [hv] at h5; cases h5
    | waiting b => rw [hv] at h5; cases h5
    | failed => rfl
    | finished o => rw [hv] at h5; cases h5
  · exact Or.inr h5

/-! ## C114: the build ends -/

/-- C114: when cargo has ended, the build is over, without waiting for anybody. -/
def C114_Claim : Prop := ∀ (P : Parts) (s : State), Reachable P s → s.cargo ≠ none → ∃ k r, (mains k s).pc = .returned r

/-- C114, partial: when cargo has ended, the build is over after five steps of the main thread, whatever else happens. Missing: that
the main thread can make these steps; it is blocked while it reads a request. -/
theorem C114_ends_partial {P : Parts} {s s' : State} {n : Nat} (hc : s.cargo ≠ none) (h : Exec P s n s') (hn : 5 ≤ n) :
    ∃ r, s'.pc = .returned r := by
  have key : s'.cargo ≠ none ∧ ((∃ r, s'.pc = .returned r) ∨ endRank s'.pc + n ≤ 5) := by
    clear hn
    induction h with
    | refl => exact ⟨hc, Or.inr (by cases s.pc <;> simp [endRank])⟩
    | @main s' n h hb ih =>
      obtain ⟨h1, h2⟩ := ih
      have hcargo : (mainStep s').cargo ≠ none := by
        unfold mainStep
        repeat' split
        all_goals first
          | exact h1
          | (simp only; cases hx : s'.cargo with
              | none => exact absurd hx h1
              | some x => simp)
      refine ⟨hcargo, ?_⟩
      rcases h2 with ⟨r, h2⟩ | h2
      · exact Or.inl ⟨r, by simp [mainStep, h2]⟩
      · cases hp : s'.pc with
        | ending c =>
          left
          simp only [mainStep, hp]
          repeat' split
          all_goals exact ⟨_, rfl⟩
        | returned r => exact Or.inl ⟨r, by simp [mainStep, hp]⟩
        | top =>
          right
          rw [hp] at h2
          simp only [mainStep, hp, endRank] at h2 ⊢
          cases hx : s'.cargo with
          | none => exact absurd hx h1
          | some x => simp only; omega
        | checkAbort =>
          right
          rw [hp] at h2
          have hx : (mainStep s').pc = .accept := by
            simp only [mainStep, hp]
            split <;> rfl
          rw [hx]
          simp only [endRank] at h2 ⊢
          omega
        | accept =>
          right
          rw [hp] at h2
          have hx : (mainStep s').pc = .top ∨ ∃ c, (mainStep s').pc = .reading c := by
            simp only [mainStep, hp]
            split
            · exact Or.inl rfl
            · exact Or.inr ⟨_, rfl⟩
          rcases hx with hx | ⟨c, hx⟩ <;> rw [hx] <;> simp only [endRank] at h2 ⊢ <;> omega
        | reading c =>
          rw [hp] at h2
          simp only [mainStep, hp, endRank] at h2 ⊢
          split
          · rename_i hm
            exact absurd ⟨c, hp, hm⟩ hb
          · exact Or.inl ⟨_, rfl⟩
          · right; simp only; omega
    | @act s' n a h hp ih =>
      rw [act_pc, act_cargo P s' a ih.1]
      exact ih
  rcases key.2 with h1 | h1
  · exact h1
  · cases hp : s'.pc with
    | returned r => exact ⟨r, rfl⟩
    | _ => rw [hp] at h1; simp only [endRank] at h1; omega

/-! ## C112, continued: every request is answered -/

/-- C112: a thread whose handler has a result answers without waiting for anybody, unless the program is gone. -/
theorem C112_answers {P : Parts} {s : State} (hr : Reachable P s) {j : Nat} {t : Thread} {h : Handler} {c : Conn}
    (ht : s.threads[j]? = some t) (hh : s.sys.handlers[t.handler]? = some h) (hc : s.conns[t.conn]? = some c)
    (hf : h.status = .failed ∨ ∃ o, h.status = .finished o) :
    c.gone = true ∨ ∃ k c' o, (threadSteps k j s).conns[t.conn]? = some c' ∧ c'.answer = some o ∧ Says h o := by
  by_cases hg : c.gone = true
  · exact Or.inl hg
  right
  obtain ⟨sys, n, h0, he⟩ := hr
  obtain ⟨⟨c0, r, h1, e1, e2, e3, e4, e5⟩, _⟩ := (inv_of h0 he).threads t (List.mem_of_getElem? ht)
  rw [hc] at e1; cases e1
  rw [hh] at e3; cases e3
  obtain ⟨x, hx⟩ : ∃ x, resultOf h.status = some x := by
    rcases hf with hf | ⟨o, hf⟩ <;> rw [hf] <;> exact ⟨_, rfl⟩
  have says : Says h (x.getD .giveUp) := by
    rcases hf with hf | ⟨o, hf⟩
    · rw [hf] at hx; cases hx; exact Or.inr ⟨rfl, Or.inr hf⟩
    · rw [hf] at hx; cases hx
      cases o with
      | continue_ => exact Or.inl ⟨rfl, hf⟩
      | giveUp => exact Or.inr ⟨rfl, Or.inl hf⟩
  have hjl : j < s.threads.length := (List.getElem?_eq_some_iff.mp ht).1
  have hcl : t.conn < s.conns.length := (List.getElem?_eq_some_iff.mp hc).1
  have hres : threadResult s t = some x := by simp [threadResult, hh, hx]
  have gfalse : c.gone = false := by simpa using hg
  have hc' : s.conns[t.conn] = c := (List.getElem?_eq_some_iff.mp hc).2
  cases hst : t.stage with
  | handling =>
    refine ⟨2, { c with answer := some (x.getD .giveUp) }, _, ?_, rfl, says⟩
    have s1 : threadStep s j = { s with
        aborts := if x.getD .giveUp = .giveUp then s.aborts + 1 else s.aborts
        threads := s.threads.set j { t with stage := .signalled } } := by
      simp [threadStep, ht, hst, signal, hres]
    simp only [threadSteps, s1]
    simp [threadStep, hjl, answer, threadResult, hh, hx, hc', gfalse, hcl]
  | signalled =>
    refine ⟨1, { c with answer := some (x.getD .giveUp) }, _, ?_, rfl, says⟩
    simp [threadSteps, threadStep, ht, hst, answer, hres, hc', gfalse, hcl]
  | answered =>
    rw [hst] at e5
    obtain ⟨y, g1, g2⟩ := e5
    rw [hx] at g1; cases g1
    exact ⟨0, c, _, hc, g2, says⟩
  | writeFailed =>
    rw [hst] at e5
    obtain ⟨_, _, _, g⟩ := e5
    exact absurd g hg
  | done =>
    rw [hst] at e5
    obtain ⟨y, g1, g2 | ⟨_, g2⟩⟩ := e5
    · rw [hx] at g1; cases g1
      exact ⟨0, c, _, hc, g2, says⟩
    · exact absurd g2 hg

/-! ## Examples and disagreements -/

theorem not_blocked {s : State} (h : ∀ c, s.pc = .reading c → (s.conns[c]?.bind (·.message)).isSome = true) : ¬ Blocked s := by
  rintro ⟨c, h1, h2⟩
  have := h c h1
  rw [h2] at this
  cases this

namespace Ex

def P : Parts :=
  { scan := fun _ _ => none
    report := fun _ _ n => if n = str! "bad" then none else some [] }

def sys : Sys := { checker := { idx := C08Ex.idx }, handlers := [] }

theorem free {s : State} (h : s.pc = .top ∨ s.pc = .checkAbort ∨ s.pc = .accept ∨ (∃ c, s.pc = .ending c) ∨ ∃ r, s.pc = .returned r) :
    ¬ Blocked s := by
  rintro ⟨c, h1, h2⟩
  rcases h with h | h | h | ⟨_, h⟩ | ⟨_, h⟩ <;> rw [h1] at h <;> cases h

/-- A program connects, and the main thread accepts the connection. -/
theorem accepted (b : Bool) : Exec P { sys := sys } 3 { sys := sys, conns := [{ required := b }], pc := .reading 0 } := by
  have r := Exec.refl (P := P) { sys := sys }
  have r := Exec.act (.connect b) r (by intro _ h; cases h)
  have r := Exec.main r (free (.inl rfl))
  have r := Exec.main r (free (.inr (.inl rfl)))
  exact Exec.main r (free (.inr (.inr (.inl rfl))))

theorem reach {s : State} {n : Nat} (h : Exec P { sys := sys } n s) : Reachable P s := ⟨sys, n, (by intro h hm; cases hm), h⟩

def script : Perm.CrateSel := ⟨C08Ex.pa, .buildScript⟩

/-- The request of a build script whose report cannot be read. -/
def badReport : Request := .binExecutionComplete script 0 (str! "bad")

/-- The first program has made its request, and it is being handled. -/
def handled (b : Bool) (r : Request) : State :=
  { sys := { sys with handlers := [{ req := r }] }, conns := [{ required := b, message := some (.request r) }],
    threads := [{ conn := 0, handler := 0 }] }

theorem handled_reach (b : Bool) (r : Request) (hr : r ≠ .initial) : Exec P { sys := sys } 4 (handled b r) := by
  have e := Exec.act (.send 0 (.request r)) (accepted b) (by intro h; cases h; exact hr rfl)
  exact Exec.main e (not_blocked (by intro c h; cases h; rfl))

/-- A program has been told to continue, and cargo has ended successfully. -/
def good : State :=
  { sys := { sys with handlers := [{ req := .rustcStarted C08Ex.crate, status := .finished .continue_ }] }
    conns := [{ required := true, message := some (.request (.rustcStarted C08Ex.crate)), answer := some .continue_ }]
    threads := [{ conn := 0, handler := 0, stage := .done }], cargo := some (some 0), pc := .returned .ok }

theorem good_reach : Exec P { sys := sys } 6 good := by
  have r := handled_reach true (.rustcStarted C08Ex.crate) (by intro h; cases h)
  have r := Exec.act (.check 0) r trivial
  have r := Exec.act (.thread 0) r trivial
  have r := Exec.act (.thread 0) r trivial
  have r := Exec.act (.thread 0) r trivial
  have r := Exec.act (.exit (some 0)) r ⟨rfl, fun _ c hc _ => by
    rw [List.mem_singleton.mp hc]
    exact ⟨.rustcStarted C08Ex.crate, .continue_, rfl, rfl, fun _ => rfl⟩⟩
  have r := Exec.main r (free (.inl rfl))
  exact Exec.main r (free (.inr (.inr (.inr (.inl ⟨some 0, rfl⟩)))))

/-- Handling the request failed, and the thread has sent the error (`sent`) or only its answer. -/
def bad (sent : Bool) : State :=
  { sys := { sys with handlers := [{ req := badReport, status := .failed }] }
    conns := [{ required := true, message := some (.request badReport), answer := some .giveUp }]
    threads := [{ conn := 0, handler := 0, stage := if sent then .done else .answered }], aborts := 1
    errors := if sent then [0] else [] }

theorem bad_reach (sent : Bool) : Exec P { sys := sys } 4 (bad sent) := by
  have r := handled_reach true badReport (by intro h; cases h)
  have r := Exec.act (.check 0) r trivial
  have r := Exec.act (.thread 0) r trivial
  have r := Exec.act (.thread 0) r trivial
  cases sent with
  | false => exact r
  | true => exact Exec.act (.thread 0) r trivial

/-- Then cargo fails. -/
theorem bad_end (sent : Bool) :
    Exec P (bad sent) 2 { bad sent with cargo := some (some 101), pc := .returned (if sent then .error 0 else .status) } := by
  have r := Exec.act (.exit (some 101)) (Exec.refl (P := P) (bad sent)) ⟨rfl, fun h => by cases h⟩
  have r := Exec.main r (free (.inl rfl))
  cases sent with
  | false => exact Exec.main r (free (.inr (.inr (.inr (.inl ⟨some 101, rfl⟩)))))
  | true => exact Exec.main r (free (.inr (.inr (.inr (.inl ⟨some 101, rfl⟩)))))

theorem exec_trans {s s' s'' : State} {n m : Nat} (h : Exec P s n s') (h' : Exec P s' m s'') : Exec P s (n + m) s'' := by
  induction h' with
  | refl => exact h
  | main _ hb ih => exact .main ih hb
  | act a _ hp ih => exact .act a ih hp

/-- The signal to abort is sent while the main thread reads a request, which the program does not write. -/
theorem silent_reach : Exec P { sys := sys } 3 { sys := sys, conns := [{ required := false }], pc := .reading 0, aborts := 1 } :=
  Exec.act .quit (accepted false) trivial

end Ex

/-- **C109, disagreement.** The request of a program is being looked at by the user when cargo ends successfully (it did not wait for that
program): the build succeeds. -/
theorem C109_unanswered_request : ¬ C109_Claim := by
  intro h
  have r := Ex.handled_reach false (.crateUsesUnsafe C08Ex.crate []) (by intro h; cases h)
  have r := Exec.act (.check 0) r trivial
  have r := Exec.act (.exit (some 0)) r ⟨rfl, fun _ c hc hq => by
    rw [List.mem_singleton.mp hc] at hq
    cases hq⟩
  have r := Exec.main r (Ex.free (.inl rfl))
  have r := Exec.main r (Ex.free (.inr (.inr (.inr (.inl ⟨some 0, rfl⟩)))))
  obtain ⟨ha, _⟩ := h _ _ (Ex.reach r) rfl { required := false, message := some (.request (.crateUsesUnsafe C08Ex.crate [])) }
    (List.mem_singleton.mpr rfl) _ rfl
  cases ha

example : ∀ c ∈ Ex.good.conns, c.required = true → Approved Ex.good c := C109_success_partial (Ex.reach Ex.good_reach) rfl
example : ∃ tr', HRun Ex.P C08Ex.idx Ex.good.sys tr' ∧ ∀ c ∈ Ex.good.conns, c.required = true →
    ∃ (r : Request) (i : Nat) (h : Handler), c.message = some (.request r) ∧
      Ex.good.sys.handlers[i]? = some h ∧ h.req = r ∧
      ((∃ rest, history tr' i = .checked i [] :: rest) ∨
        ∃ ps rest, history tr' i = .resolved i :: .checked i ps :: rest ∧ ps ≠ [] ∧ ∀ p ∈ ps, RepeatedBySubprocess p) :=
  C109_checked .init (by intro h hm; cases hm) Ex.good_reach rfl

/-- A run in which the user had nothing to decide. -/
def Ex.phases (us : List Problem) : Main.Phases :=
  { createConfig := .continue_, load1 := true, cleanStatus := some 0, newVersion := .continue_,
    initial := some .continue_, unusedImports := .continue_, load2 := true, build := true,
    aborted := false, unused := some us, unusedAnswer := .continue_, uiError := false }

/-- A binary that uses an API that is allowed is linked and then analysed. -/
theorem Ex.build_reach : ∃ n s, Exec C08Ex.P { sys := { checker := { idx := C08Ex.idx } } } n s ∧ s.pc = .returned .ok ∧
    (∀ c ∈ s.conns, c.required = true) ∧ s.sys.checker.outstanding = [] ∧
    s.conns.map (·.message) = [some (.request (.linkerInvoked C08Ex.x)), some (.request (.rustcComplete C08Ex.crate []))] := by
  have r := Exec.refl (P := C08Ex.P) { sys := { checker := { idx := C08Ex.idx } } }
  have r := Exec.act (.load C08Ex.cfg) r C08Ex.cfg_nodup
  have r := Exec.act (.connect true) r (by intro _ h; cases h)
  have r := Exec.act (.connect true) r (by intro _ h; cases h)
  have r := Exec.main r (Ex.free (.inl rfl))
  have r := Exec.main r (Ex.free (.inr (.inl rfl)))
  have r := Exec.main r (Ex.free (.inr (.inr (.inl rfl))))
  have r := Exec.act (.send 0 (.request (.linkerInvoked C08Ex.x))) r (by intro h; cases h)
  have r := Exec.main r (not_blocked (by intro c h; cases h; rfl))
  have r := Exec.act (.check 0) r trivial
  have r := Exec.act (.thread 0) r trivial
  have r := Exec.act (.thread 0) r trivial
  have r := Exec.main r (Ex.free (.inl rfl))
  have r := Exec.main r (Ex.free (.inr (.inl rfl)))
  have r := Exec.main r (Ex.free (.inr (.inr (.inl rfl))))
  have r := Exec.act (.send 1 (.request (.rustcComplete C08Ex.crate []))) r (by intro h; cases h)
  have r := Exec.main r (not_blocked (by intro c h; cases h; rfl))
  have r := Exec.act (.check 1) r trivial
  have r := Exec.act (.thread 1) r trivial
  have r := Exec.act (.thread 1) r trivial
  have r := Exec.act (.exit (some 0)) r ⟨rfl, fun _ c hc _ => by
    rcases List.mem_cons.mp hc with rfl | hc
    · exact ⟨_, .continue_, rfl, rfl, fun _ => rfl⟩
    · rw [List.mem_singleton.mp hc]
      exact ⟨_, .continue_, rfl, rfl, fun _ => rfl⟩⟩
  have r := Exec.main r (Ex.free (.inl rfl))
  have r := Exec.main r (Ex.free (.inr (.inr (.inr (.inl ⟨some 0, rfl⟩)))))
  refine ⟨_, _, r, rfl, ?_, by decide +kernel, rfl⟩
  intro c hc
  rcases List.mem_cons.mp hc with rfl | hc
  · rfl
  · rw [List.mem_singleton.mp hc]

example : ∃ s links' log' tr', SysRun C08Ex.P C08Ex.idx s links' log' tr' ∧ C08Ex.x ∈ links' := by
  obtain ⟨n, s, he, h1, h2, h3, h4⟩ := Ex.build_reach
  obtain ⟨us, hus⟩ : ∃ us, checkUnused s.sys.checker = some us := by simp [checkUnused, h3]
  obtain ⟨l, g, t, e1, e2, _⟩ := C109_every_binary_analysed (p := Ex.phases us) (store := {}) (str := []) .init he
    ⟨.init, rfl, by simp [Ex.phases], by simp [Ex.phases], by simp [Ex.phases]⟩ (fun _ h hm => by cases hm)
    (by rw [h1]; rfl) hus.symm h2 (by simp [Main.success, Main.run, Ex.phases, Main.cleanOk, Outcome.and])
  refine ⟨s.sys, l, g, t, e1, ?_⟩
  cases hc : s.conns with
  | nil => rw [hc] at h4; cases h4
  | cons c cs =>
    rw [hc] at h4
    simp only [List.map_cons, List.cons.injEq] at h4
    exact e2 c (by rw [hc]; exact List.mem_cons_self) _ h4.1

/-- **C110, disagreement.** While the main thread reads a request that a program does not write, the signal to abort is not looked at. -/
theorem C110_blocked_by_silence : ¬ C110_Claim := by
  intro h
  obtain ⟨k, hk⟩ := h _ _ (Ex.reach Ex.silent_reach) (Nat.succ_pos 0)
  have : ∀ k, (mains k { sys := Ex.sys, conns := [{ required := false }], pc := .reading 0, aborts := 1 }).cargo = none := by
    intro k
    induction k with
    | zero => rfl
    | succ k ih => exact ih
  exact hk (this k)

/-- The failed check makes the main thread kill cargo. -/
example : ∃ s', Exec Ex.P (Ex.bad true) 4 s' ∧ s'.cargo = some none := by
  have r := Exec.refl (P := Ex.P) (Ex.bad true)
  have r := Exec.main r (Ex.free (.inl rfl))
  have r := Exec.main r (Ex.free (.inr (.inl rfl)))
  have r := Exec.main r (Ex.free (.inr (.inr (.inl rfl))))
  have r := Exec.main r (Ex.free (.inl rfl))
  exact ⟨_, r, rfl⟩
example {s' : State} (h : Exec Ex.P (Ex.bad true) 4 s') : s'.cargo ≠ none ∨ s'.pc = .returned .malformed :=
  C110_abort_partial (Ex.reach (Ex.bad_reach true)) (Nat.succ_pos 0) h (Nat.le_refl 4)

example : 0 < (Ex.bad true).aborts ∨ (Ex.bad true).cargo ≠ none :=
  C110_refusal_aborts (Ex.reach (Ex.bad_reach true)) (List.mem_singleton.mpr rfl) rfl
example {s' : State} (h : Exec Ex.P (Ex.bad true) 4 s') : s'.cargo ≠ none ∨ s'.pc = .returned .malformed :=
  C110_refused_partial (Ex.reach (Ex.bad_reach true)) (List.mem_singleton.mpr rfl) rfl h (Nat.le_refl 4)

/-- **C111, disagreement.** A request that cannot be read ends the loop; cargo is left running. -/
theorem C111_cargo_left_running : ¬ C111_Claim := by
  intro h
  have r := Exec.act (.send 0 .malformed) (Ex.accepted false) (by intro h; cases h)
  have r := Exec.main r (not_blocked (by intro c h; cases h; rfl))
  exact h _ _ .malformed (Ex.reach r) rfl rfl

example : Ex.good.cargo ≠ none ∧ (Result.ok = .ok → Ex.good.cargo = some (some 0)) :=
  C111_ended_partial (Ex.reach Ex.good_reach) rfl (by intro h; cases h)

example : ∃ (r : Request) (k : Nat) (h : Handler), Ex.good.conns[0]?.bind (·.message) = some (.request r) ∧
    Ex.good.sys.handlers[k]? = some h ∧ h.req = r ∧ Says h .continue_ := by
  obtain ⟨r, k, h, h1, h2, h3, h4, _⟩ := C112_own_answer (Ex.reach Ex.good_reach) (i := 0) rfl rfl
  exact ⟨r, k, h, h1, h2, h3, h4⟩
example : ∃ c', ({ Ex.bad true with cargo := some (some 101), pc := .returned (.error 0) } : State).conns[0]? = some c' ∧
    c'.answer = some .giveUp :=
  C112_answer_final (Ex.reach (Ex.bad_reach true)) (Ex.bad_end true) rfl rfl
/-- A thread whose handler has just failed answers. -/
example : ∃ k c' o, (threadSteps k 0 { Ex.handled true Ex.badReport with
      sys := { Ex.sys with handlers := [{ req := Ex.badReport, status := .failed }] } }).conns[0]? = some c' ∧ c'.answer = some o ∧
    Says { req := Ex.badReport, status := .failed } o := by
  have r := Exec.act (.check 0) (Ex.handled_reach true Ex.badReport (by intro h; cases h)) trivial
  rcases C112_answers (Ex.reach r) (j := 0) (t := { conn := 0, handler := 0 }) rfl rfl rfl (Or.inl rfl) with h | h
  · cases h
  · exact h

/-- **C113, disagreement.** The error is sent after the answer; if cargo has ended by then, only that cargo failed is reported. -/
theorem C113_error_lost : ¬ C113_Claim := by
  intro h
  obtain ⟨e, he⟩ := h _ _ .status (Ex.reach (Ex.exec_trans (Ex.bad_reach false) (Ex.bad_end false))) rfl
    ⟨{ req := Ex.badReport, status := .failed }, List.mem_singleton.mpr rfl, rfl⟩
  cases he

example : Result.status ≠ .ok :=
  C113_error_fails_partial (Ex.reach (Ex.exec_trans (Ex.bad_reach false) (Ex.bad_end false))) rfl
    (t := { conn := 0, handler := 0, stage := .answered }) (List.mem_singleton.mpr rfl) rfl rfl (h := { req := Ex.badReport, status := .failed }) rfl
    (by intro h; cases h)
example : (∃ e, Result.error 0 = .error e) ∨ Result.error 0 = .malformed :=
  C113_error_in_time (Ex.reach (Ex.bad_reach true)) (j := 0) (t := { conn := 0, handler := 0, stage := .done }) rfl rfl rfl rfl
    (fun _ h => by cases h) (Ex.bad_end true) rfl
example : ∃ t c h, (Ex.bad true).threads[0]? = some t ∧ (Ex.bad true).conns[t.conn]? = some c ∧
    (Ex.bad true).sys.handlers[t.handler]? = some h ∧ (h.status = .failed ∨ c.gone = true) :=
  C113_error_genuine (s := { Ex.bad true with cargo := some (some 101), pc := .returned (.error 0) })
    (Ex.reach (Ex.exec_trans (Ex.bad_reach true) (Ex.bad_end true))) rfl

/-- **C114, disagreement.** While the main thread reads a request that a program does not write, the end of cargo is not noticed. -/
theorem C114_blocked_by_silence : ¬ C114_Claim := by
  intro h
  have r := Exec.act (.exit (some 0)) Ex.silent_reach ⟨rfl, fun _ c hc hq => by
    rw [List.mem_singleton.mp hc] at hq
    cases hq⟩
  obtain ⟨k, r, hk⟩ := h _ _ (Ex.reach r) (fun h => by cases h)
  have : ∀ k, (mains k { sys := Ex.sys, conns := [{ required := false }], pc := .reading 0, aborts := 1, cargo := some (some 0) }).pc
      = .reading 0 := by
    intro k
    induction k with
    | zero => rfl
    | succ k ih => exact ih
  rw [show (act Ex.P { sys := Ex.sys, conns := [{ required := false }], pc := .reading 0, aborts := 1 } (.exit (some 0))) =
    { sys := Ex.sys, conns := [{ required := false }], pc := .reading 0, aborts := 1, cargo := some (some 0) } from rfl, this k] at hk
  cases hk

example {s' : State} (h : Exec Ex.P { Ex.handled true Ex.badReport with cargo := some (some 101), pc := .checkAbort } 5 s') :
    ∃ r, s'.pc = .returned r :=
  C114_ends_partial (by intro h; cases h) h (Nat.le_refl 5)

end Cackle.Server
