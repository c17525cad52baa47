import Verif.Props.Handlers

/-!
# C168: a run in which everything was settled is not refused at its end
-/

namespace Cackle.Checker
open Cackle Config Perm
open Cackle.ApiMap (Api)

/-! ## Specification -/

/-- Requests are settled in this order. Before it is settled, a request may be examined any number of times and found to
have problems, and the configuration may be changed at any time. -/
inductive Settles (P : Parts) : State → List Request → State → Prop where
  | nil {c} : Settles P c [] c
  /-- The request is examined, and nothing is found. -/
  | done {c req cache cache' c' reqs c''} : handleRequest P c req cache = (c', some (cache', [])) →
      Settles P c' reqs c'' → Settles P c (req :: reqs) c''
  /-- A request that has arrived is examined, and problems are found. -/
  | problems {c req cache cache' p ps c' reqs c''} : handleRequest P c req cache = (c', some (cache', p :: ps)) →
      Settles P c' reqs c'' → Settles P c reqs c''
  /-- The configuration is loaded. -/
  | load {c reqs c''} (cfg : Raw) : Settles P (updateConfig c cfg) reqs c'' → Settles P c reqs c''

/-- What one rustc reports: that it started, that it linked these files, that it is finished. -/
def compile (crate : CrateSel) (links : List LinkInfo) (paths : List PathC) : List Request :=
  .rustcStarted crate :: links.map .linkerInvoked ++ [.rustcComplete crate paths]

/-- The requests of both lists, in any order that keeps that of each of them. -/
inductive Merge : List Request → List Request → List Request → Prop where
  | nil : Merge [] [] []
  | left {x a b l} : Merge a b l → Merge (x :: a) b (x :: l)
  | right {x a b l} : Merge a b l → Merge a (x :: b) (x :: l)

/-- The requests of several compilations. In each of them at most `n` files are linked, for that crate. -/
inductive Compilations (n : Nat) : List Request → Prop where
  | nil : Compilations n []
  | other {l l' r} : Compilations n l → (∀ li, r ≠ .linkerInvoked li) → (∀ s ps, r ≠ .rustcComplete s ps) →
      Merge l [r] l' → Compilations n l'
  | compile {l l' crate links paths} : Compilations n l → links.length ≤ n → (∀ li ∈ links, li.crate = crate) →
      Merge l (compile crate links paths) l' → Compilations n l'

/-- The English claim C168: if all compilations of a run are settled, the run is not refused at its end because of links
that were not examined. -/
def C168_Claim : Prop :=
  ∀ (P : Parts) (c c' : State) (n : Nat) (reqs : List Request), c.outstanding = [] → Compilations n reqs →
    Settles P c reqs c' → (checkUnused c').isSome = true

/-! ## Lemmas -/

/-- The links of a crate. -/
def linkCount (s : CrateSel) (reqs : List Request) : Nat :=
  (reqs.filter (fun r => match r with | .linkerInvoked li => decide (li.crate = s) | _ => false)).length

/-- The completions of a crate. -/
def doneCount (s : CrateSel) (reqs : List Request) : Nat :=
  (reqs.filter (fun r => match r with | .rustcComplete t _ => decide (t = s) | _ => false)).length

/-- Whatever has happened, enough completions are still to come. -/
def Fair (reqs : List Request) : Prop := ∀ a b s, reqs = a ++ b → linkCount s b ≤ doneCount s b

theorem linkCount_cons (s : CrateSel) (r : Request) (l : List Request) :
    linkCount s (r :: l) = (match r with | .linkerInvoked li => if li.crate = s then 1 else 0 | _ => 0) + linkCount s l := by
  unfold linkCount
  cases r <;> simp [List.filter_cons]
  split <;> simp [Nat.add_comm]

theorem doneCount_cons (s : CrateSel) (r : Request) (l : List Request) :
    doneCount s (r :: l) = (match r with | .rustcComplete t _ => if t = s then 1 else 0 | _ => 0) + doneCount s l := by
  unfold doneCount
  cases r <;> simp [List.filter_cons]
  split <;> simp [Nat.add_comm]

theorem merge_counts {a b l : List Request} (h : Merge a b l) (s : CrateSel) :
    linkCount s l = linkCount s a + linkCount s b ∧ doneCount s l = doneCount s a + doneCount s b := by
  induction h with
  | nil => exact ⟨rfl, rfl⟩
  | left _ ih => rw [linkCount_cons, doneCount_cons, linkCount_cons, doneCount_cons, ih.1, ih.2]; omega
  | right _ ih =>
    rename_i x a b l h
    rw [linkCount_cons s x l, doneCount_cons s x l, linkCount_cons s x b, doneCount_cons s x b, ih.1, ih.2]; omega

theorem merge_suffix {a b l : List Request} (h : Merge a b l) : ∀ x y, l = x ++ y →
    ∃ a1 a2 b1 b2, a = a1 ++ a2 ∧ b = b1 ++ b2 ∧ Merge a2 b2 y := by
  induction h with
  | nil =>
    intro x y e
    obtain ⟨rfl, rfl⟩ := List.append_eq_nil_iff.mp e.symm
    exact ⟨[], [], [], [], rfl, rfl, .nil⟩
  | @left r a b l h ih =>
    intro x y e
    cases x with
    | nil =>
      rw [List.nil_append] at e
      subst e
      exact ⟨[], _, [], _, rfl, rfl, .left h⟩
    | cons z x =>
      obtain ⟨a1, a2, b1, b2, e1, e2, e3⟩ := ih x y (List.cons.inj e).2
      exact ⟨r :: a1, a2, b1, b2, by rw [e1]; rfl, e2, e3⟩
  | @right r a b l h ih =>
    intro x y e
    cases x with
    | nil =>
      rw [List.nil_append] at e
      subst e
      exact ⟨[], _, [], _, rfl, rfl, .right h⟩
    | cons z x =>
      obtain ⟨a1, a2, b1, b2, e1, e2, e3⟩ := ih x y (List.cons.inj e).2
      exact ⟨a1, a2, r :: b1, b2, e1, by rw [e2]; rfl, e3⟩

theorem merge_fair {a b l : List Request} (ha : Fair a) (hb : Fair b) (h : Merge a b l) : Fair l := by
  intro x y s e
  obtain ⟨a1, a2, b1, b2, e1, e2, e3⟩ := merge_suffix h x y e
  have := ha a1 a2 s e1
  have := hb b1 b2 s e2
  have := merge_counts e3 s
  omega

theorem fair_nil : Fair [] := by
  intro a b s e
  obtain ⟨-, rfl⟩ := List.append_eq_nil_iff.mp e.symm
  exact Nat.le_refl _

theorem fair_cons {r : Request} {l : List Request} (hl : Fair l)
    (h : ∀ s, linkCount s (r :: l) ≤ doneCount s (r :: l)) : Fair (r :: l) := by
  intro a b s e
  cases a with
  | nil => rw [List.nil_append] at e; subst e; exact h s
  | cons x a => exact hl a b s (List.cons.inj e).2

theorem fair_compile {crate : CrateSel} {links : List LinkInfo} (paths : List PathC) (hn : links.length ≤ 1)
    (hl : ∀ li ∈ links, li.crate = crate) : Fair (compile crate links paths) := by
  have h1 : Fair [.rustcComplete crate paths] := fair_cons fair_nil fun s => by
    rw [linkCount_cons, doneCount_cons]
    exact Nat.le_add_left _ _
  unfold compile
  cases links with
  | nil =>
    refine fair_cons h1 fun s => ?_
    rw [linkCount_cons, doneCount_cons]
    simpa using h1 [] _ s rfl
  | cons li rest =>
    cases rest with
    | cons _ _ => simp at hn
    | nil =>
      have hc := hl li List.mem_cons_self
      have h2 : Fair [.linkerInvoked li, .rustcComplete crate paths] := fair_cons h1 fun s => by
        simp only [linkCount_cons, doneCount_cons, hc]
        simp [linkCount, doneCount]
      refine fair_cons h2 fun s => ?_
      rw [linkCount_cons, doneCount_cons]
      simpa using h2 [] _ s rfl

theorem fair_compilations {reqs : List Request} (h : Compilations 1 reqs) : Fair reqs := by
  induction h with
  | nil => exact fair_nil
  | other _ h1 h2 hm ih =>
    refine merge_fair ih (fair_cons fair_nil fun s => ?_) hm
    rename_i r _ _
    cases r <;> simp_all [linkCount, doneCount]
  | compile _ hn hl hm ih => exact merge_fair ih (fair_compile _ hn hl) hm

/-- The links of a crate that are still to be examined. -/
def waiting (s : CrateSel) (l : List LinkInfo) : Nat := (l.filter (fun li => decide (li.crate = s))).length

theorem waiting_cons (s : CrateSel) (li : LinkInfo) (l : List LinkInfo) :
    waiting s (li :: l) = (if li.crate = s then 1 else 0) + waiting s l := by
  unfold waiting
  rw [List.filter_cons]
  split <;> simp_all [Nat.add_comm]

theorem waiting_append (s : CrateSel) (a b : List LinkInfo) : waiting s (a ++ b) = waiting s a + waiting s b := by
  simp [waiting]

theorem waiting_perm {s : CrateSel} {a b : List LinkInfo} (h : a.Perm b) : waiting s a = waiting s b :=
  (h.filter _).length_eq

theorem checkLink_outstanding {scan : State → LinkInfo → Option ScanOut} {c c' : State} {li : LinkInfo}
    {cache : Option ScanOut} {out : ScanOut} {ps : List Problem} (h : checkLink scan c li cache = some (c', out, ps)) :
    c'.outstanding = c.outstanding := by
  obtain ⟨-, -, ps', h, -⟩ := checkLink_spec h
  exact (apisUsed_same h).1

/-- The links of a crate that are still to be examined after a request is settled. -/
def waitingAfter (s : CrateSel) (n : Nat) : Request → Nat
  | .linkerInvoked li => (if li.crate = s then 1 else 0) + n
  | .rustcComplete t _ => n - (if t = s then 1 else 0)
  | _ => n

/-- What settling or examining one request does to the links. -/
theorem handle_waiting {P : Parts} {c c' : State} {req : Request} {cache cache' : Option ScanOut} {ps : List Problem}
    (h : handleRequest P c req cache = (c', some (cache', ps))) (s : CrateSel) :
    (ps ≠ [] → waiting s c'.outstanding = waiting s c.outstanding) ∧
    (ps = [] → waiting s c'.outstanding = waitingAfter s (waiting s c.outstanding) req) := by
  cases req with
  | rustcComplete t paths =>
    simp only [handleRequest] at h
    rcases rustcComplete_cases P.scan c t paths cache with ⟨h1, h2⟩ | ⟨li, rest, h1, h2⟩ | ⟨li, rest, d, out, qs, h1, h2, h3⟩
    · rw [h2] at h
      cases h
      refine ⟨fun hn => absurd rfl hn, fun _ => ?_⟩
      simp only [waitingAfter]
      split
      · rename_i e
        have : waiting s c.outstanding = 0 := by
          unfold waiting
          rw [List.length_eq_zero_iff, List.filter_eq_nil_iff]
          intro li hli
          have := takeLink_none h1 li hli
          rw [e] at this
          simpa using this
        omega
      · rfl
    · rw [h2] at h; cases h
    · rw [h3] at h
      obtain ⟨e1, e2⟩ := takeLink_some h1
      have hp : waiting s c.outstanding = (if li.crate = s then 1 else 0) + waiting s rest := by
        rw [waiting_perm e2, waiting_cons]
      have ho := checkLink_outstanding h2
      simp only at ho
      simp only [Prod.mk.injEq, Option.some.injEq] at h
      obtain ⟨hc, -, rfl⟩ := h
      subst hc
      refine ⟨fun hn => ?_, fun he => ?_⟩
      · rw [if_neg hn]
        simp only [ho, waiting_append, waiting_cons]
        rw [hp]
        simp only [waiting, List.filter_nil, List.length_nil]
        omega
      · rw [if_pos he, ho, hp, e1]
        simp only [waitingAfter]
        omega
  | linkerInvoked li =>
    simp only [handleRequest] at h
    cases h
    refine ⟨fun hn => absurd rfl hn, fun _ => ?_⟩
    simp only [waiting_append, waiting_cons, waitingAfter]
    simp only [waiting, List.filter_nil, List.length_nil]
    omega
  | binExecutionComplete crate code output =>
    simp only [handleRequest] at h
    split at h
    · cases h; exact ⟨fun _ => rfl, fun _ => rfl⟩
    · split at h
      · simp only [Prod.mk.injEq] at h
        rw [← h.1]
        exact ⟨fun _ => rfl, fun _ => rfl⟩
      · cases h; exact ⟨fun _ => rfl, fun _ => rfl⟩
  | initial => simp only [handleRequest] at h; cases h; exact ⟨fun _ => rfl, fun _ => rfl⟩
  | crateUsesUnsafe _ _ => simp only [handleRequest] at h; cases h; exact ⟨fun _ => rfl, fun _ => rfl⟩
  | crateUsesExtern _ _ => simp only [handleRequest] at h; cases h; exact ⟨fun _ => rfl, fun _ => rfl⟩
  | rustcStarted _ => simp only [handleRequest] at h; cases h; exact ⟨fun _ => rfl, fun _ => rfl⟩

theorem settles_empty {P : Parts} {c c' : State} {reqs : List Request} (h : Settles P c reqs c') :
    Fair reqs → (∀ s, waiting s c.outstanding + linkCount s reqs ≤ doneCount s reqs) →
    ∀ s, waiting s c'.outstanding = 0 := by
  induction h with
  | nil =>
    intro _ hw s
    have := hw s
    simp only [linkCount, doneCount, List.filter_nil, List.length_nil] at this
    omega
  | load cfg _ ih => exact fun hf hw s => ih hf hw s
  | problems h _ ih =>
    intro hf hw s
    refine ih hf (fun t => ?_) s
    rw [(handle_waiting h t).1 (by simp)]
    exact hw t
  | @done c req cache cache' c1 reqs c2 h _ ih =>
    intro hf hw s
    have hf' : Fair reqs := fun a b s e => hf (req :: a) b s (by rw [e]; rfl)
    refine ih hf' (fun t => ?_) s
    have h0 := hf' [] reqs t rfl
    have h1 := hw t
    rw [linkCount_cons, doneCount_cons] at h1
    rw [(handle_waiting h t).2 rfl]
    cases req <;> simp only [waitingAfter] at h1 ⊢ <;> omega

/-! ## C168 -/

/-- **C168 (partial).** The claim for compilations that link at most once. Missing: crates that are linked more than once
by one rustc, see `C168_linked_twice`. -/
theorem C168_settled_partial (P : Parts) (c c' : State) (reqs : List Request) (hc : c.outstanding = [])
    (hr : Compilations 1 reqs) (h : Settles P c reqs c') : (checkUnused c').isSome = true := by
  have hf := fair_compilations hr
  have h0 := settles_empty h hf (fun s => by
    rw [hc]
    have := hf [] reqs s rfl
    simpa [waiting] using this)
  have : c'.outstanding = [] := by
    cases ho : c'.outstanding with
    | nil => rfl
    | cons li rest =>
      have := h0 li.crate
      rw [ho, waiting_cons, if_pos rfl] at this
      omega
  unfold checkUnused
  rw [if_neg (by simp [this])]
  rfl

private def exSel : CrateSel := ⟨⟨str! "p", str! "1.0.0", true⟩, .primary⟩
private def exP : Parts := { scan := fun _ _ => some {}, report := fun _ _ _ => some [] }

/-- **C168, disagreement.** A crate of the types `dylib` and `cdylib` is linked twice by one rustc. When it is finished,
only one of the two files is examined, and the run is refused at its end although nothing was found. -/
theorem C168_linked_twice : ¬ C168_Claim := by
  intro h
  have hm : ∀ l, Merge [] l l := by
    intro l
    induction l with
    | nil => exact .nil
    | cons x l ih => exact .right ih
  have := h exP {} { paths := [([str! "a.rs"], [exSel.pkgId])], outstanding := [⟨exSel, str! "libp.so", []⟩] } 2
    (compile exSel [⟨exSel, str! "libp.so", []⟩, ⟨exSel, str! "libp.so", []⟩] [[str! "a.rs"]]) rfl
    (.compile .nil (by decide) (by simp) (hm _))
    (.done (cache := none) rfl (.done (cache := none) rfl (.done (cache := none) rfl (.done (cache := none) rfl .nil))))
  simp [checkUnused] at this

/-! Non-vacuity: a library without link and a program of the same package, whose requests overlap. -/
example : ∃ c', Settles exP {} [.rustcStarted exSel, .rustcStarted exSel, .linkerInvoked ⟨exSel, str! "p", []⟩,
    .rustcComplete exSel [], .rustcComplete exSel []] c' ∧
    Compilations 1 [.rustcStarted exSel, .rustcStarted exSel, .linkerInvoked ⟨exSel, str! "p", []⟩,
      .rustcComplete exSel [], .rustcComplete exSel []] := by
  refine ⟨_, .done (cache := none) rfl (.done (cache := none) rfl (.done (cache := none) rfl (.done (cache := none) rfl
    (.done (cache := none) rfl .nil)))), ?_⟩
  refine .compile (crate := exSel) (links := [⟨exSel, str! "p", []⟩]) (paths := []) (.compile (crate := exSel) (links := []) (paths := []) .nil
    (by decide) (by simp) (.right (.right .nil))) (by decide) (by simp) ?_
  exact .left (.right (.right (.left (.right .nil))))

end Cackle.Checker
