import Verif.Model.Output

/-!
# C131 and C132: cargo's output is passed on, and passing it on does not stop the build
-/

namespace Cackle.Output

/-! ## What users expect -/

/-- `s'` can come after `s`. -/
inductive Reach (p : Params) (s : State) : State → Prop where
  | refl : Reach p s s
  | step {s' s'' : State} (a : Act) : Reach p s s' → next p a s' = some s'' → Reach p s s''

/-- What the user has seen of what was written to one of the pipes. -/
def shown (s : State) (b : Bool) : List UInt8 := (s.screen.filter (fun x => x.1 == b)).map (fun x => x.2)

/-- Everything that cargo prints has been shown to the user, in the right order, when cackle ends. -/
def C131_Claim : Prop :=
  ∀ (p : Params) (out : Bool → List UInt8) (s : State),
    Reach p (init out) s → s.phase = .exited → ∀ b, shown s b = out b

/-- The process cannot end any more, whatever happens next. -/
def Hangs (p : Params) (s : State) : Prop := ∀ s', Reach p s s' → s'.phase ≠ .exited

/-- It never happens that the build cannot end any more. -/
def C132_Claim : Prop :=
  ∀ (p : Params) (out : Bool → List UInt8) (s : State),
    0 < p.cap → Reach p (init out) s → ¬ Hangs p s

/-! ## Lemmas -/

theorem Reach.trans {p : Params} {s t u : State} (h : Reach p s t) (h' : Reach p t u) : Reach p s u := by
  induction h' with
  | refl => exact h
  | step a _ hn ih => exact .step a ih hn

theorem Reach.of_run {p : Params} : ∀ (as : List Act) (s s' : State), run p as s = some s' → Reach p s s'
  | [], s, s', h => by cases h; exact .refl
  | a :: as, s, s', h => by
      unfold run at h
      cases hn : next p a s with
      | none => simp [hn] at h
      | some t =>
        simp only [hn] at h
        exact Reach.trans (.step a .refl hn) (Reach.of_run as t s' h)

@[simp] theorem set_same (s : State) (b : Bool) (c : Chan) : (s.set b c).chan b = c := by simp [State.set]

theorem set_chan (s : State) (b b' : Bool) (c : Chan) :
    (s.set b c).chan b' = if b' = b then c else s.chan b' := rfl

theorem filter_tag (b b' : Bool) (l : List UInt8) :
    ((l.map (fun x => (b, x))).filter (fun x => x.1 == b')).map (fun x => x.2) = if b' = b then l else [] := by
  cases b <;> cases b' <;> simp [List.filter_map, Function.comp_def]

/-- What holds in every state. -/
structure Inv (p : Params) (out : Bool → List UInt8) (s : State) : Prop where
  bytes : ∀ b, shown s b ++ (s.chan b).buf ++ (s.chan b).pipe ++ (s.chan b).todo = out b
  cap : ∀ b, (s.chan b).pipe.length ≤ p.cap
  small : ∀ b, (s.chan b).buf.length ≤ 64
  gone : s.cargoExited = true → ∀ b, (s.chan b).todo = []
  ended : ∀ b, (s.chan b).ended = true → s.cargoExited = true ∧ (s.chan b).buf = [] ∧ (s.chan b).pipe = []
  phase : s.phase ≠ .building → s.cargoExited = true
  ui : p.full = false → s.ui ≠ .active
  after : s.phase = .joined ∨ s.phase = .exited → s.ui = .closed
  done : s.phase = .exited → p.ok = true → ∀ b, (s.chan b).ended = true

theorem inv_init (p : Params) (out : Bool → List UInt8) : Inv p out (init out) := by
  constructor <;> simp [init, shown]

theorem shown_set (s : State) (b b' : Bool) (c : Chan) : shown (s.set b c) b' = shown s b' := rfl

theorem inv_next {p : Params} {out : Bool → List UInt8} {s s' : State} {a : Act} (h : Inv p out s)
    (hn : next p a s = some s') : Inv p out s' := by
  unfold next at hn
  split at hn
  · cases hn
  rename_i hph
  cases a with
  | write b n =>
    simp only [write] at hn
    split at hn
    · rename_i hc
      cases hn
      obtain ⟨h0, h1, h2⟩ := hc
      refine ⟨?_, ?_, ?_, ?_, ?_, h.phase, h.ui, h.after, ?_⟩
      · intro b'
        rw [shown_set, set_chan]
        split
        · next e => subst e; rw [← h.bytes]; simp [List.append_assoc]
        · exact h.bytes b'
      · intro b'
        rw [set_chan]
        split
        · simp; omega
        · exact h.cap b'
      · intro b'
        rw [set_chan]
        split
        · exact h.small b
        · exact h.small b'
      · intro hg
        have := h.gone hg b
        rw [this] at h1
        simp at h1; omega
      · intro b' he
        rw [set_chan] at he ⊢
        split at he
        · have := h.ended b he
          have hg := h.gone this.1 b
          rw [hg] at h1; simp at h1; omega
        · next e => rw [if_neg e]; exact h.ended b' he
      · intro he; exact absurd he hph
    · cases hn
  | cargoExit =>
    simp only [cargoExit] at hn
    split at hn
    · rename_i hc
      cases hn
      refine ⟨h.bytes, h.cap, h.small, ?_, ?_, fun _ => rfl, h.ui, h.after, h.done⟩
      · intro _ b
        cases b
        · exact hc.2.1
        · exact hc.2.2
      · intro b he
        exact ⟨rfl, (h.ended b he).2⟩
    · cases hn
  | read b n =>
    simp only [read] at hn
    split at hn
    · rename_i hc
      cases hn
      obtain ⟨h0, h1, h2, h3, h4⟩ := hc
      refine ⟨?_, ?_, ?_, ?_, ?_, h.phase, h.ui, h.after, ?_⟩
      · intro b'
        rw [shown_set, set_chan]
        split
        · next e =>
          subst e; rw [← h.bytes, h1]
          simp only [List.append_nil, List.append_assoc]
          rw [← List.append_assoc (List.take n _), List.take_append_drop]
        · exact h.bytes b'
      · intro b'
        rw [set_chan]
        split
        · have := h.cap b
          simp; omega
        · exact h.cap b'
      · intro b'
        rw [set_chan]
        split
        · simp; omega
        · exact h.small b'
      · intro hg b'
        rw [set_chan]
        split
        · exact h.gone hg b
        · exact h.gone hg b'
      · intro b' he
        rw [set_chan] at he ⊢
        split at he
        · rw [h0] at he; cases he
        · next e => rw [if_neg e]; exact h.ended b' he
      · intro he; exact absurd he hph
    · cases hn
  | print b =>
    simp only [print] at hn
    split at hn
    · rename_i hc
      cases hn
      refine ⟨?_, ?_, ?_, ?_, ?_, h.phase, h.ui, h.after, ?_⟩
      · intro b'
        show shown { s.set b _ with screen := _ } b' ++ ((s.set b _).chan b').buf ++ ((s.set b _).chan b').pipe
          ++ ((s.set b _).chan b').todo = _
        rw [set_chan]
        simp only [shown, List.filter_append, List.map_append, filter_tag]
        split
        · next e => subst e; rw [← h.bytes]; simp [shown, List.append_assoc]
        · rw [← h.bytes]; simp [shown]
      · intro b'
        show ((s.set b _).chan b').pipe.length ≤ _
        rw [set_chan]
        split
        · exact h.cap b
        · exact h.cap b'
      · intro b'
        show ((s.set b _).chan b').buf.length ≤ _
        rw [set_chan]
        split
        · simp
        · exact h.small b'
      · intro hg b'
        show ((s.set b _).chan b').todo = _
        rw [set_chan]
        split
        · exact h.gone hg b
        · exact h.gone hg b'
      · intro b' he
        change ((s.set b _).chan b').ended = true at he
        show _ ∧ ((s.set b _).chan b').buf = _ ∧ ((s.set b _).chan b').pipe = _
        rw [set_chan] at he ⊢
        split at he
        · exact absurd (h.ended b he).2.1 hc.1
        · next e => rw [if_neg e]; exact h.ended b' he
      · intro he; exact absurd he hph
    · cases hn
  | eof b =>
    simp only [eof] at hn
    split at hn
    · rename_i hc
      cases hn
      obtain ⟨h0, h1, h2, h3⟩ := hc
      refine ⟨?_, ?_, ?_, ?_, ?_, h.phase, h.ui, h.after, ?_⟩
      · intro b'
        rw [shown_set, set_chan]
        split
        · next e => subst e; exact h.bytes b'
        · exact h.bytes b'
      · intro b'
        rw [set_chan]
        split
        · exact h.cap b
        · exact h.cap b'
      · intro b'
        rw [set_chan]
        split
        · exact h.small b
        · exact h.small b'
      · intro hg b'
        rw [set_chan]
        split
        · exact h.gone hg b
        · exact h.gone hg b'
      · intro b' he
        rw [set_chan] at he ⊢
        split
        · exact ⟨h3, h1, h2⟩
        · next e => rw [if_neg e] at he; exact h.ended b' he
      · intro he; exact absurd he hph
    · cases hn
  | uiOpen =>
    simp only [uiOpen] at hn
    split at hn
    · rename_i hc
      cases hn
      refine ⟨h.bytes, h.cap, h.small, h.gone, h.ended, h.phase, ?_, ?_, h.done⟩
      · intro hf; rw [hc.1] at hf; cases hf
      · intro ha; have := h.after ha; rw [hc.2] at this; cases this
    · cases hn
  | uiClose =>
    simp only [uiClose] at hn
    split at hn
    · cases hn
      exact ⟨h.bytes, h.cap, h.small, h.gone, h.ended, h.phase, by intro _; simp, fun _ => rfl, h.done⟩
    · cases hn
  | notice =>
    simp only [notice] at hn
    split at hn
    · rename_i hc
      cases hn
      exact ⟨h.bytes, h.cap, h.small, h.gone, h.ended, fun _ => hc.2, h.ui, by simp, by simp⟩
    · cases hn
  | join =>
    simp only [join] at hn
    split at hn
    · rename_i hc
      cases hn
      exact ⟨h.bytes, h.cap, h.small, h.gone, h.ended, fun _ => h.phase (by rw [hc.1]; simp), h.ui, fun _ => hc.2, by simp⟩
    · cases hn
  | finish =>
    simp only [finish] at hn
    split at hn
    · rename_i hc
      cases hn
      refine ⟨h.bytes, h.cap, h.small, h.gone, h.ended, fun _ => h.phase (by rw [hc.1]; simp), h.ui,
        fun _ => h.after (.inl hc.1), ?_⟩
      intro _ ho b
      cases b
      · exact (hc.2 ho).1
      · exact (hc.2 ho).2
    · cases hn

theorem inv_reach {p : Params} {out : Bool → List UInt8} {s s' : State} (h : Inv p out s) (hr : Reach p s s') :
    Inv p out s' := by
  induction hr with
  | refl => exact h
  | step a _ hn ih => exact inv_next ih hn

/-! ## C131 -/

/-- At any time, what was shown of a pipe is a beginning of what cargo writes to it: nothing is changed, left out in the
middle, or reordered within one pipe. -/
theorem C131_prefix (p : Params) (out : Bool → List UInt8) (s : State) (hr : Reach p (init out) s) (b : Bool) :
    shown s b <+: out b := by
  have h := (inv_reach (inv_init p out) hr).bytes b
  exact ⟨(s.chan b).buf ++ ((s.chan b).pipe ++ (s.chan b).todo), by rw [← h]; simp [List.append_assoc]⟩

/-- C131 for builds that succeed: everything that cargo printed has been shown when cackle ends. -/
theorem C131_shown_partial (p : Params) (out : Bool → List UInt8) (s : State) (hok : p.ok = true)
    (hr : Reach p (init out) s) (he : s.phase = .exited) (b : Bool) : shown s b = out b := by
  have h := inv_reach (inv_init p out) hr
  have hd := h.ended b (h.done he hok b)
  have := h.bytes b
  rw [hd.2.1, hd.2.2, h.gone hd.1 b] at this
  simpa using this

/-- A build that prints on both pipes. -/
def sample : Bool → List UInt8 := fun b => if b then [1, 2, 3] else [9]

/-- How it runs: the user interface becomes active in between. -/
def sampleRun : List Act :=
  [.write true 2, .read true 1, .print true, .uiOpen, .write false 1, .read false 1, .write true 1, .read true 2,
    .cargoExit, .notice, .uiClose, .join, .print true, .print false, .eof true, .eof false, .finish]

example : ∃ s, run ⟨4, true, true⟩ sampleRun (init sample) = some s ∧ s.phase = .exited ∧
    s.screen = [(true, 1), (true, 2), (true, 3), (false, 9)] := ⟨_, rfl, rfl, rfl⟩

example : ∃ s, Reach ⟨4, true, true⟩ (init sample) s ∧ s.phase = .exited := ⟨_, Reach.of_run sampleRun _ _ rfl, rfl⟩

/-- When cargo fails, nothing waits for its output: cackle can end without having shown any of cargo's error messages. -/
theorem C131_lost : ¬ C131_Claim := by
  intro h
  have := h ⟨65536, true, false⟩ (fun b => if b then [69, 82, 82] else []) _
    (Reach.of_run [.uiOpen, .write true 3, .cargoExit, .notice, .uiClose, .join, .finish] _ _ rfl) rfl true
  cases this

/-- The same without the full-screen interface: this does not depend on the lock. -/
theorem C131_lost_basic : ∃ s, Reach ⟨65536, false, false⟩ (init (fun b => if b then [69, 82, 82] else [])) s ∧
    s.phase = .exited ∧ s.screen = [] :=
  ⟨_, Reach.of_run [.write true 3, .cargoExit, .notice, .uiClose, .join, .finish] _ _ rfl, rfl, rfl⟩

/-! ## C132 -/

/-- What is still to be shown of a pipe. -/
def left (s : State) (b : Bool) : Nat := (s.chan b).todo.length + (s.chan b).pipe.length + (s.chan b).buf.length

/-- Once the full-screen interface is active and more is to come than fits in the pipe and the thread's buffer, this
remains so. -/
theorem blocked_next {p : Params} {out : Bool → List UInt8} {s s' : State} {a : Act} {b : Bool} (hi : Inv p out s)
    (hu : s.ui = .active) (hb : s.phase = .building) (hl : p.cap + 64 < left s b) (hn : next p a s = some s') :
    s'.ui = .active ∧ s'.phase = .building ∧ p.cap + 64 < left s' b := by
  have htodo : (s.chan b).todo ≠ [] := by
    intro e
    have h1 := hi.cap b
    have h2 := hi.small b
    simp only [left, e, List.length_nil] at hl
    omega
  unfold next at hn
  rw [if_neg (by rw [hb]; simp)] at hn
  cases a with
  | write c n =>
    simp only [write] at hn
    split at hn
    · cases hn
      refine ⟨hu, hb, ?_⟩
      simp only [left, set_chan] at hl ⊢
      split
      · next e => subst e; simp; omega
      · exact hl
    · cases hn
  | cargoExit =>
    simp only [cargoExit] at hn
    split at hn
    · rename_i hc
      cases b
      · exact absurd hc.2.1 htodo
      · exact absurd hc.2.2 htodo
    · cases hn
  | read c n =>
    simp only [read] at hn
    split at hn
    · rename_i hc
      cases hn
      refine ⟨hu, hb, ?_⟩
      simp only [left, set_chan] at hl ⊢
      split
      · next e =>
        subst e
        have := hc.2.1
        rw [this] at hl
        simp at hl ⊢; omega
      · exact hl
    · cases hn
  | print c =>
    simp only [print] at hn
    rw [if_neg (by rw [hu]; simp)] at hn
    cases hn
  | eof c =>
    simp only [eof] at hn
    split at hn
    · cases hn
      refine ⟨hu, hb, ?_⟩
      simp only [left, set_chan] at hl ⊢
      split
      · next e => subst e; exact hl
      · exact hl
    · cases hn
  | uiOpen =>
    simp only [uiOpen] at hn
    rw [if_neg (by rw [hu]; simp)] at hn
    cases hn
  | uiClose =>
    simp only [uiClose] at hn
    rw [if_neg (by rw [hb]; simp)] at hn
    cases hn
  | notice =>
    simp only [notice] at hn
    split at hn
    · rename_i hc
      exact absurd (hi.gone hc.2 b) htodo
    · cases hn
  | join =>
    simp only [join] at hn
    rw [if_neg (by rw [hb]; simp)] at hn
    cases hn
  | finish =>
    simp only [finish] at hn
    rw [if_neg (by rw [hb]; simp)] at hn
    cases hn

/-- Whenever the full-screen interface is active and cargo is still to print more than fits in a pipe and the buffer of
the thread, cackle hangs: no sequence of steps ends the process. -/
theorem C132_hangs (p : Params) (out : Bool → List UInt8) (s : State) (b : Bool) (hr : Reach p (init out) s)
    (hu : s.ui = .active) (hl : p.cap + 64 < left s b) : Hangs p s := by
  have hi := inv_reach (inv_init p out) hr
  have hb : s.phase = .building := by
    rcases hp : s.phase with _ | _ | _ | _
    · rfl
    all_goals
      exfalso
      have hg := hi.gone (hi.phase (by rw [hp]; simp)) b
      have h1 := hi.cap b
      have h2 := hi.small b
      simp only [left, hg, List.length_nil] at hl
      omega
  intro s' hr'
  have : Inv p out s' ∧ s'.ui = .active ∧ s'.phase = .building ∧ p.cap + 64 < left s' b := by
    induction hr' with
    | refl => exact ⟨hi, hu, hb, hl⟩
    | step a _ hn ih => exact ⟨inv_next ih.1 hn, blocked_next ih.1 ih.2.1 ih.2.2.1 ih.2.2.2 hn⟩
  rw [this.2.2.1]
  simp

/-- For every capacity and every build that prints more than that and 64 bytes to one of the pipes, it can happen: it is
enough that the interface becomes active early. -/
theorem C132_hang_possible (p : Params) (out : Bool → List UInt8) (b : Bool) (hf : p.full = true)
    (hl : p.cap + 64 < (out b).length) : ∃ s, Reach p (init out) s ∧ Hangs p s := by
  have hn : next p .uiOpen (init out) = some { init out with ui := .active } := by
    simp [next, uiOpen, init, hf]
  have hr : Reach p (init out) { init out with ui := .active } := .step _ .refl hn
  exact ⟨_, hr, C132_hangs p out _ b hr rfl (by simpa [left, init] using hl)⟩

theorem C132_refuted : ¬ C132_Claim := by
  intro h
  obtain ⟨s, hr, hs⟩ := C132_hang_possible ⟨65536, true, true⟩ (fun _ => List.replicate 70000 0) true rfl
    (by rw [List.length_replicate]; decide)
  exact h _ _ s (by decide) hr hs

/-! Every run is finite, whatever the parameters are: what is left to do gets less with every step. -/

def rankUi : Ui → Nat
  | .idle => 2
  | .active => 1
  | .closed => 0

def rankPhase : Phase → Nat
  | .building => 3
  | .shutdown => 2
  | .joined => 1
  | .exited => 0

def rankChan (c : Chan) : Nat :=
  3 * c.todo.length + 2 * c.pipe.length + c.buf.length + (if c.ended then 0 else 1)

def rank (s : State) : Nat :=
  rankChan (s.chan false) + rankChan (s.chan true) + (if s.cargoExited then 0 else 1) + rankUi s.ui + rankPhase s.phase

theorem rank_set {s : State} {b : Bool} {c : Chan} (h : rankChan c < rankChan (s.chan b)) :
    rank (s.set b c) < rank s := by
  cases b
  · have e : rank (s.set false c) = rankChan c + rankChan (s.chan true) + (if s.cargoExited then 0 else 1)
        + rankUi s.ui + rankPhase s.phase := rfl
    have e' : rank s = rankChan (s.chan false) + rankChan (s.chan true) + (if s.cargoExited then 0 else 1)
        + rankUi s.ui + rankPhase s.phase := rfl
    rw [e, e']
    generalize (if s.cargoExited then 0 else 1) = k
    omega
  · have e : rank (s.set true c) = rankChan (s.chan false) + rankChan c + (if s.cargoExited then 0 else 1)
        + rankUi s.ui + rankPhase s.phase := rfl
    have e' : rank s = rankChan (s.chan false) + rankChan (s.chan true) + (if s.cargoExited then 0 else 1)
        + rankUi s.ui + rankPhase s.phase := rfl
    rw [e, e']
    generalize (if s.cargoExited then 0 else 1) = k
    omega

theorem rank_next {p : Params} {s s' : State} {a : Act} (hn : next p a s = some s') : rank s' < rank s := by
  unfold next at hn
  split at hn
  · cases hn
  cases a with
  | write b n =>
    simp only [write] at hn
    split at hn
    · cases hn; apply rank_set; simp [rankChan]; omega
    · cases hn
  | cargoExit =>
    simp only [cargoExit] at hn
    split at hn
    · rename_i hc; cases hn; simp [rank, hc.1]
    · cases hn
  | read b n =>
    simp only [read] at hn
    split at hn
    · rename_i hc; cases hn; apply rank_set; simp [rankChan, hc.2.1]; omega
    · cases hn
  | print b =>
    simp only [print] at hn
    split at hn
    · rename_i hc
      cases hn
      have : 0 < (s.chan b).buf.length := List.length_pos_iff.mpr hc.1
      have := @rank_set s b { (s.chan b) with buf := [] } (by simp only [rankChan, List.length_nil]; omega)
      exact this
    · cases hn
  | eof b =>
    simp only [eof] at hn
    split at hn
    · rename_i hc; cases hn; apply rank_set; simp [rankChan, hc.1]
    · cases hn
  | uiOpen =>
    simp only [uiOpen] at hn
    split at hn
    · rename_i hc; cases hn; simp [rank, hc.2, rankUi]
    · cases hn
  | uiClose =>
    simp only [uiClose] at hn
    split at hn
    · rename_i hc
      cases hn
      have : 0 < rankUi s.ui := by
        cases h : s.ui
        · decide
        · decide
        · exact absurd h hc.1
      have e : rank { s with ui := .closed } = rankChan (s.chan false) + rankChan (s.chan true)
        + (if s.cargoExited then 0 else 1) + 0 + rankPhase s.phase := rfl
      have e' : rank s = rankChan (s.chan false) + rankChan (s.chan true) + (if s.cargoExited then 0 else 1)
        + rankUi s.ui + rankPhase s.phase := rfl
      rw [e, e']
      omega
    · cases hn
  | notice =>
    simp only [notice] at hn
    split at hn
    · rename_i hc; cases hn; simp [rank, hc.1, rankPhase]
    · cases hn
  | join =>
    simp only [join] at hn
    split at hn
    · rename_i hc; cases hn; simp [rank, hc.1, rankPhase]
    · cases hn
  | finish =>
    simp only [finish] at hn
    split at hn
    · rename_i hc; cases hn; simp [rank, hc.1, rankPhase]
    · cases hn

/-- Every run is finite. -/
theorem C132_finite (p : Params) : ∀ (as : List Act) (out : Bool → List UInt8) (s : State),
    run p as (init out) = some s → as.length ≤ 3 * (out false).length + 3 * (out true).length + 8 := by
  have key : ∀ (as : List Act) (s s' : State), run p as s = some s' → as.length + rank s' ≤ rank s := by
    intro as
    induction as with
    | nil => intro s s' h; cases h; simp
    | cons a as ih =>
      intro s s' h
      unfold run at h
      cases hn : next p a s with
      | none => simp [hn] at h
      | some t =>
        simp only [hn] at h
        have h1 := ih t s' h
        have h2 := rank_next hn
        simp only [List.length_cons]
        omega
  intro as out s h
  have := key as _ s h
  simp [rank, init, rankChan, rankUi, rankPhase] at this
  omega

/-- Something can happen in every state before the end, if the interface is not active or what is to come fits in the
pipes. -/
theorem progress {p : Params} {out : Bool → List UInt8} {s : State} (hcap : 0 < p.cap) (hi : Inv p out s)
    (hp : s.phase ≠ .exited)
    (hok : s.ui ≠ .active ∨ ∀ b, (s.chan b).todo.length + (s.chan b).pipe.length ≤ p.cap) :
    ∃ a s', next p a s = some s' := by
  have go : ∀ a, (∀ s', next p a s = some s' → False) → next p a s = none := by
    intro a h
    cases hn : next p a s with
    | none => rfl
    | some t => exact (h t hn).elim
  apply Classical.byContradiction
  intro hno
  have none_ : ∀ a, next p a s = none := fun a => go a (fun s' h => hno ⟨a, s', h⟩)
  -- the threads
  have hbuf : s.ui ≠ .active → ∀ b, (s.chan b).buf = [] := by
    intro hu b
    apply Classical.byContradiction
    intro hb
    have := none_ (.print b)
    simp [next, hp, print, hb, hu] at this
  have hpipe : ∀ b, (s.chan b).buf = [] → (s.chan b).pipe = [] := by
    intro b hb
    apply Classical.byContradiction
    intro hq
    have hpos : 0 < (s.chan b).pipe.length := List.length_pos_iff.mpr hq
    have hend : (s.chan b).ended = false := by
      cases he : (s.chan b).ended with
      | false => rfl
      | true => exact absurd (hi.ended b he).2.2 hq
    have := none_ (.read b 1)
    simp only [next, if_neg hp, read] at this
    rw [if_pos ⟨hend, hb, by omega, by omega, hpos⟩] at this
    cases this
  -- cargo
  have htodo : ∀ b, (s.chan b).todo = [] := by
    intro b
    apply Classical.byContradiction
    intro ht
    have hpos : 0 < (s.chan b).todo.length := List.length_pos_iff.mpr ht
    have hroom : (s.chan b).pipe.length + 1 ≤ p.cap := by
      rcases hok with hu | hf
      · rw [hpipe b (hbuf hu b)]; simp only [List.length_nil]; omega
      · have := hf b; omega
    have := none_ (.write b 1)
    simp only [next, if_neg hp, write] at this
    rw [if_pos ⟨by omega, by omega, hroom⟩] at this
    cases this
  have hex : s.cargoExited = true := by
    cases he : s.cargoExited with
    | true => rfl
    | false =>
      have := none_ .cargoExit
      simp [next, hp, cargoExit, he, htodo] at this
  rcases hph : s.phase with _ | _ | _ | _
  · have := none_ .notice
    simp [next, hph, notice, hex] at this
  · by_cases hu : s.ui = .closed
    · have := none_ .join
      simp [next, hph, join, hu] at this
    · have := none_ .uiClose
      simp [next, hph, uiClose, hu] at this
  · have hu : s.ui ≠ .active := by rw [hi.after (.inl hph)]; simp
    have hend : ∀ b, (s.chan b).ended = true := by
      intro b
      cases he : (s.chan b).ended with
      | true => rfl
      | false =>
        have := none_ (.eof b)
        simp [next, hph, eof, he, hbuf hu b, hpipe b (hbuf hu b), hex] at this
    have := none_ .finish
    simp [next, hph, finish, hend] at this
  · exact hp hph

/-- What is to come to a pipe never gets more. -/
theorem fits_next {p : Params} {s s' : State} {a : Act} (hn : next p a s = some s') (b : Bool) :
    (s'.chan b).todo.length + (s'.chan b).pipe.length ≤ (s.chan b).todo.length + (s.chan b).pipe.length := by
  unfold next at hn
  split at hn
  · cases hn
  cases a with
  | write c n =>
    simp only [write] at hn
    split at hn
    · cases hn
      rw [set_chan]
      split
      · next e => subst e; simp; omega
      · exact Nat.le_refl _
    · cases hn
  | read c n =>
    simp only [read] at hn
    split at hn
    · cases hn
      rw [set_chan]
      split
      · next e => subst e; simp
      · exact Nat.le_refl _
    · cases hn
  | print c =>
    simp only [print] at hn
    split at hn
    · cases hn
      show ((s.set c _).chan b).todo.length + ((s.set c _).chan b).pipe.length ≤ _
      rw [set_chan]
      split
      · next e => subst e; exact Nat.le_refl _
      · exact Nat.le_refl _
    · cases hn
  | eof c =>
    simp only [eof] at hn
    split at hn
    · cases hn
      rw [set_chan]
      split
      · next e => subst e; exact Nat.le_refl _
      · exact Nat.le_refl _
    · cases hn
  | cargoExit => simp only [cargoExit] at hn; split at hn <;> cases hn; exact Nat.le_refl _
  | uiOpen => simp only [uiOpen] at hn; split at hn <;> cases hn; exact Nat.le_refl _
  | uiClose => simp only [uiClose] at hn; split at hn <;> cases hn; exact Nat.le_refl _
  | notice => simp only [notice] at hn; split at hn <;> cases hn; exact Nat.le_refl _
  | join => simp only [join] at hn; split at hn <;> cases hn; exact Nat.le_refl _
  | finish => simp only [finish] at hn; split at hn <;> cases hn; exact Nat.le_refl _

theorem fits_reach {p : Params} {s s' : State} (hr : Reach p s s') (b : Bool) :
    (s'.chan b).todo.length + (s'.chan b).pipe.length ≤ (s.chan b).todo.length + (s.chan b).pipe.length := by
  induction hr with
  | refl => exact Nat.le_refl _
  | step a _ hn ih => exact Nat.le_trans (fits_next hn b) ih

/-- From a state with the stated property, every run ends the process when it is continued for as long as something can
happen. -/
theorem ends_of {p : Params} {out : Bool → List UInt8} (hcap : 0 < p.cap)
    (P : State → Prop)
    (hP : ∀ s a s', P s → next p a s = some s' → P s')
    (hgood : ∀ s, Inv p out s → P s →
      s.ui ≠ .active ∨ ∀ b, (s.chan b).todo.length + (s.chan b).pipe.length ≤ p.cap) :
    ∀ (n : Nat) (s : State), rank s ≤ n → Inv p out s → P s → ∃ s', Reach p s s' ∧ s'.phase = .exited := by
  intro n
  induction n with
  | zero =>
    intro s hn hi hs
    by_cases hp : s.phase = .exited
    · exact ⟨s, .refl, hp⟩
    · obtain ⟨a, s', h⟩ := progress hcap hi hp (hgood s hi hs)
      have := rank_next h
      omega
  | succ n ih =>
    intro s hn hi hs
    by_cases hp : s.phase = .exited
    · exact ⟨s, .refl, hp⟩
    · obtain ⟨a, s', h⟩ := progress hcap hi hp (hgood s hi hs)
      have := rank_next h
      obtain ⟨t, ht, hte⟩ := ih s' (by omega) (inv_next hi h) (hP s a s' hs h)
      exact ⟨t, Reach.trans (.step a .refl h) ht, hte⟩

/-- C132 without the full-screen interface: in every state that can be reached, before the end something can happen; with
`C132_finite`, the process ends. -/
theorem C132_basic_partial (p : Params) (out : Bool → List UInt8) (s : State) (hcap : 0 < p.cap) (hf : p.full = false)
    (hr : Reach p (init out) s) : (s.phase = .exited ∨ ∃ a s', next p a s = some s') ∧ ¬ Hangs p s := by
  have hi := inv_reach (inv_init p out) hr
  refine ⟨?_, ?_⟩
  · by_cases hp : s.phase = .exited
    · exact .inl hp
    · exact .inr (progress hcap hi hp (.inl (hi.ui hf)))
  · intro h
    obtain ⟨t, ht, hte⟩ := ends_of (out := out) hcap (fun _ => True) (fun _ _ _ _ _ => trivial)
      (fun s hi _ => .inl (hi.ui hf)) (rank s) s (Nat.le_refl _) hi trivial
    exact h t ht hte

/-- C132 with the full-screen interface, from any state in which what is still to come fits in the two pipes. -/
theorem C132_fits_partial (p : Params) (out : Bool → List UInt8) (s : State) (hcap : 0 < p.cap)
    (hr : Reach p (init out) s) (hfit : ∀ b, (s.chan b).todo.length + (s.chan b).pipe.length ≤ p.cap) (s' : State)
    (hr' : Reach p s s') : (s'.phase = .exited ∨ ∃ a s'', next p a s' = some s'') ∧ ¬ Hangs p s' := by
  have hi := inv_reach (inv_init p out) (Reach.trans hr hr')
  have hfit' : ∀ b, (s'.chan b).todo.length + (s'.chan b).pipe.length ≤ p.cap :=
    fun b => Nat.le_trans (fits_reach hr' b) (hfit b)
  refine ⟨?_, ?_⟩
  · by_cases hp : s'.phase = .exited
    · exact .inl hp
    · exact .inr (progress hcap hi hp (.inr hfit'))
  · intro h
    obtain ⟨t, ht, hte⟩ := ends_of (out := out) hcap
      (fun s => ∀ b, (s.chan b).todo.length + (s.chan b).pipe.length ≤ p.cap)
      (fun s a s' hs hn b => Nat.le_trans (fits_next hn b) (hs b))
      (fun s _ hs => .inr hs) (rank s') s' (Nat.le_refl _) hi hfit'
    exact h t ht hte

example : (∀ b, ((init sample).chan b).todo.length + ((init sample).chan b).pipe.length ≤ 4) := by decide

/-- As long as the full-screen interface has not become active and cargo prints, nothing is held back: the interface is
the only reason for a hang. -/
theorem C132_only_ui (p : Params) (out : Bool → List UInt8) (s : State) (hcap : 0 < p.cap)
    (hr : Reach p (init out) s) (hp : s.phase ≠ .exited) (hno : ∀ a, next p a s = none) :
    s.ui = .active ∧ p.full = true ∧ ∃ b, p.cap < (s.chan b).todo.length + (s.chan b).pipe.length := by
  have hi := inv_reach (inv_init p out) hr
  have h : ¬ (s.ui ≠ .active ∨ ∀ b, (s.chan b).todo.length + (s.chan b).pipe.length ≤ p.cap) := by
    intro hok
    obtain ⟨a, s', hn⟩ := progress hcap hi hp hok
    rw [hno a] at hn
    cases hn
  have hu : s.ui = .active := Classical.byContradiction (fun hu => h (.inl hu))
  refine ⟨hu, ?_, ?_⟩
  · cases hf : p.full with
    | true => rfl
    | false => exact absurd hu (hi.ui hf)
  · apply Classical.byContradiction
    intro hb
    exact h (.inr (fun b => Nat.le_of_not_lt (fun hlt => hb ⟨b, hlt⟩)))

/-- With a pipe for one byte, one in it, one in the thread's buffer and one to come, nothing can happen. -/
example : ∃ s, Reach ⟨1, true, true⟩ (init (fun b => if b then [1, 2, 3] else [])) s ∧ s.phase ≠ .exited ∧
    ∀ a, next ⟨1, true, true⟩ a s = none := by
  refine ⟨_, Reach.of_run [.uiOpen, .write true 1, .read true 1, .write true 1] _ _ rfl, by decide, ?_⟩
  intro a
  cases a with
  | write b n =>
    cases b
    · simp [next, init, State.set, write]; omega
    · simp [next, init, State.set, write]; omega
  | read b n => cases b <;> simp [next, init, State.set, read]; omega
  | print b => cases b <;> simp [next, init, State.set, print]
  | eof b => cases b <;> simp [next, init, State.set, eof]
  | _ => rfl

end Cackle.Output
