import Verif.Props.Fixes
import Verif.Props.Help

/-!
# C186: a list of edits that the user opens has an edit

With `f` the user asks for the edits of the selected problem, in the list of problems or in the list of places. `handle_key` looks
whether there is an edit only in the former (problems_ui.rs:212-217, 239-243).
-/

namespace Cackle.Ui
open Cackle Store Config

section
variable {F E C : Type} [DecidableEq F]

/-- While places are listed, the selected problem is about places. -/
def PlacesListed (s : State F C) : Prop :=
  .selectUsage ∈ s.modes → ∃ id p, (live s.store)[s.problemIndex]? = some (id, p) ∧ AtPlaces p

theorem PlacesListed.of {s s' : State F C} (h : PlacesListed s) (h1 : live s'.store = live s.store)
    (h2 : s'.problemIndex = s.problemIndex) (h3 : .selectUsage ∈ s'.modes → .selectUsage ∈ s.modes) : PlacesListed s' := by
  intro hm
  rw [h1, h2]
  exact h (h3 hm)

theorem atPlaces_of_usages {p : Problem} (h : numUsages p ≠ 0) : AtPlaces p := by
  cases p <;> first | trivial | exact absurd rfl h

theorem atPlaces_grown {p q : Problem} (h : Grown p q) (hp : AtPlaces p) : AtPlaces q := by
  have := h.1
  cases p <;> first | exact hp.elim | (cases q <;> first | trivial | simp [Problem.Same] at this)

theorem mem_of_tail {m : Mode} {l : List Mode} (h : m ∈ l.tail) : m ∈ l := List.mem_of_mem_tail h

theorem mem_of_cons {m : Mode} {l : List Mode} (hm : Mode.selectUsage ≠ m) (h : .selectUsage ∈ m :: l) : .selectUsage ∈ l :=
  (List.mem_cons.mp h).resolve_left hm

theorem general_places {s : State F C} {m : Mode} (hq : PlacesListed s) (k : Key) : PlacesListed (generalKey s m k) := by
  unfold generalKey
  split
  · exact hq.of rfl rfl id
  · split
    · split
      · exact hq.of rfl rfl mem_of_tail
      · exact hq.of rfl rfl (by simp)
    · split
      · split
        · exact hq.of rfl rfl mem_of_tail
        · exact hq
      · exact hq

theorem comment_places (env : Env F E C) {s : State F C} {input : Str} (hq : PlacesListed s) (k : Key) :
    PlacesListed (commentKey env s input k) := by
  have hp : ∀ t, .selectUsage ∈ (Mode.setComment t :: s.modes.tail) → .selectUsage ∈ s.modes :=
    fun t h => mem_of_tail (by simpa using h)
  unfold commentKey
  cases k <;> simp only
  · exact hq.of rfl rfl (hp _)
  · exact hq.of rfl rfl (hp _)
  · exact hq.of rfl rfl mem_of_tail
  · unfold setComment
    simp only
    split
    · exact hq.of rfl rfl mem_of_tail
    · split <;> exact hq.of rfl rfl mem_of_tail
  · exact hq.of rfl rfl (hp _)
  · exact hq.of rfl rfl (hp _)

theorem handle_places (env : Env F E C) (w : Bool) {s : State F C} {k : Key} (hb : Shape s.modes) (hq : PlacesListed s)
    (hw : ¬ Writes s k) {r : State F C × Bool} (h : handleKey env w s k = some r) : PlacesListed r.1 := by
  unfold handleKey at h
  split at h
  · simp only [ok, Option.some.injEq] at h
    subst h
    exact hq
  · rename_i m ms hm
    have hb' := hb
    rw [hm] at hb'
    have hdet : ∀ r, detailsKey s = some r → PlacesListed r.1 := by
      intro r hr
      unfold detailsKey at hr
      split at hr
      · cases hr; exact hq
      · next hu =>
        obtain ⟨l, h1, rfl⟩ := Option.map_eq_some_iff.mp hr
        intro _
        show ∃ id p, (live s.store)[s.problemIndex]? = some (id, p) ∧ AtPlaces p
        unfold State.usages State.selected at hu
        split at hu
        · exact absurd rfl hu
        · next id p hs => exact ⟨id, p, hs, atPlaces_of_usages hu⟩
    have hprob : m = .selectProblem → s.modes = [.selectProblem] := by
      intro h1
      subst h1
      rw [hm]
      cases hb' with
      | problems => rfl
      | over h _ _ => exact h.elim
    split at h
    · simp only [ok, Option.some.injEq] at h
      subst h
      exact comment_places env hq k
    · split at h
      · cases h
        exact hq.of rfl rfl (by simp)
      · split at h
        all_goals first
          | exact hdet _ h
          | (simp only [Option.map_eq_some_iff] at h
             obtain ⟨i, hi, rfl⟩ := h
             first
               | exact hq.of rfl rfl id
               | (intro hmm
                  have : Mode.selectUsage ∈ s.modes := hmm
                  rw [hprob rfl] at this
                  simp at this))
          | (simp only [ok, Option.some.injEq] at h
             subst h
             first
               | exact hq.of rfl rfl mem_of_tail
               | exact hq.of rfl rfl (mem_of_cons nofun)
               | exact hq.of rfl rfl (fun h => mem_of_tail (mem_of_cons (m := .selectEdit) nofun h))
               | exact general_places hq k)
          | (split at h <;> (cases h; first | exact hq | exact hq.of rfl rfl (mem_of_cons nofun)))
          | exact absurd (Or.inl ⟨by rw [hm]; rfl, by simp⟩) hw
          | exact absurd (Or.inr ⟨by rw [hm]; rfl, rfl⟩) hw
          | (change some (backtraceKey env s) = some r at h
             have h := Option.some.inj h
             subst h
             unfold backtraceKey
             split
             · exact hq.of rfl rfl id
             · split
               · exact hq.of rfl rfl id
               · exact hq.of rfl rfl (by simp))

/-- As long as the user has not confirmed auto-accept, places are listed only for problems about places. -/
theorem exec_places {env : Env F E C} (hs : env.Sane) {x : Sys F C} {tr : List (Sys F C × Act F C)} (h : Exec env x tr)
    (hc : ¬ Confirmed tr) : PlacesListed x.ui := by
  induction h with
  | init => intro h; simp at h
  | @step x x' tr a h hp ha ih =>
    have hc' : ¬ Confirmed tr := fun h => hc (h.mono _)
    have ih := ih hc'
    have hi := exec_inv hs h
    have hsh := exec_shape hs h
    obtain ⟨t, ht⟩ := hi.store
    cases did ha with
    | idle h1 => rcases h1 with h1 | h1 <;> (rw [h1]; exact ih.of rfl rfl id)
    | report h1 =>
      intro hm
      obtain ⟨id, p, h2, h3⟩ := ih hm
      obtain ⟨q, h4, h5⟩ := add_live ht h1 _ id p h2
      exact ⟨id, q, h4, atPlaces_grown h5 h3⟩
    | reload => exact ih.of rfl rfl id
    | touch => exact ih.of rfl rfl id
    | quiet _ _ _ hw h1 =>
      have hw' := (not_congr (checkQuit_writes x _)).mpr hw
      refine handle_places env _ ?_ ?_ hw' h1
      · rw [checkQuit_modes]; exact hsh
      · rcases checkQuit_ui_or x with h2 | h2 <;> (rw [h2]; exact ih.of rfl rfl id)
    | accept _ _ _ hm _ h1 =>
      obtain ⟨ms, hms⟩ := head_cons hm
      have h2 : x.ui.modes = [.selectEdit, .selectProblem] := by
        rw [hms] at hsh ⊢
        cases hsh with
        | edits => rfl
        | over h _ _ => exact h.elim
      have h3 : x'.ui.modes = x.ui.modes ∨ x'.ui.modes = x.ui.modes.tail := by
        rcases acceptKey_cases env hs _ x.ui ht with ⟨h4, _⟩ | ⟨_, _, h4, _⟩ | ⟨_, _, _, _, _, _, _, _, _, _, _, h4, _, _⟩ <;>
          (rw [h4] at h1; have h5 := congrArg (fun o => o.map (fun r => r.1.modes)) h1)
        · exact Or.inr (Option.some.inj h5).symm
        · exact Or.inl (Option.some.inj h5).symm
        · exact Or.inr (Option.some.inj h5).symm
      intro h4
      rw [h2] at h3
      rcases h3 with h3 | h3 <;> (rw [h3] at h4; simp at h4)
    | confirm _ _ her hm h1 => exact absurd (⟨x, _, List.mem_cons_self, hm, her⟩ : Confirmed _) hc
    | added _ _ hacc => exact absurd (hi.confirmed hacc) hc'

end

/-- The English claim C186, for the edits of the real program: if `f` is pressed in the list of problems or in the list of places,
then an error is shown, or the edits of the selected problem are listed and there is at least one. -/
def C186_Claim : Prop :=
  ∀ (F : Type) [DecidableEq F] (t : Fixes.Texts F) (bwrap : Bool) (k : Nat) (order : List (List Str) → List (List Str))
    (sandboxOf : Str → Sandbox) (x : Sys F Raw) (tr : List (Sys F Raw × Act F Raw)),
    Exec (Fixes.env t bwrap k order sandboxOf) x tr → Listening x →
    (x.ui.modes.head? = some .selectProblem ∨ x.ui.modes.head? = some .selectUsage) →
    ∀ (w : Bool) (x' : Sys F Raw), act (Fixes.env t bwrap k order sandboxOf) x (.iter w (.key (.char 'f'))) = some x' →
    x'.error = true ∨ x'.ui.modes.head? = some .selectEdit ∧ ∃ id p fs, (live x'.ui.store)[x'.ui.problemIndex]? = some (id, p) ∧
      Fixes.fixes k order sandboxOf x'.ui.config.apis p = some fs ∧ fs ≠ []

/-- **C186.** Every problem about places in the source has an automatic edit, whatever the configuration. -/
theorem C186_places_have_edits (k : Nat) (order : List (List Str) → List (List Str)) (sandboxOf : Str → Sandbox)
    (apis : AMap ApiMap.Api ApiCfg) (p : Problem) (hp : AtPlaces p) :
    ∃ fs, Fixes.fixes k order sandboxOf apis p = some fs ∧ fs ≠ [] := by
  cases p <;> first | exact hp.elim | skip
  · exact ⟨_, rfl, by simp⟩
  · exact ⟨_, rfl, by simp⟩
  · rename_i u
    simp only [Fixes.fixes, Fixes.allowFixes_eq, Option.map_some]
    refine ⟨_, rfl, ?_⟩
    cases h : u.scope <;> simp [Perm.chain]
  · rename_i u r
    simp only [Fixes.fixes, Fixes.allowFixes_eq, Option.map_some]
    refine ⟨_, rfl, ?_⟩
    cases h : u.scope <;> simp [Perm.chain]

/-- **C186 (partial).** It holds as long as the user has not confirmed auto-accept. Missing: afterwards another problem can become
the selected one while places are listed, see `C186_refuted`. -/
theorem C186_partial {F : Type} [DecidableEq F] (t : Fixes.Texts F) (bwrap : Bool) (k : Nat)
    (order : List (List Str) → List (List Str)) (sandboxOf : Str → Sandbox) (x : Sys F Raw) (tr : List (Sys F Raw × Act F Raw))
    (h : Exec (Fixes.env t bwrap k order sandboxOf) x tr) (hc : ¬ Confirmed tr) (hl : Listening x)
    (hm : x.ui.modes.head? = some .selectProblem ∨ x.ui.modes.head? = some .selectUsage)
    (w : Bool) (x' : Sys F Raw) (ha : act (Fixes.env t bwrap k order sandboxOf) x (.iter w (.key (.char 'f'))) = some x') :
    x'.error = true ∨ x'.ui.modes.head? = some .selectEdit ∧ ∃ id p fs, (live x'.ui.store)[x'.ui.problemIndex]? = some (id, p) ∧
      Fixes.fixes k order sandboxOf x'.ui.config.apis p = some fs ∧ fs ≠ [] := by
  have hq := exec_places (Fixes.env_sane t bwrap k order sandboxOf) h hc
  rcases hm with hm | hm
  · have hk := key_act hl hm ha
    obtain ⟨ms, hms⟩ := head_cons hm
    rw [handleKey, hms] at hk
    simp only [if_false, Key.char.injEq, show ('f' = 'q') = False by decide] at hk
    split at hk
    · exact Or.inl (Prod.mk.inj (Option.some.inj hk)).2.symm
    · next hne =>
      have h1 := (Prod.mk.inj (Option.some.inj hk)).1
      refine Or.inr ?_
      rw [← h1]
      refine ⟨rfl, ?_⟩
      show ∃ id p fs, (live x.ui.store)[x.ui.problemIndex]? = some (id, p) ∧
        Fixes.fixes k order sandboxOf x.ui.config.apis p = some fs ∧ fs ≠ []
      unfold State.edits State.selected at hne
      split at hne
      · exact absurd rfl hne
      · next id p hsel =>
        refine ⟨id, p, ?_⟩
        cases hf : Fixes.fixes k order sandboxOf x.ui.config.apis p with
        | none => exact absurd (by simp [Fixes.env, hf]) hne
        | some fs => exact ⟨fs, hsel, rfl, fun h0 => hne (by simp [Fixes.env, hf, h0])⟩
  · have hk := key_act hl hm ha
    obtain ⟨ms, hms⟩ := head_cons hm
    obtain ⟨id, p, hsel, hp⟩ := hq (by rw [hms]; exact List.mem_cons_self)
    rw [handleKey, hms] at hk
    simp only [if_false, Key.char.injEq, show ('f' = 'q') = False by decide] at hk
    have h1 := (Prod.mk.inj (Option.some.inj hk)).1
    refine Or.inr ?_
    rw [← h1]
    obtain ⟨fs, h2, h3⟩ := C186_places_have_edits k order sandboxOf x.ui.config.apis p hp
    exact ⟨rfl, id, p, fs, hsel, h2, h3⟩

/-! ### The disagreement -/

namespace OfferedEx

/-- Files are either empty or not TOML. -/
def texts : Fixes.Texts Bool := ⟨fun b => if b then some [] else none, true, fun _ => true, fun _ _ => false, fun _ s => s, fun _ _ => none⟩

abbrev realEnv : Env Bool Toml.Entries Raw := Fixes.env texts true 0 id (fun _ => {})

/-- One edit, several edits, and no edit. -/
def usesUnsafe : Problem := .disallowedUnsafe ⟨⟨str! "a", str! "1.0.0", true⟩, .primary⟩ [⟨str! "a.rs", 1, none⟩]
def loc : SourceLoc := ⟨str! "b.rs", 1, none⟩
def callsFs : Problem := .disallowedApiUsage ⟨⟨str! "b", str! "1.0.0", true⟩, .build, str! "fs",
  [⟨0, 0, [], .build, loc, none, .symbol [], .symbol [], [], .symbol []⟩]⟩
def note : Problem := .message (str! "text")

def key (k : Key) : Act Bool Raw := .iter true (.key k)
def start0 : Sys Bool Raw := { ui := { file := some false, config := {} } }

/-- The user confirms auto-accept while the config file is not TOML, looks at the places of the second problem, and corrects the
file; then another problem is reported. -/
def acts : List (Act Bool Raw) :=
  [.report [usesUnsafe, callsFs, note], .iter true .added, key (.char 'a'), key .enter, key .enter, key .esc, key .down,
    key (.char 'd'), .touch (some true), .report [note], .iter true .added]

/-- What is on the screen: the topmost mode, whether the loop listens, and the selected problem. -/
def look (x : Sys Bool Raw) : Option Mode × Bool × Bool × Bool × Option Problem :=
  (x.ui.modes.head?, x.started, x.ended, x.error, (live x.ui.store)[x.ui.problemIndex]?.map Prod.snd)

end OfferedEx

open OfferedEx in
/-- **C186, disagreement.** After `f` in the list of places the list of edits is open, it is empty, and no error is shown. -/
theorem C186_empty_list :
    (runActs realEnv start0 acts).map look = some (some .selectUsage, true, false, false, some note) ∧
    (runActs realEnv start0 (acts ++ [key (.char 'f')])).map look = some (some .selectEdit, true, false, false, some note) ∧
    ∀ (k : Nat) (order : List (List Str) → List (List Str)) (sandboxOf : Str → Sandbox) (apis : AMap ApiMap.Api ApiCfg),
      Fixes.fixes k order sandboxOf apis note = some [] :=
  ⟨by decide, by decide, fun _ _ _ _ => rfl⟩

open OfferedEx in
/-- **C186 is false.** -/
theorem C186_refuted : ¬ C186_Claim := by
  intro h
  obtain ⟨h1, _, h3⟩ := C186_empty_list
  obtain ⟨x, hx, h4⟩ := Option.map_eq_some_iff.mp h1
  obtain ⟨tr, he⟩ := exec_runActs (env := realEnv) (.init (some false) ({} : Raw)) hx
  simp only [look, Prod.mk.injEq] at h4
  have h2 : ((runActs realEnv start0 acts).bind (fun x => act realEnv x (key (.char 'f')))).map look =
      some (some .selectEdit, true, false, false, some note) := by decide
  rw [hx, Option.bind_some] at h2
  obtain ⟨x', hx', h5⟩ := Option.map_eq_some_iff.mp h2
  simp only [look, Prod.mk.injEq] at h5
  rcases h Bool texts true 0 id (fun _ => {}) x tr he ⟨h4.2.1, h4.2.2.1, h4.2.2.2.1⟩ (Or.inr h4.1) true x' hx' with
    h6 | ⟨_, id, p, fs, h6, h7, h8⟩
  · rw [h5.2.2.2.1] at h6; cases h6
  · rw [h6] at h5
    have hp : p = note := Option.some.inj h5.2.2.2.2
    rw [hp, h3] at h7
    exact h8 (Option.some.inj h7).symm

/-! A concrete case of the partial theorem: without auto-accept, from the places of the second problem to its edits. -/

open OfferedEx in
example : (runActs realEnv start0 [.report [usesUnsafe, callsFs, note], .iter true .added, key .down, key (.char 'd'),
    key (.char 'f')]).map look = some (some .selectEdit, true, false, false, some callsFs) := by decide

open OfferedEx in
/-- In the list of problems, `f` on a problem without an edit is an error. -/
example : (runActs realEnv start0 [.report [note], .iter true .added, key (.char 'f')]).map look =
    some (some .selectProblem, true, false, true, some note) := by decide

end Cackle.Ui
