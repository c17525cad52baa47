import Verif.Model.Links

/-!
# C176: saving the config file changes that file and no other
-/

namespace Cackle.Links
open Cackle Fs

/-- The numbers of new files are new. -/
def Ok (s : State) : Prop := ∀ p i, s.names p = some (.file i) → i < s.next

/-- What one expects of saving: the file has the new contents and is as accessible as before, by whichever name it is
opened, and nothing else is different. -/
structure Saved (s s' : State) (path : PathC) (text : Str) : Prop where
  contents : ∃ f, read s' path = some f ∧ f.contents = text
  mode : ∀ f f', read s path = some f → read s' path = some f' → f'.mode = f.mode
  names : ∀ q, (∃ i, ino s q = some i ∧ ino s path = some i) ∨ resolve s q = resolve s path → read s' q = read s' path
  others : ∀ q, ¬ ((∃ i, ino s q = some i ∧ ino s path = some i) ∨ resolve s q = resolve s path) → read s' q = read s q

/-- The English claim C176: whenever a file is saved, that file is changed and no other. -/
def C176_Claim : Prop :=
  ∀ (mode : Nat) (s s' : State) (path : PathC) (text : Str),
    Ok s → (resolve s path).isSome → save mode s path text = some s' → Saved s s' path text

/-- A name that is not a link leads to itself. -/
theorem resolve_self {s : State} {p : PathC} (h : ∀ t, s.names p ≠ some (.link t)) : resolve s p = some p := by
  unfold resolve follow
  split
  · rename_i t ht
    exact absurd ht (h t)
  · rfl

/-- Where a link leads is not a link. -/
theorem follow_end : ∀ {n : Nat} {s : State} {p q : PathC}, follow n s p = some q → ∀ t, s.names q ≠ some (.link t)
  | 0, _, _, _, h, _ => by cases h
  | n + 1, s, p, q, h, t => by
    unfold follow at h
    split at h
    · exact follow_end h t
    · rename_i hn
      cases h
      exact fun e => hn t e

/-- Links lead to the same place if the same names are links to the same targets. -/
theorem follow_congr {s s' : State} (h : ∀ p t, s.names p = some (.link t) ↔ s'.names p = some (.link t)) :
    ∀ n p, follow n s p = follow n s' p
  | 0, _ => rfl
  | n + 1, p => by
    unfold follow
    cases hp : s.names p with
    | none =>
      cases hp' : s'.names p with
      | none => rfl
      | some e =>
        cases e with
        | file i => rfl
        | link t => exact absurd ((h p t).mpr hp') (by rw [hp]; simp)
    | some e =>
      cases e with
      | link t =>
        rw [(h p t).mp hp]
        exact follow_congr h n t
      | file i =>
        cases hp' : s'.names p with
        | none => rfl
        | some e =>
          cases e with
          | file j => rfl
          | link t => exact absurd ((h p t).mpr hp') (by rw [hp]; simp)

/-- The state after saving if the temporary name is not in use. -/
theorem save_fresh {mode : Nat} {s s' : State} {path : PathC} {text : Str} (ok : Ok s)
    (hne : withExtension path (str! "tmp") ≠ path) (hfree : s.names (withExtension path (str! "tmp")) = none)
    (h : save mode s path text = some s') :
    s' = { names := fun q => if q = path then some (.file s.next) else s.names q
           inodes := fun j => if j = s.next then ⟨text, mode⟩ else s.inodes j
           next := s.next + 1 } := by
  unfold save write at h
  rw [resolve_self (by rw [hfree]; simp)] at h
  simp only [Option.map_some, hfree, Option.bind_some] at h
  unfold rename at h
  simp only [if_true, if_neg hne, if_neg (Ne.symm hne)] at h
  split at h
  · rename_i hc
    have := ok _ _ hc.2
    omega
  · simp only [Option.some.injEq] at h
    rw [← h]
    congr 1
    funext q
    by_cases h1 : q = path
    · simp [h1]
    · by_cases h2 : q = withExtension path (str! "tmp")
      · simp [h1, h2, hfree]
      · simp [h1, h2]

/-- **C176, partial.** If the config file is not a link and has no further hard links, if it has the mode of new files
(or does not exist yet), and if nothing has the name of the temporary file, then saving changes that file and no other.
What is missing is shown to be false below. -/
theorem C176_partial (mode : Nat) (s s' : State) (path : PathC) (text : Str) (ok : Ok s)
    (hne : withExtension path (str! "tmp") ≠ path) (hfree : s.names (withExtension path (str! "tmp")) = none)
    (hplain : ∀ t, s.names path ≠ some (.link t))
    (hone : ∀ q i, s.names q = some (.file i) → s.names path = some (.file i) → q = path)
    (hmode : ∀ i, s.names path = some (.file i) → (s.inodes i).mode = mode)
    (h : save mode s path text = some s') : Saved s s' path text := by
  have hs := save_fresh ok hne hfree h
  have hlinks : ∀ p t, s.names p = some (.link t) ↔ s'.names p = some (.link t) := by
    intro p t
    rw [hs]
    by_cases hp : p = path
    · simp [hp, hplain t]
    · simp [hp]
  have hres : ∀ q, resolve s' q = resolve s q := fun q => (follow_congr hlinks 41 q).symm
  have hself : resolve s path = some path := resolve_self hplain
  have hino : ino s' path = some s.next := by
    unfold ino
    rw [hres, hself, hs]
    simp
  have hread : read s' path = some ⟨text, mode⟩ := by
    unfold read
    rw [hino, hs]
    simp
  -- who opens the file by another name goes through a link to `path`
  have hsame : ∀ q, (∃ i, ino s q = some i ∧ ino s path = some i) ∨ resolve s q = resolve s path →
      resolve s q = some path := by
    rintro q (⟨i, hq, hp⟩ | hq)
    · unfold ino at hq hp
      rw [hself] at hp
      cases hr : resolve s q with
      | none => simp [hr] at hq
      | some r =>
        rw [hr] at hq
        simp only [Option.bind_some] at hq hp
        have h1 : s.names r = some (.file i) := by
          split at hq
          · rename_i j hj; cases hq; exact hj
          · cases hq
        have h2 : s.names path = some (.file i) := by
          split at hp
          · rename_i j hj; cases hp; exact hj
          · cases hp
        rw [hone r i h1 h2]
    · rw [hq, hself]
  refine ⟨⟨_, hread, rfl⟩, ?_, ?_, ?_⟩
  · intro f f' hf hf'
    rw [hread] at hf'
    cases hf'
    unfold read ino at hf
    rw [hself] at hf
    simp only [Option.bind_some] at hf
    split at hf
    · rename_i i hi
      simp only [Option.map_some, Option.some.injEq] at hf
      rw [← hf, hmode i hi]
    · cases hf
  · intro q hq
    have hr := hsame q hq
    unfold read ino
    rw [hres, hres, hr, hself]
  · intro q hq
    have hr : resolve s q ≠ some path := fun e => hq (Or.inr (by rw [e, hself]))
    unfold read ino
    rw [hres]
    cases hr' : resolve s q with
    | none => rfl
    | some r =>
      have hrp : r ≠ path := by rintro rfl; exact hr hr'
      have hn : s'.names r = s.names r := by rw [hs]; simp [hrp]
      simp only [Option.bind_some, hn]
      split
      · rename_i i hi
        have := ok r i hi
        rw [hs]
        simp [Nat.ne_of_lt this]
      · rfl

/-- **C176, a config file with the extension `tmp`.** It is written in place, which changes that file and no other,
whatever the names are (but not atomically, see C26). -/
theorem C176_in_place (mode : Nat) (s s' : State) (path : PathC) (text : Str) (ok : Ok s)
    (hsame : withExtension path (str! "tmp") = path) (h : save mode s path text = some s') : Saved s s' path text := by
  unfold save at h
  rw [hsame] at h
  unfold write at h
  cases hr : resolve s path with
  | none => simp [hr] at h
  | some p =>
    rw [hr] at h
    simp only [Option.map_some, Option.bind_some] at h
    have hend : ∀ t, s.names p ≠ some (.link t) := follow_end hr
    -- renaming a name to itself does nothing
    have hren : ∀ u : State, rename u path path = some s' → u = s' := by
      intro u hu
      unfold rename at hu
      split at hu
      · cases hu
      · simpa using hu
    have hs := hren _ h
    cases hn : s.names p with
    | none =>
      simp only [hn] at hs
      have hlinks : ∀ q t, s.names q = some (.link t) ↔ s'.names q = some (.link t) := by
        intro q t
        rw [← hs]
        by_cases hq : q = p
        · simp [hq, hn]
        · simp [hq]
      have hres : ∀ q, resolve s' q = resolve s q := fun q => (follow_congr hlinks 41 q).symm
      have hnone : ino s path = none := by unfold ino; rw [hr]; simp [hn]
      have hino : ∀ q, resolve s q = some p → read s' q = some ⟨text, mode⟩ := by
        intro q hq
        unfold read ino
        rw [hres, hq, ← hs]
        simp
      refine ⟨⟨_, hino path hr, rfl⟩, ?_, ?_, ?_⟩
      · intro f f' hf
        unfold read at hf
        rw [hnone] at hf
        cases hf
      · rintro q (⟨i, _, hp⟩ | hq)
        · rw [hnone] at hp; cases hp
        · rw [hino q (by rw [hq, hr]), hino path hr]
      · intro q hq
        have hq' : resolve s q ≠ some p := fun e => hq (Or.inr (by rw [e, hr]))
        unfold read ino
        rw [hres]
        cases hr' : resolve s q with
        | none => rfl
        | some r =>
          have hrp : r ≠ p := by rintro rfl; exact hq' hr'
          have hn' : s'.names r = s.names r := by rw [← hs]; simp [hrp]
          simp only [Option.bind_some, hn']
          split
          · rename_i i hi
            have := ok r i hi
            rw [← hs]
            simp [Nat.ne_of_lt this]
          · rfl
    | some e =>
      cases e with
      | link t => exact absurd hn (hend t)
      | file i =>
        simp only [hn] at hs
        have hnames : s'.names = s.names := by rw [← hs]
        have hres : ∀ q, resolve s' q = resolve s q := fun q =>
          (follow_congr (s := s) (s' := s') (fun _ _ => by rw [hnames]) 41 q).symm
        have hinoAll : ∀ q, ino s' q = ino s q := by intro q; unfold ino; rw [hres, hnames]
        have hpath : ino s path = some i := by unfold ino; rw [hr]; simp [hn]
        have hread : ∀ q, ino s q = some i → read s' q = some { s.inodes i with contents := text } := by
          intro q hq
          unfold read
          rw [hinoAll, hq, ← hs]
          simp
        refine ⟨⟨_, hread path hpath, rfl⟩, ?_, ?_, ?_⟩
        · intro f f' hf hf'
          rw [hread path hpath] at hf'
          unfold read at hf
          rw [hpath] at hf
          cases hf
          cases hf'
          rfl
        · rintro q (⟨j, hq, hp⟩ | hq)
          · rw [hpath] at hp
            cases hp
            rw [hread q hq, hread path hpath]
          · have : ino s q = some i := by unfold ino; rw [hq, hr]; simp [hn]
            rw [hread q this, hread path hpath]
        · intro q hq
          unfold read
          rw [hinoAll]
          cases hj : ino s q with
          | none => rfl
          | some j =>
            have : j ≠ i := by rintro rfl; exact hq (Or.inl ⟨j, hj, hpath⟩)
            rw [← hs]
            simp [this]

/-- **C176, disagreement: a link.** If the config file is a symbolic link then the link is replaced by a file, and the file
that it leads to is not changed. -/
theorem C176_link (mode : Nat) (s s' : State) (path target : PathC) (text : Str) (ok : Ok s)
    (hne : withExtension path (str! "tmp") ≠ path) (hfree : s.names (withExtension path (str! "tmp")) = none)
    {i : Nat} (hlink : s.names path = some (.link target)) (htarget : s.names target = some (.file i))
    (h : save mode s path text = some s') :
    read s target = some (s.inodes i) ∧ read s' target = some (s.inodes i) ∧ read s' path = some ⟨text, mode⟩ := by
  have hs := save_fresh ok hne hfree h
  have htp : target ≠ path := by rintro rfl; rw [hlink] at htarget; cases htarget
  have h1 : resolve s target = some target := resolve_self (by rw [htarget]; simp)
  have h2 : resolve s' target = some target := resolve_self (by rw [hs]; simp [htp, htarget])
  have h3 : resolve s' path = some path := resolve_self (by rw [hs]; simp)
  have hi := ok _ _ htarget
  refine ⟨?_, ?_, ?_⟩
  · unfold read ino; rw [h1]; simp [htarget]
  · unfold read ino; rw [h2, hs]; simp [htp, htarget, Nat.ne_of_lt hi]
  · unfold read ino; rw [h3, hs]; simp

/-- **C176, disagreement: a hard link.** Another name of the same file still has the old contents. -/
theorem C176_hard_link (mode : Nat) (s s' : State) (path q : PathC) (text : Str) (ok : Ok s)
    (hne : withExtension path (str! "tmp") ≠ path) (hfree : s.names (withExtension path (str! "tmp")) = none)
    {i : Nat} (hpath : s.names path = some (.file i)) (hq : s.names q = some (.file i)) (hqp : q ≠ path)
    (h : save mode s path text = some s') :
    read s path = read s q ∧ read s' path = some ⟨text, mode⟩ ∧ read s' q = some (s.inodes i) := by
  have hs := save_fresh ok hne hfree h
  have h1 : resolve s path = some path := resolve_self (by rw [hpath]; simp)
  have h2 : resolve s q = some q := resolve_self (by rw [hq]; simp)
  have h3 : resolve s' path = some path := resolve_self (by rw [hs]; simp)
  have h4 : resolve s' q = some q := resolve_self (by rw [hs]; simp [hqp, hq])
  have hi := ok _ _ hq
  refine ⟨?_, ?_, ?_⟩
  · unfold read ino; rw [h1, h2]; simp [hpath, hq]
  · unfold read ino; rw [h3, hs]; simp
  · unfold read ino; rw [h4, hs]; simp [hqp, hq, Nat.ne_of_lt hi]

/-- **C176, disagreement: the mode.** The config file has the mode of new files afterwards, whatever it was. -/
theorem C176_mode (mode : Nat) (s s' : State) (path : PathC) (text : Str) (ok : Ok s)
    (hne : withExtension path (str! "tmp") ≠ path) (hfree : s.names (withExtension path (str! "tmp")) = none)
    (h : save mode s path text = some s') : read s' path = some ⟨text, mode⟩ := by
  have hs := save_fresh ok hne hfree h
  have h3 : resolve s' path = some path := resolve_self (by rw [hs]; simp)
  unfold read ino; rw [h3, hs]; simp

/-- **C176, disagreement: a file with the name of the temporary file.** It is gone afterwards. -/
theorem C176_lost (mode : Nat) (s s' : State) (path : PathC) (text : Str) {i : Nat}
    (hne : withExtension path (str! "tmp") ≠ path) (hfile : s.names (withExtension path (str! "tmp")) = some (.file i))
    (hother : s.names path ≠ some (.file i)) (h : save mode s path text = some s') :
    read s (withExtension path (str! "tmp")) = some (s.inodes i) ∧ read s' (withExtension path (str! "tmp")) = none := by
  have h1 : resolve s (withExtension path (str! "tmp")) = some (withExtension path (str! "tmp")) :=
    resolve_self (by rw [hfile]; simp)
  unfold save write at h
  rw [h1] at h
  simp only [Option.map_some, hfile, Option.bind_some] at h
  unfold rename at h
  simp only [hfile, if_neg hne] at h
  split at h
  · rename_i hc
    exact absurd hc.2 hother
  · simp only [Option.some.injEq] at h
    constructor
    · unfold read ino; rw [h1]; simp [hfile]
    · have hn : s'.names (withExtension path (str! "tmp")) = none := by rw [← h]; simp [hne]
      have h2 : resolve s' (withExtension path (str! "tmp")) = some (withExtension path (str! "tmp")) :=
        resolve_self (by rw [hn]; simp)
      unfold read ino
      rw [h2]
      simp [hn]

/-- **C176, disagreement: a link with the name of the temporary file.** The file that it leads to gets the contents, and the
config file becomes a link to it. -/
theorem C176_through (mode : Nat) (s s' : State) (path other : PathC) (text : Str) {i : Nat}
    (hne : withExtension path (str! "tmp") ≠ path) (hop : other ≠ path)
    (hlink : s.names (withExtension path (str! "tmp")) = some (.link other)) (hother : s.names other = some (.file i))
    (h : save mode s path text = some s') :
    read s' other = some { s.inodes i with contents := text } ∧ s'.names path = some (.link other) := by
  have hot : other ≠ withExtension path (str! "tmp") := by rintro rfl; rw [hlink] at hother; cases hother
  have h1 : resolve s (withExtension path (str! "tmp")) = some other := by
    unfold resolve
    rw [follow.eq_def]
    simp only [hlink]
    rw [follow.eq_def]
    simp only [hother]
  unfold save write at h
  rw [h1] at h
  simp only [Option.map_some, hother, Option.bind_some] at h
  unfold rename at h
  simp only [hlink, if_neg hne] at h
  split at h
  · rename_i hc
    exact absurd hc.1 (by simp [Entry.isFile])
  · simp only [Option.some.injEq] at h
    have hn : s'.names other = some (.file i) := by rw [← h]; simp [hop, hot, hother]
    have h2 : resolve s' other = some other := resolve_self (by rw [hn]; simp)
    constructor
    · unfold read ino
      rw [h2]
      simp only [Option.bind_some, hn, Option.map_some]
      rw [← h]
      simp
    · rw [← h]; simp

/-- A project whose `cackle.toml` is a link to a file that is shared with other projects. -/
def exShared : State where
  names p :=
    if p = pathOf (str! "/w/cackle.toml") then some (.link (pathOf (str! "/shared/cackle.toml")))
    else if p = pathOf (str! "/shared/cackle.toml") then some (.file 0)
    else none
  inodes _ := ⟨str! "old", 420⟩
  next := 1

theorem exShared_ok : Ok exShared := by
  intro p i h
  unfold exShared at h
  simp only at h
  split at h
  · cases h
  · split at h
    · cases h; decide
    · cases h

theorem exShared_tmp : withExtension (pathOf (str! "/w/cackle.toml")) (str! "tmp") = pathOf (str! "/w/cackle.tmp") := by decide

theorem exShared_saves : ∃ s', save 420 exShared (pathOf (str! "/w/cackle.toml")) (str! "new") = some s' := by
  unfold save write
  have hn : exShared.names (pathOf (str! "/w/cackle.tmp")) = none := by decide
  rw [exShared_tmp, resolve_self (s := exShared) (p := pathOf (str! "/w/cackle.tmp")) (by rw [hn]; simp)]
  simp only [Option.map_some, hn, Option.bind_some]
  unfold rename
  simp only [if_true]
  split
  · exact ⟨_, rfl⟩
  · split
    · exact ⟨_, rfl⟩
    · exact ⟨_, rfl⟩

/-- **C176, disagreement.** -/
theorem C176_refuted : ¬ C176_Claim := by
  intro hc
  obtain ⟨s', h⟩ := exShared_saves
  have hl := C176_link 420 exShared s' (pathOf (str! "/w/cackle.toml")) (pathOf (str! "/shared/cackle.toml")) (str! "new") (i := 0)
    exShared_ok (by decide) (by decide) (by decide) (by decide) h
  have hsaved := hc 420 exShared s' (pathOf (str! "/w/cackle.toml")) (str! "new") exShared_ok (by decide) h
  have hn := hsaved.names (pathOf (str! "/shared/cackle.toml")) (Or.inr (by decide))
  rw [hl.2.1, hl.2.2] at hn
  revert hn
  decide

/-! ## Instances -/

/-- A project with an ordinary `cackle.toml`. -/
def exPlain : State where
  names p :=
    if p = pathOf (str! "/w/cackle.toml") then some (.file 0)
    else if p = pathOf (str! "/w/src/lib.rs") then some (.file 1)
    else none
  inodes _ := ⟨str! "old", 420⟩
  next := 2

theorem exPlain_cases {p : PathC} {i : Nat} (h : exPlain.names p = some (.file i)) :
    (p = pathOf (str! "/w/cackle.toml") ∧ i = 0) ∨ (p = pathOf (str! "/w/src/lib.rs") ∧ i = 1) := by
  unfold exPlain at h
  simp only at h
  split at h
  · rename_i hp; cases h; exact Or.inl ⟨hp, rfl⟩
  · split at h
    · rename_i hp; cases h; exact Or.inr ⟨hp, rfl⟩
    · cases h

/-- `C176_partial` applies to it. -/
example : ∃ s', save 420 exPlain (pathOf (str! "/w/cackle.toml")) (str! "new") = some s' ∧
    Saved exPlain s' (pathOf (str! "/w/cackle.toml")) (str! "new") := by
  have ht : withExtension (pathOf (str! "/w/cackle.toml")) (str! "tmp") = pathOf (str! "/w/cackle.tmp") := by decide
  have hn : exPlain.names (pathOf (str! "/w/cackle.tmp")) = none := by decide
  have hp : exPlain.names (pathOf (str! "/w/cackle.toml")) = some (.file 0) := by decide
  have hs : ∃ s', save 420 exPlain (pathOf (str! "/w/cackle.toml")) (str! "new") = some s' := by
    unfold save write
    rw [ht, resolve_self (s := exPlain) (p := pathOf (str! "/w/cackle.tmp")) (by rw [hn]; simp)]
    simp only [Option.map_some, hn, Option.bind_some]
    unfold rename
    simp only [if_true]
    split
    · exact ⟨_, rfl⟩
    · split
      · exact ⟨_, rfl⟩
      · exact ⟨_, rfl⟩
  obtain ⟨s', h⟩ := hs
  refine ⟨s', h, C176_partial 420 exPlain s' _ _ ?_ (by decide) (by rw [ht]; exact hn) (by rw [hp]; simp) ?_ (fun _ _ => rfl) h⟩
  · intro p i hi
    rcases exPlain_cases hi with h | h
    · rw [h.2]; decide
    · rw [h.2]; decide
  · intro q i h1 h2
    rw [hp] at h2
    cases h2
    rcases exPlain_cases h1 with h | h
    · exact h.1
    · exact absurd h.2 (by decide)

/-- A project with two names of its `cackle.toml` (`C176_hard_link`), and with a file or a link that is called `cackle.tmp`
(`C176_lost`, `C176_through`). -/
def exNames (tmp : Option Entry) : State where
  names p :=
    if p = pathOf (str! "/w/cackle.toml") then some (.file 0)
    else if p = pathOf (str! "/w/copy.toml") then some (.file 0)
    else if p = pathOf (str! "/w/notes.txt") then some (.file 1)
    else if p = pathOf (str! "/w/cackle.tmp") then tmp
    else none
  inodes i := if i = 0 then ⟨str! "old", 384⟩ else ⟨str! "notes", 420⟩
  next := 2

example : (exNames none).names (pathOf (str! "/w/cackle.toml")) = (exNames none).names (pathOf (str! "/w/copy.toml")) ∧
    (save 420 (exNames none) (pathOf (str! "/w/cackle.toml")) (str! "new")).isSome := by decide

example : (save 420 (exNames (some (.file 1))) (pathOf (str! "/w/cackle.toml")) (str! "new")).isSome ∧
    (save 420 (exNames (some (.link (pathOf (str! "/w/notes.txt"))))) (pathOf (str! "/w/cackle.toml")) (str! "new")).isSome := by
  decide

/-- The notes are overwritten by the config file. -/
example : ((save 420 (exNames (some (.link (pathOf (str! "/w/notes.txt"))))) (pathOf (str! "/w/cackle.toml")) (str! "new")).bind
    (fun s => read s (pathOf (str! "/w/notes.txt")))) = some ⟨str! "new", 420⟩ := by decide

/-- The config file could be read by its owner only; afterwards everybody can read it. -/
example : read (exNames none) (pathOf (str! "/w/cackle.toml")) = some ⟨str! "old", 384⟩ ∧
    ((save 420 (exNames none) (pathOf (str! "/w/cackle.toml")) (str! "new")).bind
      (fun s => read s (pathOf (str! "/w/cackle.toml")))) = some ⟨str! "new", 420⟩ := by decide

/-- `cackle.tmp` is the name of the temporary file of `cackle.toml`, and a config file `c.tmp` is its own. -/
example : withExtension (pathOf (str! "/w/c.tmp")) (str! "tmp") = pathOf (str! "/w/c.tmp") := by decide

end Cackle.Links
