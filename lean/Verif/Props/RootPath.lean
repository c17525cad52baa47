import Verif.Model.ConfigFile

/-!
# C142: which project and which config file a run is about

Directories are given by their components, innermost first.
-/

namespace Cackle.ConfigFile
open Cackle

/-- `dir` is `inner` or contains it. -/
def Contains (dir inner : List Str) : Prop := ∃ pre, inner = pre ++ dir

/-- `root` is the innermost directory with a `Cargo.toml` that contains `cwd`. -/
structure Innermost (hasManifest : List Str → Bool) (cwd root : List Str) : Prop where
  contains : Contains root cwd
  manifest : hasManifest root = true
  innermost : ∀ d, Contains d cwd → hasManifest d = true → Contains d root

theorem contains_refl (d : List Str) : Contains d d := ⟨[], rfl⟩

theorem contains_cons {d rest : List Str} {c : Str} (h : Contains d (c :: rest)) : d = c :: rest ∨ Contains d rest := by
  obtain ⟨pre, h⟩ := h
  cases pre with
  | nil => exact Or.inl h.symm
  | cons x pre => cases h; exact Or.inr ⟨pre, rfl⟩

theorem searchUp_spec (ex : List Str → Bool) : ∀ cwd,
    (∀ r, searchUp ex cwd = some r → Innermost ex cwd r) ∧
    (searchUp ex cwd = none → ∀ d, Contains d cwd → ex d = false)
  | [] => by
    unfold searchUp
    have nil : ∀ d : List Str, Contains d [] → d = [] := by
      rintro d ⟨pre, h⟩
      exact (List.append_eq_nil_iff.mp h.symm).2
    constructor
    · intro r h
      split at h
      · rename_i he
        cases h
        exact ⟨contains_refl _, he, fun d hd _ => hd⟩
      · cases h
    · intro h d hd
      rw [nil d hd]
      split at h
      · cases h
      · rename_i he; simpa using he
  | c :: rest => by
    obtain ⟨i1, i2⟩ := searchUp_spec ex rest
    unfold searchUp
    constructor
    · intro r h
      split at h
      · rename_i he
        cases h
        exact ⟨contains_refl _, he, fun d hd _ => hd⟩
      · rename_i he
        obtain ⟨⟨pre, h1⟩, h2, h3⟩ := i1 r h
        refine ⟨⟨c :: pre, by rw [h1]; rfl⟩, h2, fun d hd hm => ?_⟩
        rcases contains_cons hd with rfl | hd
        · exact absurd hm he
        · exact h3 d hd hm
    · intro h d hd
      split at h
      · cases h
      · rename_i he
        rcases contains_cons hd with rfl | hd
        · simpa using he
        · exact i2 h d hd

/-- **C142 (partial).** Without `--path` a run is about the innermost directory with a `Cargo.toml` that contains the
current directory, and fails exactly if there is none; the config file is the one in that directory unless another one is
named. Missing: the directory of the workspace, see `C142_member`. -/
theorem C142_partial (ex : List Str → Bool) (cwd : List Str) :
    (∀ r, rootPath none (some cwd) ex = some r ↔ Innermost ex cwd r) ∧
    (rootPath none (some cwd) ex = none ↔ ∀ d, Contains d cwd → ex d = false) ∧
    (∀ r, configPath none r = str! "cackle.toml" :: r) ∧
    (∀ r f, configPath (some f) r = f) ∧
    ∀ p, rootPath (some p) (some cwd) ex = some p := by
  have hs := searchUp_spec ex cwd
  have uniq : ∀ r r', Innermost ex cwd r → Innermost ex cwd r' → r = r' := by
    intro r r' h h'
    obtain ⟨p1, e1⟩ := h.innermost r' h'.contains h'.manifest
    obtain ⟨p2, e2⟩ := h'.innermost r h.contains h.manifest
    have l1 := congrArg List.length e1
    have l2 := congrArg List.length e2
    rw [List.length_append] at l1 l2
    have : p1 = [] := List.length_eq_zero_iff.mp (by omega)
    rw [this] at e1
    exact e1
  refine ⟨fun r => ⟨fun h => hs.1 r h, fun h => ?_⟩, ⟨fun h => hs.2 h, fun h => ?_⟩, fun _ => rfl, fun _ _ => rfl, fun _ => rfl⟩
  · show searchUp ex cwd = some r
    cases hc : searchUp ex cwd with
    | none =>
      have := hs.2 hc r h.contains
      rw [h.manifest] at this; cases this
    | some r' => rw [uniq r r' h (hs.1 r' hc)]
  · show searchUp ex cwd = none
    cases hc : searchUp ex cwd with
    | none => rfl
    | some r' =>
      have h1 := hs.1 r' hc
      have := h r' h1.contains
      rw [h1.manifest] at this; cases this

/-- A workspace: its root and the directories of its members, all with a `Cargo.toml`. -/
structure Workspace (ex : List Str → Bool) (root : List Str) (members : List (List Str)) : Prop where
  manifest : ex root = true
  members : ∀ m ∈ members, ex m = true ∧ Contains root m

/-- The claim (CONFIG.md): the config file is in the root of the workspace. Whoever runs cackle somewhere in a workspace
with a config file is subject to that file. -/
def C142_Claim : Prop :=
  ∀ (ex : List Str → Bool) (root : List Str) (members : List (List Str)) (cwd : List Str),
    Workspace ex root members → Contains root cwd → (∀ d, Contains d root → ex d = true → d = root) →
    (rootPath none (some cwd) ex).map (configPath none) = some (str! "cackle.toml" :: root)

/-- **C142, disagreement.** In the directory of any member other than the root another file is used. -/
theorem C142_member {ex : List Str → Bool} {root : List Str} {members : List (List Str)} (hw : Workspace ex root members)
    {m : List Str} (hm : m ∈ members) (hne : m ≠ root) :
    (rootPath none (some m) ex).map (configPath none) = some (str! "cackle.toml" :: m) ∧
    str! "cackle.toml" :: m ≠ str! "cackle.toml" :: root := by
  have : rootPath none (some m) ex = some m :=
    ((C142_partial ex m).1 m).mpr ⟨contains_refl m, (hw.members m hm).1, fun d hd _ => hd⟩
  rw [this]
  exact ⟨rfl, fun h => hne (List.cons.inj h).2⟩

/-- A workspace `/w` with the member `/w/m`. -/
def wManifests (d : List Str) : Bool := decide (d = [str! "w"] ∨ d = [str! "m", str! "w"])

theorem wWorkspace : Workspace wManifests [str! "w"] [[str! "m", str! "w"]] where
  manifest := by decide
  members := by
    intro m hm
    cases hm with
    | head => exact ⟨by decide, [str! "m"], rfl⟩
    | tail _ h => cases h

/-- **C142, disagreement.** -/
theorem C142_refuted : ¬ C142_Claim := by
  intro h
  have h1 := h wManifests [str! "w"] [[str! "m", str! "w"]] [str! "m", str! "w"] wWorkspace ⟨[str! "m"], rfl⟩ (by
    intro d hd he
    have hd' : d = [str! "w"] ∨ d = [str! "m", str! "w"] := of_decide_eq_true he
    rcases hd' with rfl | rfl
    · rfl
    · obtain ⟨pre, hp⟩ := hd
      have := congrArg List.length hp
      rw [List.length_append] at this
      simp only [List.length_cons, List.length_nil] at this
      omega)
  have h2 := C142_member wWorkspace (m := [str! "m", str! "w"]) (by decide) (by decide)
  rw [h2.1] at h1
  exact h2.2 (Option.some.inj h1)

/-- A directory below the member. -/
example : rootPath none (some [str! "src", str! "m", str! "w"]) wManifests = some [str! "m", str! "w"] := by decide

example : rootPath none (some [str! "x", str! "w"]) wManifests = some [str! "w"] := by decide

example : rootPath none (some [str! "tmp"]) wManifests = none := by decide

end Cackle.ConfigFile
