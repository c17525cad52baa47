import Verif.Model.Fixes
import Verif.Props.CommonPrefix
import Verif.Props.ProblemsUi

/-!
# Lemmas about all offered edits
-/

namespace Cackle.Fixes
open Cackle Config Perm Toml
open Cackle.ApiMap (Api)
open Cackle.Editor (Edit load Reach withTable setValue)

theorem withTable_reach {f : Entries → Option Entries} : ∀ {ps : List Str} {es es' : Entries},
    withTable f ps es = some es' → Reach ps es
  | [], _, _, _ => trivial
  | _ :: _, _, _, h => by
    obtain ⟨sub, sub', h1, h2, _⟩ := Editor.withTable_cons h
    exact ⟨sub, h1, withTable_reach h2⟩

theorem reach_append : ∀ {ps qs : List Str} {es : Entries}, Reach (ps ++ qs) es → Reach ps es
  | [], _, _, _ => trivial
  | _ :: _, _, _, ⟨sub, h1, h2⟩ => ⟨sub, h1, reach_append h2⟩

/-- What loading does with the version and the sandbox. -/
theorem parseRaw_version {b : AMap Api ApiCfg} {r r1 : Raw} (h : parseRaw b r = some r1) :
    r1.common.version = r.common.version := by
  unfold parseRaw at h
  simp only [Option.bind_eq_bind, Option.pure_def, Option.bind_eq_some_iff, Option.some.injEq] at h
  obtain ⟨c, hc, rfl⟩ := h
  have h1 : c.common.version = r.common.version := by
    unfold mergeBuiltIns at hc
    simp only [Option.bind_eq_bind, Option.pure_def, Option.bind_eq_some_iff, Option.some.injEq] at hc
    obtain ⟨a, _, rfl⟩ := hc
    rfl
  show (applyRuntimePatches c).common.version = _
  rw [← h1]
  unfold applyRuntimePatches
  have key : ∀ (fs : List (Raw → Raw)), (∀ f ∈ fs, f = id ∨ f = patch2) → ∀ r : Raw,
      (fs.foldl (fun c f => f c) r).common = r.common := by
    intro fs
    induction fs with
    | nil => intro _ r; rfl
    | cons f fs ih =>
      intro hf r
      have ih := ih (fun g hg => hf g (by simp [hg]))
      simp only [List.foldl_cons]
      rw [ih]
      rcases hf f (by simp) with rfl | rfl
      · rfl
      · unfold patch2; split <;> rfl
  rw [key]
  intro f hf
  have := List.mem_of_mem_drop hf
  simp only [patches, List.mem_cons, List.not_mem_nil, or_false] at this
  rcases this with h | h | h | h <;> simp [h]

theorem load_iff {b : AMap Api ApiCfg} {n : Nat} {doc : Entries} {r : Raw} :
    load b n doc = some r ↔ ∃ r0, readDoc n doc = some r0 ∧ parseRaw b r0 = some r := by
  unfold load
  exact Option.bind_eq_some_iff

theorem readKind_name (k : SandboxKind) : readKind (.str (kindName k)) = some k := by cases k <;> rfl

theorem readDoc_setSandbox {bwrap : Bool} {k : SandboxKind} {n : Nat} {doc doc' : Entries} {r : Raw}
    (h : readDoc n doc = some r) (he : setSandboxKind bwrap k doc = some doc') :
    readDoc n doc' = some { r with sandbox := { r.sandbox with kind := some k } } := by
  unfold setSandboxKind at he
  split at he
  · cases he
  · obtain ⟨sb, sb', hsb, h1, rfl⟩ := Editor.withTable_cons he
    cases h1
    rw [Editor.readDoc_iff] at h ⊢
    obtain ⟨hk', g1, g2, g3, g4, g5⟩ := h
    have h2 := Editor.field_getD g4 rfl
    rw [hsb] at h2
    refine ⟨Editor.known_insert hk' (by decide), ?_, ?_, ?_, ?_, ?_⟩
    · rw [AMap.get?_insert, if_neg (by decide)]; exact g1
    · unfold mapField at g2 ⊢
      rw [Editor.field_insert_ne (by decide)]; exact g2
    · unfold mapField at g3 ⊢
      rw [Editor.field_insert_ne (by decide)]; exact g3
    · rw [Editor.field_insert_eq]
      rw [Editor.readSandbox_iff] at h2 ⊢
      obtain ⟨e0, h0, hk, h1, h2, h3, h4, h5, h6⟩ := h2
      cases h0
      unfold optField at *
      refine ⟨_, rfl, Editor.known_insert hk (by decide), by rw [Editor.field_insert_eq, readKind_name]; rfl,
        ?_, ?_, ?_, ?_, ?_⟩ <;>
        rw [Editor.field_insert_ne (by decide)] <;> assumption
    · rw [Editor.field_insert_ne (by decide)]; exact g5

theorem foldl_erase_length (vs : List Api) : ∀ l : List Api, (vs.foldl (fun l v => l.erase v) l).length ≤ l.length := by
  induction vs with
  | nil => exact fun l => Nat.le_refl _
  | cons v vs ih => exact fun l => Nat.le_trans (ih _) (List.erase_sublist.length_le)

theorem foldl_erase_self (vs : List Api) (l : List Api) (h : vs.foldl (fun l v => l.erase v) l = l) : ∀ v ∈ vs, v ∉ l := by
  induction vs with
  | nil => exact fun v hv => by cases hv
  | cons v vs ih =>
    have hv : v ∉ l := by
      intro hm
      have h1 := foldl_erase_length vs (l.erase v)
      have h2 := List.length_erase_of_mem hm
      have h3 := List.length_pos_of_mem hm
      rw [List.foldl_cons] at h
      rw [h] at h1
      omega
    rw [List.foldl_cons, List.erase_of_not_mem hv] at h
    intro w hw
    rcases List.mem_cons.mp hw with rfl | hw
    · exact hv
    · exact ih h w hw

/-! ## The edits of `Model/Editor.lean` -/

theorem allowFixes_eq (u : ApiUsages) :
    allowFixes u = some ((chain u.scope).map (fun s => .allowApi u.pkg s u.api)) := by
  have := Editor.parentScopes_eq u.scope
  unfold allowFixes
  cases h : Editor.parentScopes 3 u.scope with
  | none => rw [h] at this; cases this
  | some l =>
    rw [h] at this
    simp only [Option.map_some, Option.some.injEq] at this ⊢
    rw [this]

theorem pathFixes_edit (k : Nat) (order : List (List Str) → List (List Str)) (apis : AMap Api ApiCfg) (u : ApiUsages) :
    (pathFixes k order apis true u).filterMap Fix.edit = Prefix.includeFixes k order apis u ∧
      (pathFixes k order apis false u).filterMap Fix.edit = Prefix.excludeFixes k order apis u := by
  unfold pathFixes Prefix.includeFixes Prefix.excludeFixes
  constructor
  · cases apis.get? u.api with
    | none => rfl
    | some d =>
      cases Prefix.commonPrefixes k order true u.usages <;> try rfl
      simp only [if_true, List.filterMap_map]
      rw [← List.filterMap_eq_map]
      rfl
  · cases apis.get? u.api with
    | none => rfl
    | some d =>
      cases Prefix.commonPrefixes k order false u.usages <;> try rfl
      simp only [Bool.false_eq_true, if_false, List.filterMap_map]
      rw [← List.filterMap_eq_map]
      rfl

theorem mem_pathFixes {k : Nat} {order : List (List Str) → List (List Str)} {apis : AMap Api ApiCfg} {from_ : Bool}
    {u : ApiUsages} {f : Fix} (h : f ∈ pathFixes k order apis from_ u) :
    ∃ s, f = if from_ then .extendApi u.api s else .excludeFromApi u.api s := by
  unfold pathFixes at h
  split at h
  · cases from_ <;> simp only [Bool.false_eq_true, if_false, if_true, List.mem_map] at h ⊢ <;>
      obtain ⟨s, _, rfl⟩ := h <;> exact ⟨s, rfl⟩
  · cases h

end Cackle.Fixes
