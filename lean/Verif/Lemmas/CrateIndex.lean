import Verif.Model.CrateIndex
import Verif.Lemmas.Editor

/-!
# Lemmas about the crate index
-/

namespace Cackle.CrateIndex
open Cackle Config Perm

/-- The packages with a directory, paired with it. -/
def located (pkgs : List MPkg) : List (MPkg × PathC) := pkgs.filterMap (fun p => p.dir.map (fun d => (p, d)))

theorem mem_located {pkgs : List MPkg} {p : MPkg} {d : PathC} : (p, d) ∈ located pkgs ↔ p ∈ pkgs ∧ p.dir = some d := by
  simp only [located, List.mem_filterMap, Option.map_eq_some_iff]
  constructor
  · rintro ⟨q, hq, d', hd, he⟩
    cases he
    exact ⟨hq, hd⟩
  · rintro ⟨hp, hd⟩
    exact ⟨p, hp, d, hd, rfl⟩

theorem located_cons (p : MPkg) (l : List MPkg) :
    located (p :: l) = (p.dir.map (fun d => (p, d))).toList ++ located l := by
  cases h : p.dir <;> simp [located, List.filterMap_cons, h]

/-- The loop, one field at a time. -/
theorem loop_selectors (all : List MPkg) : ∀ (l : List MPkg) (x : Idx),
    (l.foldl (addPkg all) x).selectors =
      x.selectors ++ (located l).map (fun e => ⟨e.1.name, hasBuildScript e.1, hasTest e.1⟩)
  | [], x => by simp [located]
  | p :: l, x => by
    rw [List.foldl_cons, loop_selectors all l, located_cons]
    cases h : p.dir <;> simp [addPkg, h]

theorem loop_infos (all : List MPkg) : ∀ (l : List MPkg) (x : Idx),
    (l.foldl (addPkg all) x).infos =
      (located l).foldl (fun m e => m.insert (pkgId all e.1) ⟨e.2, isProcMacro e.1⟩) x.infos
  | [], x => by simp [located]
  | p :: l, x => by
    rw [List.foldl_cons, loop_infos all l, located_cons]
    cases h : p.dir <;> simp [addPkg, h]

theorem loop_dirs (all : List MPkg) : ∀ (l : List MPkg) (x : Idx),
    (l.foldl (addPkg all) x).dirs = (located l).foldl (fun m e => m.insert e.2 (pkgId all e.1)) x.dirs
  | [], x => by simp [located]
  | p :: l, x => by
    rw [List.foldl_cons, loop_dirs all l, located_cons]
    cases h : p.dir <;> simp [addPkg, h]

theorem loop_byName (all : List MPkg) : ∀ (l : List MPkg) (x : Idx) (n : Str),
    ((l.foldl (addPkg all) x).byName.get? n).getD [] =
        (x.byName.get? n).getD [] ++ ((located l).filter (fun e => e.1.name = n)).map (fun e => pkgId all e.1)
  | [], x, n => by simp [located]
  | p :: l, x, n => by
    rw [List.foldl_cons, loop_byName all l, located_cons]
    cases h : p.dir with
    | none => simp [addPkg, h]
    | some d =>
      by_cases hn : p.name = n
      · subst hn; simp [addPkg, h]
      · simp [addPkg, h, hn]

/-- Inserting a list into a map: the last entry with a key wins. -/
theorem get_fold {A K V : Type} [DecidableEq K] (key : A → K) (val : A → V) : ∀ (l : List A) (m : AMap K V) (k : K),
    (l.foldl (fun m e => m.insert (key e) (val e)) m).get? k =
      ((l.filter (fun e => key e = k)).getLast?.map val).or (m.get? k)
  | [], m, k => by simp
  | a :: l, m, k => by
    rw [List.foldl_cons, get_fold key val l, AMap.get?_insert]
    by_cases h : key a = k
    · rw [if_pos h, List.filter_cons_of_pos (by simpa using h)]
      cases hl : (l.filter (fun e => key e = k)) with
      | nil => simp
      | cons b r => simp [List.getLast?_cons_cons, List.getLast?_eq_some_getLast]
    · rw [if_neg h, List.filter_cons_of_neg (by simpa using h)]

/-- If no two entries have the same key, every entry is found. -/
theorem get_fold_of_mem {A K V : Type} [DecidableEq K] {key : A → K} {val : A → V} {l : List A} {a : A}
    (hu : ∀ b ∈ l, key b = key a → b = a) (h : a ∈ l) (m : AMap K V) :
    (l.foldl (fun m e => m.insert (key e) (val e)) m).get? (key a) = some (val a) := by
  rw [get_fold]
  cases hl : (l.filter (fun e => key e = key a)).getLast? with
  | none =>
    rw [List.getLast?_eq_none_iff, List.filter_eq_nil_iff] at hl
    exact absurd (decide_eq_true rfl) (hl a h)
  | some b =>
    have hb := List.mem_of_getLast? hl
    rw [List.mem_filter] at hb
    rw [hu b hb.1 (by simpa using hb.2)]
    rfl

theorem get_fold_some {A K V : Type} [DecidableEq K] {key : A → K} {val : A → V} {l : List A} {k : K} {v : V}
    (h : (l.foldl (fun (m : AMap K V) e => m.insert (key e) (val e)) ([] : AMap K V)).get? k = some v) :
    ∃ a ∈ l, key a = k ∧ val a = v := by
  rw [get_fold] at h
  cases hl : (l.filter (fun e => key e = k)).getLast? with
  | none => simp [hl] at h
  | some b =>
    have hb := List.mem_of_getLast? hl
    rw [List.mem_filter] at hb
    simp [hl] at h
    exact ⟨b, hb.1, by simpa using hb.2, h⟩

theorem nodup_insert' {K V : Type} [DecidableEq K] : ∀ {m : AMap K V} {k : K} {v : V}, m.keys.Nodup → (m.insert k v).keys.Nodup
  | [], k, v, _ => by simp [AMap.insert, AMap.keys]
  | (k', v') :: m, k, v, h => by
    simp only [AMap.keys, List.map_cons, List.nodup_cons] at h
    simp only [AMap.insert]
    split
    · rename_i hk
      simp only [AMap.keys, List.map_cons, List.nodup_cons]
      exact h
    · rename_i hk
      simp only [AMap.keys, List.map_cons, List.nodup_cons]
      refine ⟨?_, nodup_insert' h.2⟩
      intro hm
      have hkey : ∀ (m : AMap K V), k' ∈ (m.insert k v).map Prod.fst → k' = k ∨ k' ∈ m.map Prod.fst := by
        intro m
        induction m with
        | nil => intro h; left; simpa [AMap.insert] using h
        | cons e m ih =>
          obtain ⟨a, b⟩ := e
          simp only [AMap.insert]
          split
          · intro h; right; simpa using h
          · intro h
            rcases List.mem_cons.mp h with h | h
            · right; simp at h; simp [h]
            · rcases ih h with h | h
              · exact .inl h
              · right; exact List.mem_cons_of_mem _ h
      rcases hkey m hm with rfl | hm
      · exact hk rfl
      · exact h.1 hm

theorem nodup_fold {A K V : Type} [DecidableEq K] (key : A → K) (val : A → V) : ∀ (l : List A) {m : AMap K V},
    m.keys.Nodup → (l.foldl (fun m e => m.insert (key e) (val e)) m).keys.Nodup
  | [], _, h => h
  | _ :: l, _, h => nodup_fold key val l (nodup_insert' h)

theorem build_infos (le : Str → Str → Bool) (pkgs : List MPkg) : (build le pkgs).infos =
    (located pkgs).foldl (fun (m : AMap PkgId Info) e => m.insert (pkgId pkgs e.1) ⟨e.2, isProcMacro e.1⟩) [] := by
  simp [build, loop_infos]

theorem build_dirs (le : Str → Str → Bool) (pkgs : List MPkg) : (build le pkgs).dirs =
    (located pkgs).foldl (fun (m : AMap PathC PkgId) e => m.insert e.2 (pkgId pkgs e.1)) [] := by
  simp [build, loop_dirs]

theorem build_selectors (le : Str → Str → Bool) (pkgs : List MPkg) : (build le pkgs).selectors =
    (located pkgs).map (fun e => ⟨e.1.name, hasBuildScript e.1, hasTest e.1⟩) := by
  simp [build, loop_selectors]

theorem build_byName (le : Str → Str → Bool) (pkgs : List MPkg) (n : Str) :
    ((build le pkgs).byName.get? n).getD [] =
      (((located pkgs).filter (fun e => e.1.name = n)).map (fun e => pkgId pkgs e.1)).mergeSort
        (fun a b => le a.version b.version) := by
  have h := loop_byName pkgs pkgs {} n
  have hm : ∀ (m : AMap Str (List PkgId)) (f : List PkgId → List PkgId), f [] = [] →
      (AMap.get? (m.map (fun e => (e.1, f e.2))) n).getD [] = f ((m.get? n).getD []) := by
    intro m f hf
    induction m with
    | nil => simp [hf]
    | cons e m ih =>
      obtain ⟨a, b⟩ := e
      simp only [List.map_cons, AMap.get?]
      split
      · rfl
      · exact ih
  simp only [build]
  rw [hm _ (fun l => l.mergeSort (fun a b => le a.version b.version)) (by simp), h]
  simp

theorem pkgId_name (pkgs : List MPkg) (p : MPkg) : (pkgId pkgs p).name = p.name := rfl
theorem pkgId_version (pkgs : List MPkg) (p : MPkg) : (pkgId pkgs p).version = p.version := rfl

theorem pkgId_eq {pkgs : List MPkg} {p q : MPkg} (h : pkgId pkgs p = pkgId pkgs q) :
    p.name = q.name ∧ p.version = q.version :=
  ⟨congrArg PkgId.name h, congrArg PkgId.version h⟩

theorem isProcMacro_iff (p : MPkg) : isProcMacro p = true ↔ ∃ t ∈ p.targets, TargetKind.procMacro ∈ t.kinds := by
  simp [isProcMacro]
theorem hasBuildScript_iff (p : MPkg) : hasBuildScript p = true ↔ ∃ t ∈ p.targets, TargetKind.customBuild ∈ t.kinds := by
  simp [hasBuildScript]
theorem hasTest_iff (p : MPkg) : hasTest p = true ↔ ∃ t ∈ p.targets, t.test = true := by
  simp [hasTest]

theorem mem_procMacros {le : Str → Str → Bool} {pkgs : List MPkg} {x : PkgId} :
    x ∈ procMacros (build le pkgs) ↔ ∃ d, (build le pkgs).infos.get? x = some ⟨d, true⟩ := by
  have hn : (build le pkgs).infos.keys.Nodup := by
    rw [build_infos]; exact nodup_fold _ _ _ (by simp [AMap.keys])
  simp only [procMacros, List.mem_map, List.mem_filter]
  constructor
  · rintro ⟨⟨a, i⟩, ⟨hm, hp⟩, rfl⟩
    obtain ⟨d, b⟩ := i
    simp only at hp
    subst hp
    exact ⟨d, AMap.get?_of_mem hn hm⟩
  · rintro ⟨d, h⟩
    exact ⟨(x, ⟨d, true⟩), ⟨AMap.mem_of_get? h, rfl⟩, rfl⟩

/-- The last element of a sorted list is not below any other. -/
theorem last_max {A : Type} {r : A → A → Prop} : ∀ {l : List A} {a : A}, l.Pairwise r → l.getLast? = some a →
    ∀ b ∈ l, b = a ∨ r b a
  | [], _, _, h, _, _ => by simp at h
  | [c], a, _, h, b, hb => by simp at h hb; subst h; exact .inl hb
  | c :: d :: l, a, hp, h, b, hb => by
    rw [List.getLast?_cons_cons] at h
    rw [List.pairwise_cons] at hp
    rcases List.mem_cons.mp hb with rfl | hb
    · exact .inr (hp.1 a (List.mem_of_getLast? h))
    · exact last_max hp.2 h b hb

end Cackle.CrateIndex
