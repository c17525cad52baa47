import Verif.Model.ApiMap

/-!
# Lemmas about the trie of API paths
-/

namespace Cackle.ApiMap

mutual
/-- The path exists as a node of the tree. -/
def Trie.has : Trie → List Str → Bool
  | _, [] => true
  | .node _ kids, k :: ks => kids.hasKid k ks
def Forest.hasKid : Forest → Str → List Str → Bool
  | .nil, _, _ => false
  | .cons k' sub rest, k, ks => if k' = k then sub.has ks else rest.hasKid k ks
end

@[simp] theorem Trie.has_nil (t : Trie) : t.has [] = true := by cases t; simp [Trie.has]

theorem Trie.fresh_has (p : List Str) : (Trie.fresh p).has p = true := by
  induction p with
  | nil => simp
  | cons k ks ih => simp [Trie.fresh, Trie.has, Forest.hasKid, ih]

mutual
theorem Trie.create_has : ∀ (t : Trie) (p : List Str), (t.createEntry p).has p = true
  | .node apis kids, [] => by simp [Trie.createEntry]
  | .node apis kids, k :: ks => by
    simp only [Trie.createEntry, Trie.has]
    exact Forest.create_has kids k ks
theorem Forest.create_has : ∀ (f : Forest) (k : Str) (ks : List Str),
    (f.createKid k ks).hasKid k ks = true
  | .nil, k, ks => by simp [Forest.createKid, Forest.hasKid, Trie.fresh_has]
  | .cons k' sub rest, k, ks => by
    by_cases h : k' = k
    · simp [Forest.createKid, h, Forest.hasKid, Trie.create_has sub ks]
    · simp [Forest.createKid, h, Forest.hasKid, Forest.create_has rest k ks]
end

mutual
theorem Trie.create_mono : ∀ (t : Trie) (p q : List Str),
    t.has q = true → (t.createEntry p).has q = true
  | .node apis kids, [], q => by simp [Trie.createEntry]
  | .node apis kids, k :: ks, [] => by simp
  | .node apis kids, k :: ks, q :: qs => by
    simp only [Trie.createEntry, Trie.has]
    exact Forest.create_mono kids k ks q qs
theorem Forest.create_mono : ∀ (f : Forest) (k : Str) (ks : List Str) (q : Str) (qs : List Str),
    f.hasKid q qs = true → (f.createKid k ks).hasKid q qs = true
  | .nil, k, ks, q, qs => by simp [Forest.hasKid]
  | .cons k' sub rest, k, ks, q, qs => by
    intro h
    by_cases h1 : k' = k
    · subst h1
      by_cases h2 : k' = q
      · simp only [Forest.hasKid, h2, if_true] at h
        simp only [Forest.createKid, if_true, Forest.hasKid, h2]
        exact Trie.create_mono sub ks qs h
      · simp only [Forest.hasKid, h2, if_false] at h
        simp [Forest.createKid, Forest.hasKid, h2, h]
    · by_cases h2 : k' = q
      · simp only [Forest.hasKid, h2, if_true] at h
        have h1' : ¬ q = k := by rw [← h2]; exact h1
        simp [Forest.createKid, h1', Forest.hasKid, h2, h]
      · simp only [Forest.hasKid, h2, if_false] at h
        simp only [Forest.createKid, h1, if_false, Forest.hasKid, h2]
        exact Forest.create_mono rest k ks q qs h
end

theorem Trie.fresh_get (p q : List Str) : (Trie.fresh p).get q = [] := by
  induction p generalizing q with
  | nil => cases q <;> simp [Trie.fresh, Trie.empty, Trie.get, Forest.getKid]
  | cons k ks ih =>
    cases q with
    | nil => simp [Trie.fresh, Trie.get]
    | cons q qs =>
      by_cases h : k = q <;> simp [Trie.fresh, Trie.get, Forest.getKid, h, ih]

mutual
/-- Creating entries never turns an empty lookup into a non-empty one. -/
theorem Trie.create_get : ∀ (t : Trie) (p q : List Str), t.get q = [] →
    (t.createEntry p).get q = []
  | .node apis kids, [], q, h => by simpa [Trie.createEntry] using h
  | .node apis kids, k :: ks, [], h => by simpa [Trie.createEntry, Trie.get] using h
  | .node apis kids, k :: ks, q :: qs, h => by
    simp only [Trie.createEntry, Trie.get] at h ⊢
    exact Forest.create_get kids apis k ks q qs h
theorem Forest.create_get : ∀ (f : Forest) (d : List Api) (k : Str) (ks : List Str) (q : Str)
    (qs : List Str), f.getKid d q qs = [] → (f.createKid k ks).getKid d q qs = []
  | .nil, d, k, ks, q, qs, h => by
    simp only [Forest.getKid] at h
    by_cases hk : k = q <;> simp [Forest.createKid, Forest.getKid, hk, Trie.fresh_get, h]
  | .cons k' sub rest, d, k, ks, q, qs, h => by
    by_cases h1 : k' = k
    · subst h1
      by_cases h2 : k' = q
      · simp only [Forest.getKid, h2, if_true] at h
        simp [Forest.createKid, Forest.getKid, h2, Trie.create_get sub ks qs h]
      · simp only [Forest.getKid, h2, if_false] at h
        simp [Forest.createKid, Forest.getKid, h2, h]
    · by_cases h2 : k' = q
      · have h1' : ¬ q = k := by rw [← h2]; exact h1
        simp only [Forest.getKid, h2, if_true] at h
        simp [Forest.createKid, h1', Forest.getKid, h2, h]
      · simp only [Forest.getKid, h2, if_false] at h
        simp only [Forest.createKid, h1, if_false, Forest.getKid, h2]
        exact Forest.create_get rest d k ks q qs h
end

mutual
theorem Trie.updateSubtree_get (f : List Api → List Api) : ∀ (t : Trie) (q : List Str),
    (t.updateSubtree f).get q = f (t.get q)
  | .node apis kids, [] => by simp [Trie.updateSubtree, Trie.get]
  | .node apis kids, q :: qs => by
    simp only [Trie.updateSubtree, Trie.get]
    exact Forest.updateAll_get f kids apis q qs
theorem Forest.updateAll_get (f : List Api → List Api) : ∀ (F : Forest) (d : List Api) (q : Str)
    (qs : List Str), (F.updateAll f).getKid (f d) q qs = f (F.getKid d q qs)
  | .nil, d, q, qs => by simp [Forest.updateAll, Forest.getKid]
  | .cons k sub rest, d, q, qs => by
    by_cases h : k = q
    · simp [Forest.updateAll, Forest.getKid, h, Trie.updateSubtree_get f sub qs]
    · simp only [Forest.updateAll, Forest.getKid, h, if_false]
      exact Forest.updateAll_get f rest d q qs
end

mutual
theorem Trie.updateSubtree_has (f : List Api → List Api) : ∀ (t : Trie) (q : List Str),
    (t.updateSubtree f).has q = t.has q
  | .node apis kids, [] => by simp
  | .node apis kids, q :: qs => by
    simp only [Trie.updateSubtree, Trie.has]
    exact Forest.updateAll_has f kids q qs
theorem Forest.updateAll_has (f : List Api → List Api) : ∀ (F : Forest) (q : Str)
    (qs : List Str), (F.updateAll f).hasKid q qs = F.hasKid q qs
  | .nil, q, qs => by simp [Forest.updateAll]
  | .cons k sub rest, q, qs => by
    by_cases h : k = q
    · simp [Forest.updateAll, Forest.hasKid, h, Trie.updateSubtree_has f sub qs]
    · simp only [Forest.updateAll, Forest.hasKid, h, if_false]
      exact Forest.updateAll_has f rest q qs
end

mutual
/-- Updating an existing path succeeds and changes exactly the lookups that extend the path. -/
theorem Trie.updateAt_spec (f : List Api → List Api) : ∀ (t : Trie) (p : List Str),
    t.has p = true → ∃ t', t.updateAt f p = some t' ∧
      (∀ q, t'.has q = t.has q) ∧
      (∀ q, t'.get q = if p <+: q then f (t.get q) else t.get q)
  | .node apis kids, [], _ => by
    refine ⟨_, rfl, fun q => ?_, fun q => ?_⟩
    · exact Trie.updateSubtree_has f (.node apis kids) q
    · have := Trie.updateSubtree_get f (.node apis kids) q
      simp only [Trie.updateSubtree] at this
      simpa using this
  | .node apis kids, k :: ks, h => by
    obtain ⟨F', h1, h2, h3⟩ := Forest.updateKid_spec f kids k ks (by simpa [Trie.has] using h)
    refine ⟨.node apis F', by simp [Trie.updateAt, h1], fun q => ?_, fun q => ?_⟩
    · cases q with
      | nil => simp
      | cons q qs => simpa [Trie.has] using h2 q qs
    · cases q with
      | nil => simp [Trie.get]
      | cons q qs =>
        simp only [Trie.get]
        rw [h3 apis q qs]
        by_cases hk : k = q
        · subst hk
          simp [List.cons_prefix_cons]
        · simp [List.cons_prefix_cons, hk]
theorem Forest.updateKid_spec (f : List Api → List Api) : ∀ (F : Forest) (k : Str) (ks : List Str),
    F.hasKid k ks = true → ∃ F', F.updateKid f k ks = some F' ∧
      (∀ q qs, F'.hasKid q qs = F.hasKid q qs) ∧
      (∀ d q qs, F'.getKid d q qs =
        if k = q ∧ ks <+: qs then f (F.getKid d q qs) else F.getKid d q qs)
  | .nil, k, ks, h => by simp [Forest.hasKid] at h
  | .cons k' sub rest, k, ks, h => by
    by_cases h1 : k' = k
    · subst h1
      obtain ⟨t', e1, e2, e3⟩ := Trie.updateAt_spec f sub ks (by simpa [Forest.hasKid] using h)
      refine ⟨.cons k' t' rest, by simp [Forest.updateKid, e1], fun q qs => ?_, fun d q qs => ?_⟩
      · by_cases h2 : k' = q <;> simp [Forest.hasKid, h2, e2]
      · by_cases h2 : k' = q <;> simp [Forest.getKid, h2, e3]
    · obtain ⟨F', e1, e2, e3⟩ := Forest.updateKid_spec f rest k ks
        (by simpa [Forest.hasKid, h1] using h)
      refine ⟨.cons k' sub F', by simp [Forest.updateKid, h1, e1], fun q qs => ?_,
        fun d q qs => ?_⟩
      · by_cases h2 : k' = q <;> simp [Forest.hasKid, h2, e2]
      · by_cases h2 : k' = q
        · have h1' : ¬ k = q := by rw [← h2]; exact fun e => h1 e.symm
          simp [Forest.getKid, h2, h1']
        · simp [Forest.getKid, h2, e3]
end

/-- Creating a list of entries. -/
theorem createList_spec (ps : List Str) (t : Trie) :
    (∀ p ∈ ps, (ps.foldl (fun t p => t.createEntry (splitColons p)) t).has (splitColons p) = true) ∧
    (∀ q, t.has q = true → (ps.foldl (fun t p => t.createEntry (splitColons p)) t).has q = true) ∧
    (∀ q, t.get q = [] → (ps.foldl (fun t p => t.createEntry (splitColons p)) t).get q = []) := by
  induction ps generalizing t with
  | nil => simp
  | cons p ps ih =>
    obtain ⟨i1, i2, i3⟩ := ih (t.createEntry (splitColons p))
    refine ⟨?_, fun q h => i2 q (Trie.create_mono _ _ _ h), fun q h => i3 q (Trie.create_get _ _ _ h)⟩
    intro p' hp'
    rcases List.mem_cons.mp hp' with rfl | hp'
    · exact i2 _ (Trie.create_has _ _)
    · exact i1 _ hp'

theorem createAll_spec (apis : List (Api × ApiDef)) (t : Trie) :
    (∀ ad ∈ apis, ∀ p ∈ ad.2.incl ++ ad.2.excl, (createAll apis t).has (splitColons p) = true) ∧
    (∀ q, t.has q = true → (createAll apis t).has q = true) ∧
    (∀ q, t.get q = [] → (createAll apis t).get q = []) := by
  induction apis generalizing t with
  | nil => simp [createAll]
  | cons ad apis ih =>
    obtain ⟨c1, c2, c3⟩ := createList_spec (ad.2.incl ++ ad.2.excl) t
    obtain ⟨i1, i2, i3⟩ := ih
      ((ad.2.incl ++ ad.2.excl).foldl (fun t p => t.createEntry (splitColons p)) t)
    refine ⟨?_, fun q h => i2 q (c2 q h), fun q h => i3 q (c3 q h)⟩
    intro ad' had p hp
    rcases List.mem_cons.mp had with rfl | had
    · exact i2 _ (c1 p hp)
    · exact i1 _ had p hp

/-- A loop of subtree updates over existing paths never panics. Lookups see the update iff one of
the paths is a prefix (for idempotent updates). -/
theorem updatePaths_spec (f : List Api → List Api) (hf : ∀ s, f (f s) = f s) (ps : List Str)
    (t : Trie) (h : ∀ p ∈ ps, t.has (splitColons p) = true) :
    ∃ t', updatePaths f ps t = some t' ∧ (∀ q, t'.has q = t.has q) ∧
      (∀ q, t'.get q = if (∃ p ∈ ps, splitColons p <+: q) then f (t.get q) else t.get q) := by
  induction ps generalizing t with
  | nil => exact ⟨t, by simp [updatePaths], by simp, by simp⟩
  | cons p ps ih =>
    obtain ⟨t1, e1, e2, e3⟩ := Trie.updateAt_spec f t (splitColons p) (h p (by simp))
    obtain ⟨t2, d1, d2, d3⟩ := ih t1 (fun p' hp' => by rw [e2]; exact h p' (by simp [hp']))
    refine ⟨t2, ?_, fun q => by rw [d2, e2], fun q => ?_⟩
    · simp only [updatePaths, List.foldlM_cons, e1]
      exact d1
    · rw [d3, e3]
      by_cases hp : splitColons p <+: q
      · by_cases hx : ∃ p ∈ ps, splitColons p <+: q
        · simp [hp, hx, hf]
        · simp [hp, hx]
      · by_cases hx : ∃ p ∈ ps, splitColons p <+: q
        · simp [hp, hx]
        · simp [hp, hx]

theorem applyIncludes_spec (apis : List (Api × ApiDef)) (t : Trie)
    (h : ∀ ad ∈ apis, ∀ p ∈ ad.2.incl, t.has (splitColons p) = true) :
    ∃ t', applyIncludes apis t = some t' ∧ (∀ q, t'.has q = t.has q) ∧
      (∀ q a, a ∈ t'.get q ↔
        a ∈ t.get q ∨ ∃ ad ∈ apis, ad.1 = a ∧ ∃ p ∈ ad.2.incl, splitColons p <+: q) := by
  induction apis generalizing t with
  | nil => exact ⟨t, by simp [applyIncludes], by simp, by simp⟩
  | cons ad apis ih =>
    obtain ⟨t1, e1, e2, e3⟩ := updatePaths_spec (setInsert ad.1)
      (fun s => by simp [setInsert]; split <;> simp_all) ad.2.incl t (h ad (by simp))
    obtain ⟨t2, d1, d2, d3⟩ := ih t1 (fun ad' had p hp => by rw [e2]; exact h ad' (by simp [had]) p hp)
    refine ⟨t2, ?_, fun q => by rw [d2, e2], fun q a => ?_⟩
    · simp only [applyIncludes, List.foldlM_cons, e1]
      exact d1
    · rw [d3, e3]
      by_cases hx : ∃ p ∈ ad.2.incl, splitColons p <+: q
      · simp only [hx, if_true, mem_setInsert]
        constructor
        · rintro ((rfl | h) | ⟨ad', h1, h2, h3⟩)
          · exact Or.inr ⟨ad, by simp, rfl, hx⟩
          · exact Or.inl h
          · exact Or.inr ⟨ad', by simp [h1], h2, h3⟩
        · rintro (h | ⟨ad', h1, h2, h3⟩)
          · exact Or.inl (Or.inr h)
          · rcases List.mem_cons.mp h1 with rfl | h1
            · exact Or.inl (Or.inl h2.symm)
            · exact Or.inr ⟨ad', h1, h2, h3⟩
      · simp only [hx, if_false]
        constructor
        · rintro (h | ⟨ad', h1, h2, h3⟩)
          · exact Or.inl h
          · exact Or.inr ⟨ad', by simp [h1], h2, h3⟩
        · rintro (h | ⟨ad', h1, h2, h3⟩)
          · exact Or.inl h
          · rcases List.mem_cons.mp h1 with rfl | h1
            · exact absurd h3 hx
            · exact Or.inr ⟨ad', h1, h2, h3⟩

theorem applyExcludes_spec (apis : List (Api × ApiDef)) (t : Trie)
    (h : ∀ ad ∈ apis, ∀ p ∈ ad.2.excl, t.has (splitColons p) = true) :
    ∃ t', applyExcludes apis t = some t' ∧ (∀ q, t'.has q = t.has q) ∧
      (∀ q a, a ∈ t'.get q ↔
        a ∈ t.get q ∧ ¬ ∃ ad ∈ apis, ad.1 = a ∧ ∃ p ∈ ad.2.excl, splitColons p <+: q) := by
  induction apis generalizing t with
  | nil => exact ⟨t, by simp [applyExcludes], by simp, by simp⟩
  | cons ad apis ih =>
    obtain ⟨t1, e1, e2, e3⟩ := updatePaths_spec (setRemove ad.1)
      (fun s => by simp [setRemove]) ad.2.excl t (h ad (by simp))
    obtain ⟨t2, d1, d2, d3⟩ := ih t1 (fun ad' had p hp => by rw [e2]; exact h ad' (by simp [had]) p hp)
    refine ⟨t2, ?_, fun q => by rw [d2, e2], fun q a => ?_⟩
    · simp only [applyExcludes, List.foldlM_cons, e1]
      exact d1
    · rw [d3, e3]
      by_cases hx : ∃ p ∈ ad.2.excl, splitColons p <+: q
      · simp only [hx, if_true, mem_setRemove]
        constructor
        · rintro ⟨⟨h0, h⟩, hn⟩
          refine ⟨h, ?_⟩
          rintro ⟨ad', h1, h2, h3⟩
          rcases List.mem_cons.mp h1 with rfl | h1
          · exact h0 h2.symm
          · exact hn ⟨ad', h1, h2, h3⟩
        · rintro ⟨h, hn⟩
          refine ⟨⟨?_, h⟩, ?_⟩
          · rintro rfl; exact hn ⟨ad, by simp, rfl, hx⟩
          · rintro ⟨ad', h1, h2, h3⟩; exact hn ⟨ad', by simp [h1], h2, h3⟩
      · simp only [hx, if_false]
        constructor
        · rintro ⟨h, hn⟩
          refine ⟨h, ?_⟩
          rintro ⟨ad', h1, h2, h3⟩
          rcases List.mem_cons.mp h1 with rfl | h1
          · exact hx h3
          · exact hn ⟨ad', h1, h2, h3⟩
        · rintro ⟨h, hn⟩
          exact ⟨h, fun ⟨ad', h1, h2, h3⟩ => hn ⟨ad', by simp [h1], h2, h3⟩⟩

theorem empty_get (q : List Str) : Trie.empty.get q = [] := by
  cases q <;> simp [Trie.empty, Trie.get, Forest.getKid]

theorem splitColons_ne_nil (s : Str) : splitColons s ≠ [] := by
  fun_cases splitColons s <;> simp_all

end Cackle.ApiMap
