import Verif.Model.SymbolGraph

/-!
# Lemmas about `Model/SymbolGraph.lean`
-/

namespace Cackle.Graph
open Cackle

theorem bind_ok {α β : Type} {x : Res α} {f : α → Res β} {b : β} (h : x.bind f = .ok b) : ∃ a, x = .ok a ∧ f a = .ok b := by
  cases x with
  | ok a => exact ⟨a, rfl, h⟩
  | err => cases h
  | panic => cases h
  | stuck => cases h

theorem ofOption_ok {α : Type} {x : Option α} {a : α} (h : Res.ofOption x = .ok a) : x = some a := by
  cases x with
  | none => cases h
  | some b => cases h; rfl

/-- A loop that appends to a list gives what is found for each element, and nothing else. -/
theorem loop_collect {α β : Type} {f : α → Res (List β)} : ∀ (xs : List α) (acc out : List β),
    Res.loop (fun l x => (f x).bind fun l' => .ok (l ++ l')) acc xs = .ok out →
    (∀ r ∈ acc, r ∈ out) ∧ (∀ x ∈ xs, ∃ l, f x = .ok l ∧ ∀ r ∈ l, r ∈ out) ∧
      ∀ r ∈ out, r ∈ acc ∨ ∃ x ∈ xs, ∃ l, f x = .ok l ∧ r ∈ l
  | [], acc, out, h => by
    simp only [Res.loop] at h
    cases h
    exact ⟨fun _ h => h, by simp, fun _ h => .inl h⟩
  | x :: xs, acc, out, h => by
    simp only [Res.loop] at h
    obtain ⟨a, h1, h2⟩ := bind_ok h
    obtain ⟨l, h3, h4⟩ := bind_ok h1
    cases h4
    obtain ⟨g1, g2, g3⟩ := loop_collect xs _ _ h2
    refine ⟨fun r hr => g1 r (by simp [hr]), fun y hy => ?_, fun r hr => ?_⟩
    · rcases List.mem_cons.mp hy with rfl | hy
      · exact ⟨l, h3, fun r hr => g1 r (by simp [hr])⟩
      · exact g2 y hy
    · rcases g3 r hr with hr | ⟨y, hy, k, hk, hr⟩
      · rcases List.mem_append.mp hr with hr | hr
        · exact .inl hr
        · exact .inr ⟨x, by simp, l, h3, hr⟩
      · exact .inr ⟨y, by simp [hy], k, hk, hr⟩

/-- An invariant of a loop that ends well. -/
theorem loop_inv {σ α : Type} {f : σ → α → Res σ} {I : σ → Prop} : ∀ (l : List α) (s s' : σ),
    (∀ s a s', a ∈ l → I s → f s a = .ok s' → I s') → I s → Res.loop f s l = .ok s' → I s'
  | [], s, s', _, hs, h => by cases h; exact hs
  | a :: l, s, s', hf, hs, h => by
    simp only [Res.loop] at h
    obtain ⟨s1, h1, h2⟩ := bind_ok h
    exact loop_inv l s1 s' (fun s b s' hb => hf s b s' (by simp [hb])) (hf s a s1 (by simp) hs h1) h2

/-! ## The references of a binary -/

/-- The references of a binary: one for each inlined function, and those for each relocation. -/
theorem mem_allRefs {b : Bin} {objs : List Obj} {refs : List Ref} (h : allRefs b objs = .ok refs) :
    ∃ addresses, loadSymbols b.symbols = .ok addresses ∧ (∀ f ∈ b.inlined, inlinedRef f ∈ refs) ∧
      (∀ o ∈ objs, ∃ infos, sectionInfos o = some infos ∧ ∀ s ∈ o.sections, ∃ l,
        sectionRefs b o infos addresses s = .ok l ∧ ∀ r ∈ l, r ∈ refs) ∧
      ∀ r ∈ refs, (∃ f ∈ b.inlined, r = inlinedRef f) ∨
        ∃ o ∈ objs, ∃ infos, sectionInfos o = some infos ∧ ∃ s ∈ o.sections, ∃ l,
          sectionRefs b o infos addresses s = .ok l ∧ r ∈ l := by
  unfold allRefs at h
  obtain ⟨addresses, h1, h2⟩ := bind_ok h
  obtain ⟨g1, g2, g3⟩ := loop_collect _ _ _ h2
  have hobj : ∀ o l, objectRefs b addresses o = .ok l → ∃ infos, sectionInfos o = some infos ∧
      (∀ s ∈ o.sections, ∃ l', sectionRefs b o infos addresses s = .ok l' ∧ ∀ r ∈ l', r ∈ l) ∧
      ∀ r ∈ l, ∃ s ∈ o.sections, ∃ l', sectionRefs b o infos addresses s = .ok l' ∧ r ∈ l' := by
    intro o l hl
    unfold objectRefs at hl
    cases hi : sectionInfos o with
    | none => rw [hi] at hl; cases hl
    | some infos =>
      rw [hi] at hl
      obtain ⟨_, k2, k3⟩ := loop_collect _ _ _ hl
      refine ⟨infos, rfl, k2, fun r hr => ?_⟩
      rcases k3 r hr with hr | hr
      · cases hr
      · exact hr
  refine ⟨addresses, h1, fun f hf => g1 _ (List.mem_map.mpr ⟨f, hf, rfl⟩), fun o ho => ?_, fun r hr => ?_⟩
  · obtain ⟨l, hl, hsub⟩ := g2 o ho
    obtain ⟨infos, hi, k1, _⟩ := hobj o l hl
    exact ⟨infos, hi, fun s hs => by
      obtain ⟨l', e1, e2⟩ := k1 s hs
      exact ⟨l', e1, fun r hr => hsub r (e2 r hr)⟩⟩
  · rcases g3 r hr with hr | ⟨o, ho, l, hl, hr⟩
    · obtain ⟨f, hf, rfl⟩ := List.mem_map.mp hr
      exact .inl ⟨f, hf, rfl⟩
    · obtain ⟨infos, hi, _, k2⟩ := hobj o l hl
      exact .inr ⟨o, ho, infos, hi, k2 r hr⟩

/-- The references of a section. -/
theorem mem_sectionRefs {b : Bin} {o : Obj} {infos : AMap Nat (Str × Nat)} {addresses : AMap Str Nat}
    {s : Nat × List (Nat × Target)} {l : List Ref} (h : sectionRefs b o infos addresses s = .ok l) {first : Str × Nat}
    {start : Nat} {info : DebugInfo} (h1 : infos.get? s.1 = some first) (h2 : addresses.get? first.1 = some start)
    (h3 : b.debug.get? first.1 = some info) :
    (∀ r ∈ s.2, ∃ l', relocRefs b o infos addresses first start info.loc r = .ok l' ∧ ∀ x ∈ l', x ∈ l) ∧
      ∀ x ∈ l, ∃ r ∈ s.2, ∃ l', relocRefs b o infos addresses first start info.loc r = .ok l' ∧ x ∈ l' := by
  unfold sectionRefs at h
  rw [h1] at h
  simp only [] at h
  rw [h2, h3] at h
  obtain ⟨_, g2, g3⟩ := loop_collect _ _ _ h
  refine ⟨g2, fun x hx => ?_⟩
  rcases g3 x hx with hx | hx
  · cases hx
  · exact hx

/-- A reference of a section comes from one of its relocations. -/
theorem of_sectionRefs {b : Bin} {o : Obj} {infos : AMap Nat (Str × Nat)} {addresses : AMap Str Nat}
    {s : Nat × List (Nat × Target)} {l : List Ref} (h : sectionRefs b o infos addresses s = .ok l) {x : Ref}
    (hx : x ∈ l) : ∃ first start info, infos.get? s.1 = some first ∧ addresses.get? first.1 = some start ∧
      b.debug.get? first.1 = some info ∧ ∃ r ∈ s.2, ∃ l',
        relocRefs b o infos addresses first start info.loc r = .ok l' ∧ x ∈ l' := by
  have h' := h
  unfold sectionRefs at h
  cases h1 : infos.get? s.1 with
  | none => rw [h1] at h; cases h; cases hx
  | some first =>
    rw [h1] at h
    simp only [] at h
    cases h2 : addresses.get? first.1 with
    | none => rw [h2] at h; cases h; cases hx
    | some start =>
      cases h3 : b.debug.get? first.1 with
      | none => rw [h2, h3] at h; cases h; cases hx
      | some info => exact ⟨first, start, info, rfl, h2, h3, (mem_sectionRefs h' h1 h2 h3).2 x hx⟩

end Cackle.Graph
