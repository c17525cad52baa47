import Verif.Model.SymbolGraph

/-!
# C30: the symbols that a relocation refers to
-/

namespace Cackle.Graph
open Cackle

/-! ## Specification -/

/-- A named symbol that is defined in section `k`. -/
def DefinedIn (s : ObjSym) (k : Nat) : Prop := s.name ≠ [] ∧ s.definition = true ∧ s.section_ = some k

/-- The first symbol of section `k`: the one with the lowest address, and the first in the table among these. -/
def FirstIn (symbols : AMap Nat ObjSym) (k : Nat) (s : ObjSym) : Prop :=
  ∃ i before after, symbols = before ++ (i, s) :: after ∧ DefinedIn s k ∧
    (∀ x ∈ before, DefinedIn x.2 k → s.address < x.2.address) ∧
    (∀ x ∈ after, DefinedIn x.2 k → s.address ≤ x.2.address)

/-- The symbol is in the linked binary. -/
def InBinary (bin : AMap Str Nat) (s : Str) : Prop := s ∈ AMap.keys bin

/-- What a relocation target itself stands for: a symbol, or a section without a symbol that is in the binary. -/
inductive StandsFor (o : Obj) (bin : AMap Str Nat) : Target → Str ⊕ Nat → Prop
  | named {i : Nat} {e : ObjSym} : o.symbols.get? i = some e → e.name ≠ [] →
      (InBinary bin e.name ∨ e.section_ = none) → StandsFor o bin (.symbol i) (.inl e.name)
  | first {i k : Nat} {e s : ObjSym} : o.symbols.get? i = some e → (e.name = [] ∨ ¬ InBinary bin e.name) →
      e.section_ = some k → FirstIn o.symbols k s → InBinary bin s.name → StandsFor o bin (.symbol i) (.inl s.name)
  | anonymous {i k : Nat} {e : ObjSym} : o.symbols.get? i = some e → (e.name = [] ∨ ¬ InBinary bin e.name) →
      e.section_ = some k → (∀ s, FirstIn o.symbols k s → ¬ InBinary bin s.name) → StandsFor o bin (.symbol i) (.inr k)

/-- Following relocations through anonymous sections: the targets that are met. -/
inductive Reaches (o : Obj) (bin : AMap Str Nat) : Target → Target → Prop
  | refl {t : Target} : Reaches o bin t t
  | through {t u : Target} {k : Nat} {relocs : List (Nat × Target)} {r : Nat × Target} :
      StandsFor o bin t (.inr k) → o.sections.get? k = some relocs → r ∈ relocs → Reaches o bin r.2 u →
      Reaches o bin t u

/-- The target stands for something that exists. -/
def Valid (o : Obj) (bin : AMap Str Nat) (t : Target) : Prop :=
  (∃ s, StandsFor o bin t (.inl s)) ∨ ∃ k, StandsFor o bin t (.inr k) ∧ k ∈ AMap.keys o.sections

/-! ## First symbols -/

theorem FirstIn.unique {l : AMap Nat ObjSym} {k : Nat} {s s' : ObjSym} (h : FirstIn l k s) (h' : FirstIn l k s') :
    s = s' := by
  obtain ⟨i, b, a, e, hd, hb, ha⟩ := h
  obtain ⟨i', b', a', e', hd', hb', ha'⟩ := h'
  rw [e] at e'
  rcases List.append_eq_append_iff.mp e' with ⟨m, h1, h2⟩ | ⟨m, h1, h2⟩
  · cases m with
    | nil => simp at h2; exact h2.1.2
    | cons x m =>
      simp only [List.cons_append, List.cons.injEq] at h2
      have hx : (i, s) ∈ b' := by rw [h1, h2.1]; simp
      have hy : (i', s') ∈ a := by rw [h2.2]; simp
      have := hb' _ hx hd
      have := ha _ hy hd'
      simp at *; omega
  · cases m with
    | nil => simp at h2; exact h2.1.2.symm
    | cons x m =>
      simp only [List.cons_append, List.cons.injEq] at h2
      have hx : (i', s') ∈ b := by rw [h1, h2.1]; simp
      have hy : (i, s) ∈ a' := by rw [h2.2]; simp
      have := hb _ hx hd'
      have := ha' _ hy hd
      simp at *; omega

/-- What the table of first symbols has to say about the symbols in `l`. -/
def Describes (infos : AMap Nat (Str × Nat)) (l : AMap Nat ObjSym) : Prop :=
  ∀ k, (∀ e, infos.get? k = some e → ∃ s, FirstIn l k s ∧ e = (s.name, s.address)) ∧
    (infos.get? k = none → ∀ x ∈ l, ¬ DefinedIn x.2 k)

theorem FirstIn.snoc {l : AMap Nat ObjSym} {k : Nat} {s : ObjSym} (h : FirstIn l k s) {x : Nat × ObjSym}
    (hx : DefinedIn x.2 k → s.address ≤ x.2.address) : FirstIn (l ++ [x]) k s := by
  obtain ⟨i, b, a, e, hd, hb, ha⟩ := h
  refine ⟨i, b, a ++ [x], by simp [e], hd, hb, fun y hy => ?_⟩
  rcases List.mem_append.mp hy with hy | hy
  · exact ha y hy
  · simp at hy; subst hy; exact hx

theorem FirstIn.new {l : AMap Nat ObjSym} {k : Nat} {x : Nat × ObjSym} (hx : DefinedIn x.2 k)
    (h : ∀ y ∈ l, DefinedIn y.2 k → x.2.address < y.2.address) : FirstIn (l ++ [x]) k x.2 :=
  ⟨x.1, l, [], by simp, hx, h, by simp⟩

theorem FirstIn.least {l : AMap Nat ObjSym} {k : Nat} {s : ObjSym} (h : FirstIn l k s) :
    ∀ y ∈ l, DefinedIn y.2 k → s.address ≤ y.2.address := by
  obtain ⟨i, b, a, e, hd, hb, ha⟩ := h
  intro y hy hdy
  rw [e] at hy
  rcases List.mem_append.mp hy with hy | hy
  · exact Nat.le_of_lt (hb y hy hdy)
  · rcases List.mem_cons.mp hy with rfl | hy
    · exact Nat.le_refl _
    · exact ha y hy hdy

theorem Describes.skip {infos : AMap Nat (Str × Nat)} {l : AMap Nat ObjSym} (h : Describes infos l)
    {x : Nat × ObjSym} (hx : ∀ k, DefinedIn x.2 k → ∃ e, infos.get? k = some e ∧ e.2 ≤ x.2.address) :
    Describes infos (l ++ [x]) := by
  intro k
  refine ⟨fun e he => ?_, fun hn y hy => ?_⟩
  · obtain ⟨s, hs, rfl⟩ := (h k).1 e he
    refine ⟨s, hs.snoc fun hd => ?_, rfl⟩
    obtain ⟨e', he', hle⟩ := hx k hd
    rw [he] at he'
    cases he'
    exact hle
  · rcases List.mem_append.mp hy with hy | hy
    · exact (h k).2 hn y hy
    · simp at hy; subst hy
      intro hd
      obtain ⟨e', he', _⟩ := hx k hd
      rw [hn] at he'
      cases he'

theorem Describes.put {infos : AMap Nat (Str × Nat)} {l : AMap Nat ObjSym} (h : Describes infos l)
    {x : Nat × ObjSym} {k : Nat} (hx : DefinedIn x.2 k)
    (hless : ∀ y ∈ l, DefinedIn y.2 k → x.2.address < y.2.address) :
    Describes (infos.insert k (x.2.name, x.2.address)) (l ++ [x]) := by
  intro j
  rw [AMap.get?_insert]
  by_cases hj : k = j
  · subst hj
    simp only [if_true]
    exact ⟨fun e he => ⟨x.2, .new hx hless, (Option.some.inj he).symm⟩, fun hn => by cases hn⟩
  · rw [if_neg hj]
    have hnd : ¬ DefinedIn x.2 j := fun hd => hj (Option.some.inj (hx.2.2.symm.trans hd.2.2))
    refine ⟨fun e he => ?_, fun hn y hy => ?_⟩
    · obtain ⟨s, hs, rfl⟩ := (h j).1 e he
      exact ⟨s, hs.snoc fun hd => absurd hd hnd, rfl⟩
    · rcases List.mem_append.mp hy with hy | hy
      · exact (h j).2 hn y hy
      · simp at hy; subst hy; exact hnd

theorem addFirst_describes {o : Obj} {infos infos' : AMap Nat (Str × Nat)} {l : AMap Nat ObjSym} {x : Nat × ObjSym}
    (h : Describes infos l) (he : addFirst o infos x.2 = some infos') : Describes infos' (l ++ [x]) := by
  unfold addFirst at he
  split at he
  · rename_i hskip
    cases he
    refine h.skip fun k hd => ?_
    rcases hskip with hs | hs
    · exact absurd hs hd.1
    · rw [hd.2.1] at hs; cases hs
  · rename_i hdef
    split at he
    · rename_i hs
      cases he
      exact h.skip fun k hd => by rw [hd.2.2] at hs; cases hs
    · rename_i k hs
      have hd : DefinedIn x.2 k := ⟨fun e => hdef (.inl e), by
        cases hb : x.2.definition with
        | true => rfl
        | false => exact absurd (Or.inr hb) hdef, hs⟩
      split at he
      · cases he
      · split at he
        · rename_i e hg
          split at he
          · rename_i hlt
            cases he
            refine h.put hd fun y hy hdy => ?_
            obtain ⟨s, hfirst, rfl⟩ := (h k).1 e hg
            exact Nat.lt_of_lt_of_le hlt (hfirst.least y hy hdy)
          · rename_i hge
            cases he
            refine h.skip fun j hdj => ?_
            have : k = j := Option.some.inj (hs.symm.trans hdj.2.2)
            subst this
            exact ⟨e, hg, by omega⟩
        · rename_i hg
          cases he
          exact h.put hd fun y hy hdy => absurd hdy ((h k).2 hg y hy)

theorem addFirsts_describes {o : Obj} : ∀ (rest : AMap Nat ObjSym) (infos infos' : AMap Nat (Str × Nat))
    (l : AMap Nat ObjSym), Describes infos l → addFirsts o infos rest = some infos' → Describes infos' (l ++ rest)
  | [], infos, infos', l, h, he => by
    simp [addFirsts] at he; subst he; simpa using h
  | x :: rest, infos, infos', l, h, he => by
    unfold addFirsts at he
    cases hf : addFirst o infos x.2 with
    | none => rw [hf] at he; cases he
    | some i =>
      rw [hf] at he
      have := addFirsts_describes rest i infos' (l ++ [x]) (addFirst_describes h hf) he
      simpa using this

theorem sectionInfos_describes {o : Obj} {infos : AMap Nat (Str × Nat)} (h : sectionInfos o = some infos) :
    Describes infos o.symbols := by
  have := addFirsts_describes o.symbols [] infos [] (fun k => ⟨fun e he => by simp at he, fun _ x hx => by cases hx⟩) h
  simpa using this

theorem le_maxIndex_aux : ∀ (l : AMap Nat (List (Nat × Target))) (m : Nat),
    m ≤ l.foldl (fun m s => max m s.1) m ∧ ∀ k ∈ AMap.keys l, k ≤ l.foldl (fun m s => max m s.1) m
  | [], m => by simp [AMap.keys]
  | x :: l, m => by
    obtain ⟨h1, h2⟩ := le_maxIndex_aux l (max m x.1)
    refine ⟨by simp only [List.foldl_cons]; omega, fun k hk => ?_⟩
    simp only [List.foldl_cons]
    simp only [AMap.keys, List.map_cons, List.mem_cons] at hk
    rcases hk with rfl | hk
    · omega
    · exact h2 k hk

theorem le_maxIndex {o : Obj} {k : Nat} (h : k ∈ AMap.keys o.sections) : k ≤ maxIndex o := (le_maxIndex_aux _ 0).2 k h

theorem maxIndex_lt_aux : ∀ (l : AMap Nat (List (Nat × Target))) (m k : Nat), m < k → (∀ j ∈ AMap.keys l, j < k) →
    l.foldl (fun m s => max m s.1) m < k
  | [], m, k, h, _ => h
  | x :: l, m, k, h, hl => by
    simp only [AMap.keys, List.map_cons, List.mem_cons] at hl
    have := hl x.1 (.inl rfl)
    exact maxIndex_lt_aux l (max m x.1) k (by omega) (fun j hj => hl j (.inr hj))

theorem maxIndex_lt {o : Obj} {k : Nat} (h0 : 0 < k) (h : ∀ j ∈ AMap.keys o.sections, j < k) : maxIndex o < k :=
  maxIndex_lt_aux _ 0 k h0 h

/-- The table exists exactly if no named symbol is defined in a section above the last one. -/
theorem addFirst_none {o : Obj} {infos : AMap Nat (Str × Nat)} {s : ObjSym} :
    addFirst o infos s = none ↔ ∃ k, DefinedIn s k ∧ maxIndex o < k := by
  unfold addFirst DefinedIn
  by_cases hdef : s.name = [] ∨ s.definition = false
  · rw [if_pos hdef]
    constructor
    · intro h; cases h
    · rintro ⟨k, ⟨h1, h2, _⟩, _⟩
      rcases hdef with h | h
      · exact absurd h h1
      · rw [h2] at h; cases h
  · rw [if_neg hdef]
    have h1 : s.name ≠ [] := fun e => hdef (.inl e)
    have h2 : s.definition = true := by
      cases hb : s.definition with
      | true => rfl
      | false => exact absurd (Or.inr hb) hdef
    cases hs : s.section_ with
    | none => simp
    | some k =>
      simp only []
      by_cases hm : maxIndex o < k
      · rw [if_pos hm]; simp [h1, h2, hm]
      · rw [if_neg hm]
        constructor
        · intro h
          revert h
          cases infos.get? k with
          | none => simp
          | some e => simp only []; split <;> simp
        · rintro ⟨j, ⟨_, _, hj⟩, hlt⟩
          cases hj; exact absurd hlt hm

theorem addFirsts_none {o : Obj} : ∀ (l : AMap Nat ObjSym) (infos : AMap Nat (Str × Nat)),
    addFirsts o infos l = none ↔ ∃ x ∈ l, ∃ k, DefinedIn x.2 k ∧ maxIndex o < k
  | [], infos => by simp [addFirsts]
  | x :: l, infos => by
    unfold addFirsts
    cases hf : addFirst o infos x.2 with
    | none =>
      simp only [Option.bind_none, true_iff]
      exact ⟨x, by simp, addFirst_none.mp hf⟩
    | some i =>
      simp only [Option.bind_some, addFirsts_none l i]
      constructor
      · rintro ⟨y, hy, h⟩; exact ⟨y, by simp [hy], h⟩
      · rintro ⟨y, hy, h⟩
        rcases List.mem_cons.mp hy with rfl | hy
        · rw [addFirst_none.mpr h] at hf; cases hf
        · exact ⟨y, hy, h⟩

theorem too_large {o : Obj} {infos : AMap Nat (Str × Nat)} {k : Nat} {s : ObjSym} (h : sectionInfos o = some infos)
    (hm : maxIndex o < k) (hf : FirstIn o.symbols k s) : False := by
  obtain ⟨i, b, a, e, hd, _⟩ := hf
  have : sectionInfos o = none := (addFirsts_none _ _).mpr ⟨(i, s), by rw [e]; simp, k, hd, hm⟩
  rw [h] at this
  cases this

/-! ## One target -/

theorem inBinary_iff {bin : AMap Str Nat} {s : Str} : (bin.get? s).isSome = true ↔ InBinary bin s :=
  AMap.get?_isSome_iff

/-- The function for one target computes what the target stands for. -/
theorem symOrSect_spec {o : Obj} {infos : AMap Nat (Str × Nat)} (bin : AMap Str Nat) (h : sectionInfos o = some infos)
    (t : Target) :
    match symOrSect o infos bin t with
    | .ok (.symbol s) => ∀ x, StandsFor o bin t x ↔ x = .inl s
    | .ok (.sect k) => ∀ x, StandsFor o bin t x ↔ x = .inr k
    | .err => ¬ Valid o bin t
    | _ => False := by
  have hdesc := sectionInfos_describes h
  cases t with
  | other =>
    simp only [symOrSect]
    rintro (⟨s, hs⟩ | ⟨k, hk, _⟩)
    · cases hs
    · cases hk
  | symbol i =>
    simp only [symOrSect]
    cases hi : o.symbols.get? i with
    | none =>
      simp only []
      rintro (⟨s, hs⟩ | ⟨k, hk, _⟩)
      · cases hs with
        | named h1 => rw [hi] at h1; cases h1
        | first h1 => rw [hi] at h1; cases h1
      · cases hk with
        | anonymous h1 => rw [hi] at h1; cases h1
    | some e =>
      simp only []
      by_cases hc : e.name ≠ [] ∧ ((bin.get? e.name).isSome = true ∨ e.section_ = none)
      · rw [if_pos hc]
        simp only []
        rw [inBinary_iff] at hc
        intro x
        refine ⟨fun hx => ?_, fun hx => by subst hx; exact .named hi hc.1 hc.2⟩
        have hno : ∀ k, e.section_ = some k → (e.name = [] ∨ ¬ InBinary bin e.name) → False := by
          intro k hk hn
          rcases hn with hn | hn
          · exact hc.1 hn
          · rcases hc.2 with h2 | h2
            · exact hn h2
            · rw [hk] at h2; cases h2
        cases hx with
        | named h1 => rw [hi] at h1; cases h1; rfl
        | first h1 h2 h3 => rw [hi] at h1; cases h1; exact (hno _ h3 h2).elim
        | anonymous h1 h2 h3 => rw [hi] at h1; cases h1; exact (hno _ h3 h2).elim
      · rw [if_neg hc]
        rw [inBinary_iff] at hc
        have hn : e.name = [] ∨ ¬ InBinary bin e.name := by
          by_cases hne : e.name = []
          · exact .inl hne
          · exact .inr fun hb => hc ⟨hne, .inl hb⟩
        have hnamed : ∀ e', o.symbols.get? i = some e' → e'.name ≠ [] →
            (InBinary bin e'.name ∨ e'.section_ = none) → False := by
          intro e' h1 h2 h3
          rw [hi] at h1; cases h1; exact hc ⟨h2, h3⟩
        cases hk : e.section_ with
        | none =>
          simp only []
          rintro (⟨s, hs⟩ | ⟨k, hs, _⟩)
          · cases hs with
            | named h1 h2 h3 => exact hnamed _ h1 h2 h3
            | first h1 h2 h3 => rw [hi] at h1; cases h1; rw [hk] at h3; cases h3
          · cases hs with
            | anonymous h1 h2 h3 => rw [hi] at h1; cases h1; rw [hk] at h3; cases h3
        | some k =>
          simp only []
          by_cases hmax : maxIndex o < k
          · rw [if_pos hmax]
            simp only []
            rintro (⟨s, hs⟩ | ⟨j, hs, hj⟩)
            · cases hs with
              | named h1 h2 h3 => exact hnamed _ h1 h2 h3
              | first h1 h2 h3 h4 h5 =>
                rw [hi] at h1; cases h1; rw [hk] at h3; cases h3
                exact too_large h hmax h4
            · cases hs with
              | anonymous h1 h2 h3 =>
                rw [hi] at h1; cases h1; rw [hk] at h3; cases h3
                have := le_maxIndex hj
                omega
          · rw [if_neg hmax]
            have huniq : ∀ x, StandsFor o bin (.symbol i) x →
                (∃ s, x = .inl s.name ∧ FirstIn o.symbols k s ∧ InBinary bin s.name) ∨
                (x = .inr k ∧ ∀ s, FirstIn o.symbols k s → ¬ InBinary bin s.name) := by
              intro x hx
              cases hx with
              | named h1 h2 h3 => exact (hnamed _ h1 h2 h3).elim
              | first h1 h2 h3 h4 h5 =>
                rw [hi] at h1; cases h1; rw [hk] at h3; cases h3; exact .inl ⟨_, rfl, h4, h5⟩
              | anonymous h1 h2 h3 h4 =>
                rw [hi] at h1; cases h1; rw [hk] at h3; cases h3; exact .inr ⟨rfl, h4⟩
            cases hg : infos.get? k with
            | none =>
              simp only []
              have hnone : ∀ s, FirstIn o.symbols k s → ¬ InBinary bin s.name := by
                rintro s ⟨j, b, a, e1, hd, _⟩
                exact absurd hd ((hdesc k).2 hg (j, s) (by rw [e1]; simp))
              intro x
              constructor
              · intro hx
                rcases huniq x hx with ⟨s, _, h4, h5⟩ | ⟨hx, _⟩
                · exact absurd h5 (hnone s h4)
                · exact hx
              · rintro rfl; exact .anonymous hi hn hk hnone
            | some f =>
              obtain ⟨s, hs, rfl⟩ := (hdesc k).1 f hg
              simp only []
              by_cases hb : (bin.get? s.name).isSome = true
              · rw [if_pos hb]
                rw [inBinary_iff] at hb
                simp only []
                intro x
                constructor
                · intro hx
                  rcases huniq x hx with ⟨s', rfl, h4, h5⟩ | ⟨_, h4⟩
                  · rw [h4.unique hs]
                  · exact absurd hb (h4 s hs)
                · rintro rfl; exact .first hi hn hk hs hb
              · rw [if_neg hb]
                rw [inBinary_iff] at hb
                simp only []
                have hnone : ∀ s', FirstIn o.symbols k s' → ¬ InBinary bin s'.name := by
                  intro s' hs'; rw [hs'.unique hs]; exact hb
                intro x
                constructor
                · intro hx
                  rcases huniq x hx with ⟨s', _, h4, h5⟩ | ⟨hx, _⟩
                  · exact absurd h5 (hnone s' h4)
                  · exact hx
                · rintro rfl; exact .anonymous hi hn hk hnone

/-! ## The search -/

theorem Reaches.snoc {o : Obj} {bin : AMap Str Nat} {t u : Target} (h : Reaches o bin t u) {k : Nat}
    {relocs : List (Nat × Target)} {r : Nat × Target} (h1 : StandsFor o bin u (.inr k))
    (h2 : o.sections.get? k = some relocs) (h3 : r ∈ relocs) : Reaches o bin t r.2 := by
  induction h with
  | refl => exact .through h1 h2 h3 .refl
  | through g1 g2 g3 _ ih => exact .through g1 g2 g3 (ih h1)

/-- The state accounts for what the target stands for. -/
def Handled (o : Obj) (bin : AMap Str Nat) (st : List Str × List Nat) (t : Target) : Prop :=
  (∀ s, StandsFor o bin t (.inl s) → s ∈ st.1) ∧ ∀ k, StandsFor o bin t (.inr k) → k ∈ st.2

/-- From one state to a later one; only targets with `P` were looked at, and all sections visited in between are
done. -/
structure Ext (o : Obj) (bin : AMap Str Nat) (P : Target → Prop) (st st' : List Str × List Nat) : Prop where
  out : ∀ s ∈ st.1, s ∈ st'.1
  vis : ∀ k ∈ st.2, k ∈ st'.2
  sound : ∀ s ∈ st'.1, s ∈ st.1 ∨ ∃ u, P u ∧ StandsFor o bin u (.inl s)
  done : ∀ k ∈ st'.2, k ∉ st.2 → ∃ relocs, o.sections.get? k = some relocs ∧
    ∀ r ∈ relocs, Handled o bin st' r.2 ∧ Valid o bin r.2

theorem Handled.mono {o : Obj} {bin : AMap Str Nat} {st st' : List Str × List Nat} {t : Target}
    (h : Handled o bin st t) (h1 : ∀ s ∈ st.1, s ∈ st'.1) (h2 : ∀ k ∈ st.2, k ∈ st'.2) : Handled o bin st' t :=
  ⟨fun s hs => h1 s (h.1 s hs), fun k hk => h2 k (h.2 k hk)⟩

theorem Ext.refl {o : Obj} {bin : AMap Str Nat} {P : Target → Prop} (st : List Str × List Nat) : Ext o bin P st st :=
  ⟨fun _ h => h, fun _ h => h, fun _ h => .inl h, fun _ h hn => absurd h hn⟩

theorem Ext.trans {o : Obj} {bin : AMap Str Nat} {P : Target → Prop} {a b c : List Str × List Nat}
    (h : Ext o bin P a b) (h' : Ext o bin P b c) : Ext o bin P a c where
  out s hs := h'.out s (h.out s hs)
  vis k hk := h'.vis k (h.vis k hk)
  sound s hs := by
    rcases h'.sound s hs with hs | hs
    · exact h.sound s hs
    · exact .inr hs
  done k hk hn := by
    by_cases hb : k ∈ b.2
    · obtain ⟨relocs, h1, h2⟩ := h.done k hb hn
      exact ⟨relocs, h1, fun r hr => ⟨(h2 r hr).1.mono h'.out h'.vis, (h2 r hr).2⟩⟩
    · exact h'.done k hk hb

theorem Ext.keys {o : Obj} {bin : AMap Str Nat} {P : Target → Prop} {st st' : List Str × List Nat}
    (h : Ext o bin P st st') (hv : ∀ k ∈ st.2, k ∈ AMap.keys o.sections) : ∀ k ∈ st'.2, k ∈ AMap.keys o.sections := by
  intro k hk
  by_cases hb : k ∈ st.2
  · exact hv k hb
  · obtain ⟨relocs, h1, _⟩ := h.done k hk hb
    rw [← AMap.get?_isSome_iff, h1]; rfl

/-- The number of sections not visited yet. -/
def unvisited (o : Obj) (vis : List Nat) : Nat := ((AMap.keys o.sections).filter (fun k => k ∉ vis)).length

theorem filter_le {l : List Nat} {p q : Nat → Bool} (h : ∀ k, p k = true → q k = true) :
    (l.filter p).length ≤ (l.filter q).length := by
  induction l with
  | nil => simp
  | cons x l ih =>
    by_cases hp : p x = true
    · rw [List.filter_cons_of_pos hp, List.filter_cons_of_pos (h x hp)]
      simpa using ih
    · rw [List.filter_cons_of_neg hp]
      refine Nat.le_trans ih ?_
      rw [List.filter_cons]
      split <;> simp

theorem unvisited_mono {o : Obj} {vis vis' : List Nat} (h : ∀ k ∈ vis, k ∈ vis') :
    unvisited o vis' ≤ unvisited o vis := by
  refine filter_le fun k hk => ?_
  simp only [decide_eq_true_eq] at hk ⊢
  exact fun hv => hk (h k hv)

theorem unvisited_cons {o : Obj} {vis : List Nat} {k : Nat} (hk : k ∈ AMap.keys o.sections) (hn : k ∉ vis) :
    unvisited o (k :: vis) < unvisited o vis := by
  unfold unvisited
  generalize AMap.keys o.sections = l at hk
  induction l with
  | nil => cases hk
  | cons x l ih =>
    have hle : (l.filter (fun j => j ∉ k :: vis)).length ≤ (l.filter (fun j => j ∉ vis)).length := by
      refine filter_le fun j hj => ?_
      simp only [decide_eq_true_eq, List.mem_cons, not_or] at hj ⊢
      exact hj.2
    by_cases hx : x = k
    · subst hx
      rw [List.filter_cons_of_neg (by simp), List.filter_cons_of_pos (by simpa using hn)]
      simp only [List.length_cons]
      omega
    · have hk' : k ∈ l := by
        rcases List.mem_cons.mp hk with h | h
        · exact absurd h.symm hx
        · exact h
      have := ih hk'
      by_cases hv : x ∈ vis
      · rw [List.filter_cons_of_neg (by simp [hv]), List.filter_cons_of_neg (by simp [hv])]
        exact this
      · rw [List.filter_cons_of_pos (by simp [hv, hx]), List.filter_cons_of_pos (by simp [hv])]
        simp only [List.length_cons]
        omega

theorem loop_spec {o : Obj} {bin : AMap Str Nat} {P : Target → Prop} {n : Nat}
    {f : List Str × List Nat → Target → Res (List Str × List Nat)}
    (hf : ∀ st t, P t → (∀ k ∈ st.2, k ∈ AMap.keys o.sections) → unvisited o st.2 < n →
      match f st t with
      | .ok st' => Ext o bin P st st' ∧ Handled o bin st' t ∧ Valid o bin t
      | .err => ∃ u, P u ∧ ¬ Valid o bin u
      | _ => False) : ∀ (l : List (Nat × Target)) (st : List Str × List Nat), (∀ r ∈ l, P r.2) →
    (∀ k ∈ st.2, k ∈ AMap.keys o.sections) → unvisited o st.2 < n →
      match Res.loop (fun st (r : Nat × Target) => f st r.2) st l with
      | .ok st' => Ext o bin P st st' ∧ ∀ r ∈ l, Handled o bin st' r.2 ∧ Valid o bin r.2
      | .err => ∃ u, P u ∧ ¬ Valid o bin u
      | _ => False
  | [], st, _, _, _ => by simp only [Res.loop]; exact ⟨.refl st, by simp⟩
  | r :: l, st, hl, hvis, hn => by
    have h1 := hf st r.2 (hl r (by simp)) hvis hn
    simp only [Res.loop]
    cases hr : f st r.2 with
    | ok st1 =>
      rw [hr] at h1
      simp only [Res.bind]
      have h2 := loop_spec hf l st1 (fun x hx => hl x (by simp [hx])) (h1.1.keys hvis)
        (Nat.lt_of_le_of_lt (unvisited_mono h1.1.vis) hn)
      revert h2
      cases Res.loop (fun st (r : Nat × Target) => f st r.2) st1 l with
      | ok st2 =>
        simp only []
        rintro ⟨h2, h3⟩
        refine ⟨h1.1.trans h2, fun x hx => ?_⟩
        rcases List.mem_cons.mp hx with rfl | hx
        · exact ⟨h1.2.1.mono h2.out h2.vis, h1.2.2⟩
        · exact h3 x hx
      | _ => exact id
    | err => rw [hr] at h1; exact h1
    | panic => rw [hr] at h1; exact h1
    | stuck => rw [hr] at h1; exact h1

theorem addTargets_spec {o : Obj} {infos : AMap Nat (Str × Nat)} {bin : AMap Str Nat}
    (h : sectionInfos o = some infos) {P : Target → Prop}
    (hP : ∀ u k relocs r, P u → StandsFor o bin u (.inr k) → o.sections.get? k = some relocs → r ∈ relocs → P r.2) :
    ∀ (n : Nat) (st : List Str × List Nat) (t : Target), P t → (∀ k ∈ st.2, k ∈ AMap.keys o.sections) →
      unvisited o st.2 < n →
      match addTargets o infos bin n st t with
      | .ok st' => Ext o bin P st st' ∧ Handled o bin st' t ∧ Valid o bin t
      | .err => ∃ u, P u ∧ ¬ Valid o bin u
      | _ => False
  | 0, st, t, _, _, hn => absurd hn (Nat.not_lt_zero _)
  | n + 1, st, t, ht, hvis, hn => by
    have hs := symOrSect_spec bin h t
    rw [addTargets]
    cases hr : symOrSect o infos bin t with
    | err => rw [hr] at hs; exact ⟨t, ht, hs⟩
    | panic => rw [hr] at hs; exact hs
    | stuck => rw [hr] at hs; exact hs
    | ok x =>
      rw [hr] at hs
      cases x with
      | symbol s =>
        simp only [Res.bind] at hs ⊢
        refine ⟨⟨fun x hx => by simp [hx], fun _ hk => hk, fun x hx => ?_, fun k hk hnk => absurd hk hnk⟩,
          ⟨fun x hx => ?_, fun k hk => ?_⟩, .inl ⟨s, (hs _).mpr rfl⟩⟩
        · simp only [List.mem_append, List.mem_singleton] at hx
          rcases hx with hx | rfl
          · exact .inl hx
          · exact .inr ⟨t, ht, (hs _).mpr rfl⟩
        · cases (hs _).mp hx; simp
        · cases (hs _).mp hk
      | sect k =>
        simp only [Res.bind] at hs ⊢
        have hk : StandsFor o bin t (.inr k) := (hs _).mpr rfl
        by_cases hv : k ∈ st.2
        · rw [if_pos hv]
          simp only []
          exact ⟨.refl st, ⟨fun s hs' => (by cases (hs _).mp hs'), fun j hj => (by cases (hs _).mp hj; exact hv)⟩,
            .inr ⟨k, hk, hvis k hv⟩⟩
        · rw [if_neg hv]
          cases hg : o.sections.get? k with
          | none =>
            simp only []
            refine ⟨t, ht, ?_⟩
            rintro (⟨s, hs'⟩ | ⟨j, hj, hm⟩)
            · cases (hs _).mp hs'
            · cases (hs _).mp hj
              rw [← AMap.get?_isSome_iff, hg] at hm
              cases hm
          | some relocs =>
            simp only []
            have hkey : k ∈ AMap.keys o.sections := by rw [← AMap.get?_isSome_iff, hg]; rfl
            have hlt : unvisited o (k :: st.2) < n := by
              have := unvisited_cons hkey hv
              omega
            have hl := loop_spec (fun st t => addTargets_spec h hP n st t) relocs (st.1, k :: st.2)
              (fun r hr => hP t k relocs r ht hk hg hr) (fun j hj => by
                rcases List.mem_cons.mp hj with rfl | hj
                · exact hkey
                · exact hvis j hj) hlt
            revert hl
            cases Res.loop (fun st (r : Nat × Target) => addTargets o infos bin n st r.2) (st.1, k :: st.2) relocs with
            | ok st' =>
              simp only []
              rintro ⟨he, hall⟩
              refine ⟨⟨he.out, fun j hj => he.vis j (by simp [hj]), he.sound, fun j hj hnj => ?_⟩,
                ⟨fun s hs' => (by cases (hs _).mp hs'), fun j hj => ?_⟩, .inr ⟨k, hk, hkey⟩⟩
              · by_cases hjk : j = k
                · subst hjk; exact ⟨relocs, hg, hall⟩
                · exact he.done j hj (by simp [hjk, hnj])
              · cases (hs _).mp hj; exact he.vis k (by simp)
            | _ => exact id

/-! ## The property -/

/-- Everything that can be reached from a target that is accounted for is accounted for. -/
theorem all_handled {o : Obj} {bin : AMap Str Nat} {st : List Str × List Nat}
    (hdone : ∀ k ∈ st.2, ∃ relocs, o.sections.get? k = some relocs ∧
      ∀ r ∈ relocs, Handled o bin st r.2 ∧ Valid o bin r.2) {t u : Target} (hr : Reaches o bin t u)
    (h : Handled o bin st t ∧ Valid o bin t) : Handled o bin st u ∧ Valid o bin u := by
  induction hr with
  | refl => exact h
  | through h1 h2 h3 _ ih =>
    obtain ⟨relocs, g1, g2⟩ := hdone _ (h.1.2 _ h1)
    rw [h2] at g1
    cases g1
    exact ih (g2 _ h3)

/-- **C30.** For every object file whose symbols are in sections that exist, and every relocation: the search ends; it
fails exactly if a target is met that does not stand for anything; otherwise it finds exactly the symbols that the
targets met stand for. -/
theorem C30_targets (o : Obj) (bin : AMap Str Nat) (infos : AMap Nat (Str × Nat)) (h : sectionInfos o = some infos)
    (t : Target) :
    (∃ l, targets o infos bin t = .ok l ∧ (∀ u, Reaches o bin t u → Valid o bin u) ∧
      ∀ s, s ∈ l ↔ ∃ u, Reaches o bin t u ∧ StandsFor o bin u (.inl s)) ∨
    (targets o infos bin t = .err ∧ ∃ u, Reaches o bin t u ∧ ¬ Valid o bin u) := by
  have hn : unvisited o [] < o.sections.length + 1 := by
    unfold unvisited
    have := List.length_filter_le (fun k => decide (k ∉ ([] : List Nat))) (AMap.keys o.sections)
    simp only [AMap.keys, List.length_map] at this ⊢
    omega
  have hm := addTargets_spec h (P := Reaches o bin t) (fun u k relocs r h1 h2 h3 h4 => h1.snoc h2 h3 h4)
    (o.sections.length + 1) ([], []) t .refl (by simp) hn
  unfold targets
  revert hm
  cases addTargets o infos bin (o.sections.length + 1) ([], []) t with
  | ok st =>
    simp only [Res.bind]
    rintro ⟨he, hh, hv⟩
    have hall : ∀ u, Reaches o bin t u → Handled o bin st u ∧ Valid o bin u :=
      fun u hu => all_handled (fun k hk => he.done k hk (by simp)) hu ⟨hh, hv⟩
    refine .inl ⟨st.1, rfl, fun u hu => (hall u hu).2, fun s => ⟨fun hs => ?_, ?_⟩⟩
    · rcases he.sound s hs with hs | hs
      · cases hs
      · exact hs
    · rintro ⟨u, hu, hs⟩
      exact (hall u hu).1.1 s hs
  | err => intro hm; exact .inr ⟨rfl, hm⟩
  | panic => exact False.elim
  | stuck => exact False.elim

/-- The index is built unless a symbol is defined in a section with an index above those of all sections; then the code
panics. -/
theorem C30_panics (o : Obj) : sectionInfos o = none ↔
    ∃ x ∈ o.symbols, ∃ k, DefinedIn x.2 k ∧ 0 < k ∧ ∀ j ∈ AMap.keys o.sections, j < k := by
  unfold sectionInfos
  rw [addFirsts_none]
  constructor
  · rintro ⟨x, hx, k, hd, hm⟩
    exact ⟨x, hx, k, hd, by omega, fun j hj => Nat.lt_of_le_of_lt (le_maxIndex hj) hm⟩
  · rintro ⟨x, hx, k, hd, h0, hm⟩
    exact ⟨x, hx, k, hd, maxIndex_lt h0 hm⟩

/-! ## Non-vacuity -/

/-- Two anonymous sections that refer to one another; one of them also refers to the external `f`, the other to
`g`, which is defined in section 3 and in the binary. -/
private def demo : Obj where
  symbols := [(0, ⟨str! "f", none, false, 0⟩), (1, ⟨[], some 1, true, 0⟩), (2, ⟨str! "local", some 2, true, 0⟩),
    (3, ⟨[], some 3, true, 0⟩), (4, ⟨str! "h", some 3, true, 8⟩), (5, ⟨str! "g", some 3, true, 4⟩)]
  sections := [(1, [(0, .symbol 2), (8, .symbol 0)]), (2, [(0, .symbol 1), (4, .symbol 3)]), (3, [])]

private def demoBin : AMap Str Nat := [(str! "g", 100), (str! "f", 200)]
private def demoInfos : AMap Nat (Str × Nat) := [(2, (str! "local", 0)), (3, (str! "g", 4))]

example : sectionInfos demo = some demoInfos ∧
    targets demo demoInfos demoBin (.symbol 1) = .ok [str! "g", str! "f"] := ⟨rfl, rfl⟩

example : ∃ u, Reaches demo demoBin (.symbol 1) u ∧ StandsFor demo demoBin u (.inl (str! "g")) := by
  rcases C30_targets demo demoBin demoInfos rfl (.symbol 1) with ⟨l, h, _, hl⟩ | ⟨h, _⟩
  · refine (hl _).mp ?_
    rw [show targets demo demoInfos demoBin (.symbol 1) = .ok [str! "g", str! "f"] from rfl] at h
    cases h
    simp
  · cases h

/-- A symbol in a section that does not exist. -/
example : sectionInfos { symbols := [(0, ⟨str! "f", some 7, true, 0⟩)], sections := [(1, [])] } = none := rfl

end Cackle.Graph
