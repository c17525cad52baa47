import Verif.Model.Names

/-!
# Lemmas about the demangler: fuel, progress, panics
-/

namespace Cackle.Demangle
open Cackle

/-! ## Splitting texts -/

theorem splitBytes_append : ∀ {n : Nat} {s a b : Str}, splitBytes n s = some (a, b) → s = a ++ b ∧ byteLen a = n
  | 0, s, a, b, h => by
    simp only [splitBytes, Option.some.injEq, Prod.mk.injEq] at h
    obtain ⟨rfl, rfl⟩ := h
    exact ⟨rfl, rfl⟩
  | n + 1, [], a, b, h => by simp [splitBytes] at h
  | n + 1, c :: s, a, b, h => by
    rw [splitBytes] at h
    split at h
    · rename_i hc
      simp only [Option.map_eq_some_iff] at h
      obtain ⟨⟨x, y⟩, h1, h2⟩ := h
      simp only [Prod.mk.injEq] at h2
      obtain ⟨rfl, rfl⟩ := h2
      obtain ⟨e1, e2⟩ := splitBytes_append h1
      refine ⟨by rw [e1]; rfl, ?_⟩
      simp only [byteLen, e2]
      omega
    · cases h

theorem splitBytes_exact : ∀ (a b : Str), splitBytes (byteLen a) (a ++ b) = some (a, b)
  | [], b => by simp [byteLen, splitBytes]
  | c :: a, b => by
    have hc : 0 < c.utf8Size := Char.utf8Size_pos c
    have : byteLen (c :: a) = (c.utf8Size + byteLen a - 1) + 1 := by simp only [byteLen]; omega
    rw [this, List.cons_append, splitBytes, if_pos (by omega)]
    have e : c.utf8Size + byteLen a - 1 + 1 - c.utf8Size = byteLen a := by omega
    rw [e, splitBytes_exact a b]
    rfl

theorem findSplit_eq {c : Char} : ∀ {s a b : Str}, findSplit c s = some (a, b) → s = a ++ c :: b ∧ c ∉ a
  | [], a, b, h => by simp [findSplit] at h
  | d :: s, a, b, h => by
    rw [findSplit] at h
    split at h
    · rename_i hd
      simp only [Option.some.injEq, Prod.mk.injEq] at h
      obtain ⟨rfl, rfl⟩ := h
      exact ⟨by rw [hd]; rfl, by simp⟩
    · rename_i hd
      simp only [Option.map_eq_some_iff] at h
      obtain ⟨⟨x, y⟩, h1, h2⟩ := h
      simp only [Prod.mk.injEq] at h2
      obtain ⟨rfl, rfl⟩ := h2
      obtain ⟨e1, e2⟩ := findSplit_eq h1
      refine ⟨by rw [e1]; rfl, ?_⟩
      simp only [List.mem_cons, not_or]
      exact ⟨fun e => hd e.symm, e2⟩

theorem findSplit_none {c : Char} : ∀ {s : Str}, findSplit c s = none ↔ c ∉ s
  | [] => by simp [findSplit]
  | d :: s => by
    rw [findSplit]
    split
    · rename_i hd; simp [hd]
    · rename_i hd
      have : ¬ c = d := fun e => hd e.symm
      simp [findSplit_none (s := s), this]

theorem digits_append : ∀ (s : Str), (digits s).1 ++ (digits s).2 = s
  | [] => rfl
  | c :: s => by
    rw [digits]
    split
    · simp [digits_append s]
    · rfl

theorem digits_all : ∀ (s : Str), ∀ c ∈ (digits s).1, isDigit c = true
  | [], c, h => by simp [digits] at h
  | d :: s, c, h => by
    rw [digits] at h
    split at h
    · rename_i hd
      simp only [List.mem_cons] at h
      rcases h with rfl | h
      · exact hd
      · exact digits_all s c h
    · simp at h

theorem digits_head : ∀ (s : Str), ∀ c, (digits s).2.head? = some c → isDigit c = false
  | [], c, h => by simp [digits] at h
  | d :: s, c, h => by
    rw [digits] at h
    split at h
    · exact digits_head s c h
    · rename_i hd
      simp only [List.head?_cons, Option.some.injEq] at h
      subst h
      simpa using hd

theorem digits_exact : ∀ (ds rest : Str), (∀ c ∈ ds, isDigit c = true) →
    (∀ c, rest.head? = some c → isDigit c = false) → digits (ds ++ rest) = (ds, rest)
  | [], [], _, _ => rfl
  | [], c :: rest, _, h => by
    rw [List.nil_append, digits, if_neg]
    rw [h c rfl]; simp
  | d :: ds, rest, h1, h2 => by
    rw [List.cons_append, digits, if_pos (h1 d (by simp)), digits_exact ds rest (fun c hc => h1 c (by simp [hc])) h2]

theorem component_ok {outer part rest : Str} (h : component outer = .ok (part, rest)) :
    ∃ ds, outer = ds ++ part ++ rest ∧ ds ≠ [] ∧ (∀ c ∈ ds, isDigit c = true) ∧ decimal ds = byteLen part ∧
      (∀ c, (part ++ rest).head? = some c → isDigit c = false) := by
  unfold component at h
  simp only [] at h
  split at h
  · cases h
  · split at h
    · cases h
    · split at h
      · cases h
      · split at h
        · cases h
        · rename_i h1 h2 h3 h4
          cases hs : splitBytes (decimal (digits outer).1) (digits outer).2 with
          | none => rw [hs] at h; cases h
          | some r =>
            rw [hs] at h
            cases h
            obtain ⟨e1, e2⟩ := splitBytes_append hs
            refine ⟨(digits outer).1, ?_, h2, digits_all outer, e2.symm, ?_⟩
            · rw [List.append_assoc, ← e1, digits_append]
            · rw [← e1]; exact digits_head outer

theorem component_shorter {outer part rest : Str} (h : component outer = .ok (part, rest)) :
    part.length + rest.length < outer.length := by
  obtain ⟨ds, e, hn, _⟩ := component_ok h
  have : 0 < ds.length := List.length_pos_iff.mpr hn
  rw [e]
  simp only [List.length_append]
  omega

theorem component_not_stuck (outer : Str) : component outer ≠ .stuck := by
  unfold component
  simp only []
  repeat' split
  all_goals simp

theorem dropDots_suffix : ∀ (s : Str), dropDots s <:+ s := by
  intro s
  fun_induction dropDots s with
  | case1 s ih => exact ih.trans (List.suffix_cons _ _)
  | case2 s => exact List.suffix_rfl

theorem chunk_append : ∀ (s : Str), (chunk s).1 ++ (chunk s).2 = s
  | [] => rfl
  | c :: s => by
    rw [chunk]
    split
    · rfl
    · simp [chunk_append s]

theorem chunk_suffix (s : Str) : (chunk s).2 <:+ s := ⟨_, chunk_append s⟩

theorem innerNext_suffix (data : Str) (after : Nat) : (innerNext data after).2 <:+ data := by
  unfold innerNext
  simp only []
  have hd := dropDots_suffix data
  generalize dropDots data = d at hd ⊢
  split
  · split
    · rename_i esc r hf
      obtain ⟨e, _⟩ := findSplit_eq hf
      refine List.IsSuffix.trans ?_ hd
      rw [e]
      exact ⟨'$' :: (esc ++ ['$']), by simp⟩
    · exact (chunk_suffix _).trans hd
  · exact (chunk_suffix _).trans hd

/-! ## Fuel of the legacy iterator -/

theorem legacyNext_not_stuck : ∀ (fuel : Nat) (st : Legacy), st.outer.length < fuel → legacyNext fuel st ≠ .stuck := by
  intro fuel
  induction fuel with
  | zero => intro st h; omega
  | succ fuel ih =>
    intro st h
    rw [legacyNext]
    split
    · simp
    · split
      · simp
      · simp
      · rename_i hc; exact absurd hc (component_not_stuck _)
      · rename_i part rest hc
        have := component_shorter hc
        split
        · exact ih _ (by simp only; omega)
        · split
          · exact ih _ (by simp only; omega)
          · simp

/-- More fuel does not change the result. -/
theorem legacyNext_more : ∀ (fuel : Nat) (st : Legacy) (k : Nat), st.outer.length < fuel →
    legacyNext (fuel + k) st = legacyNext fuel st := by
  intro fuel
  induction fuel with
  | zero => intro st k h; omega
  | succ fuel ih =>
    intro st k h
    rw [show fuel + 1 + k = (fuel + k) + 1 by omega, legacyNext, legacyNext]
    split
    · rfl
    · split
      · rfl
      · rfl
      · rfl
      · rename_i part rest hc
        have := component_shorter hc
        split
        · exact ih _ k (by simp only; omega)
        · split
          · exact ih _ k (by simp only; omega)
          · rfl

/-! ## Fuel of the v0 iterator -/

theorem splitBytes_length {n : Nat} {s a b : Str} (h : splitBytes n s = some (a, b)) : a.length + b.length = s.length := by
  rw [(splitBytes_append h).1]; simp

theorem findSplit_shorter {c : Char} {s a b : Str} (h : findSplit c s = some (a, b)) : b.length < s.length := by
  rw [(findSplit_eq h).1]; simp; omega

theorem stripOne_le (c : Char) (s : Str) : (stripOne c s).length ≤ s.length := by
  cases s with
  | nil => simp [stripOne]
  | cons d s => rw [stripOne]; split <;> simp

theorem parseDisambiguator_le {data rest : Str} (h : parseDisambiguator data = some rest) :
    rest.length ≤ data.length := by
  unfold parseDisambiguator at h
  split at h
  · simp only [Option.map_eq_some_iff] at h
    obtain ⟨⟨a, b⟩, h1, rfl⟩ := h
    have := findSplit_shorter h1
    simp only [List.length_cons]
    omega
  · cases h; exact Nat.le_refl _

theorem parseUndisambiguated_shorter {data a b : Str} (h : parseUndisambiguated data = .ok (a, b)) :
    a.length + b.length < data.length := by
  unfold parseUndisambiguated at h
  split at h
  · cases h
  · rename_i len rest hp
    unfold parseDecimal at hp
    simp only [] at hp
    split at hp
    · cases hp
    · split at hp
      · cases hp
      · rename_i hne
        cases hp
        simp only [] at h
        split at h
        · cases hs : splitBytes (decimal (digits (stripOne 'u' data)).1)
            (stripOne '_' (digits (stripOne 'u' data)).2) with
          | none => rw [hs] at h; cases h
          | some r =>
            rw [hs] at h
            cases h
            have h1 := splitBytes_length hs
            have h2 := stripOne_le '_' (digits (stripOne 'u' data)).2
            have h3 := stripOne_le 'u' data
            have h4 := congrArg List.length (digits_append (stripOne 'u' data))
            rw [List.length_append] at h4
            have h5 : 0 < (digits (stripOne 'u' data)).1.length := List.length_pos_iff.mpr hne
            omega
        · cases h

theorem parseIdentifier_shorter {data a b : Str} (h : parseIdentifier data = .ok (a, b)) :
    a.length + b.length < data.length := by
  unfold parseIdentifier at h
  split at h
  · cases h
  · rename_i rest hp
    have := parseDisambiguator_le hp
    have := parseUndisambiguated_shorter h
    omega

theorem parseIdentifier_not_stuck (data : Str) : parseIdentifier data ≠ .stuck := by
  unfold parseIdentifier parseUndisambiguated
  split
  · simp
  · simp only []
    repeat' split
    all_goals simp

theorem skip_spec : ∀ (fuel : Nat),
    (∀ data, 2 * data.length < fuel → skipType fuel data ≠ .stuck ∧
      ∀ r, skipType fuel data = .ok r → r.length < data.length) ∧
    (∀ data, 2 * data.length + 1 < fuel → skipArgs fuel data ≠ .stuck ∧
      ∀ r, skipArgs fuel data = .ok r → r.length < data.length) := by
  intro fuel
  induction fuel with
  | zero => exact ⟨fun _ h => by omega, fun _ h => by omega⟩
  | succ fuel ih =>
    obtain ⟨ihT, ihA⟩ := ih
    constructor
    · intro data h
      cases data with
      | nil => simp [skipType]
      | cons tag rest =>
        simp only [List.length_cons] at h ⊢
        rw [skipType]
        split
        · simp
        split
        · have hs := parseIdentifier_not_stuck rest
          cases hp : parseIdentifier rest with
          | ok r =>
            have := parseIdentifier_shorter (a := r.1) (b := r.2) hp
            refine ⟨by simp, ?_⟩
            intro q hq; cases hq; omega
          | stuck => exact absurd hp hs
          | _ => simp
        split
        · obtain ⟨h1, h2⟩ := ihT rest (by omega)
          exact ⟨h1, fun r hr => by have := h2 r hr; omega⟩
        split
        · obtain ⟨h1, h2⟩ := ihA rest (by omega)
          exact ⟨h1, fun r hr => by have := h2 r hr; omega⟩
        split
        · obtain ⟨h1, h2⟩ := ihT rest (by omega)
          cases hp : skipType fuel rest with
          | ok cur =>
            have h3 := h2 cur hp
            obtain ⟨h4, h5⟩ := ihA cur (by omega)
            exact ⟨h4, fun r hr => by have := h5 r hr; omega⟩
          | stuck => exact absurd hp h1
          | _ => simp
        split
        · refine ⟨by simp, ?_⟩
          intro q hq; cases hq; omega
        split
        · have hs := parseIdentifier_not_stuck (tag :: rest)
          cases hp : parseIdentifier (tag :: rest) with
          | ok r =>
            have := parseIdentifier_shorter (a := r.1) (b := r.2) hp
            simp only [List.length_cons] at this
            refine ⟨by simp, ?_⟩
            intro q hq; cases hq; omega
          | stuck => exact absurd hp hs
          | _ => simp
        · refine ⟨by simp, ?_⟩
          intro q hq; cases hq; omega
    · intro data h
      cases data with
      | nil => simp [skipArgs]
      | cons c rest =>
        simp only [List.length_cons] at h
        rw [skipArgs]
        split
        · refine ⟨by simp, ?_⟩
          intro q hq; cases hq; simp
        · obtain ⟨h1, h2⟩ := ihT (c :: rest) (by simp only [List.length_cons]; omega)
          cases hp : skipType fuel (c :: rest) with
          | ok cur =>
            have h3 := h2 cur hp
            simp only [List.length_cons] at h3 ⊢
            obtain ⟨h4, h5⟩ := ihA cur (by omega)
            exact ⟨h4, fun r hr => by have := h5 r hr; omega⟩
          | stuck => exact absurd hp h1
          | _ => simp

theorem ite_both {α : Type} {Q : α → Prop} {c : Prop} [Decidable c] {a b : α} (ha : Q a) (hb : Q b) :
    Q (if c then a else b) := by
  by_cases h : c
  · rw [if_pos h]; exact ha
  · rw [if_neg h]; exact hb

/-- What is true of the result of a step if it holds `Q` for the data that is left. -/
def V0Step.Holds (Q : Str → Prop) : V0Step → Prop
  | .tok _ s => Q s
  | .again s => Q s
  | _ => True

theorem identStep_spec {data : Str} {e : V0Step} {k : Nat} (hk : data.length ≤ k + 1) (he : e ≠ .stuck)
    (he' : e.Holds (fun s => s.length ≤ k)) :
    identStep data e ≠ .stuck ∧ (identStep data e).Holds (fun s => s.length ≤ k) := by
  unfold identStep
  have hs := parseIdentifier_not_stuck data
  cases hp : parseIdentifier data with
  | ok r =>
    have := parseIdentifier_shorter (a := r.1) (b := r.2) hp
    refine ⟨by simp, ?_⟩
    simp only [V0Step.Holds]
    omega
  | stuck => exact absurd hp hs
  | no => exact ⟨he, he'⟩
  | panic => simp [V0Step.Holds]

/-- A step never lacks fuel and uses up the tag. -/
theorem v0Step_spec (tag : Char) (rest : Str) :
    v0Step tag rest ≠ .stuck ∧ (v0Step tag rest).Holds (fun s => s.length ≤ rest.length) := by
  unfold v0Step
  refine ite_both (Q := fun (st : V0Step) => st ≠ .stuck ∧ st.Holds (fun s => s.length ≤ rest.length)) ?_ ?_
  · simp [V0Step.Holds]
  refine ite_both (Q := fun (st : V0Step) => st ≠ .stuck ∧ st.Holds (fun s => s.length ≤ rest.length)) ?_ ?_
  · exact identStep_spec (by omega) (by simp) trivial
  refine ite_both (Q := fun (st : V0Step) => st ≠ .stuck ∧ st.Holds (fun s => s.length ≤ rest.length)) ?_ ?_
  · unfold nestedStep
    cases rest with
    | nil => simp [V0Step.Holds]
    | cons next rest' =>
      simp only []
      split
      · exact ⟨by simp, by simp [V0Step.Holds]⟩
      split
      · exact ⟨by simp, by simp [V0Step.Holds]⟩
      · exact identStep_spec (by omega) (by simp) (by simp [V0Step.Holds])
  refine ite_both (Q := fun (st : V0Step) => st ≠ .stuck ∧ st.Holds (fun s => s.length ≤ rest.length)) ?_ ?_
  · exact ⟨by simp, Nat.le_refl _⟩
  refine ite_both (Q := fun (st : V0Step) => st ≠ .stuck ∧ st.Holds (fun s => s.length ≤ rest.length)) ?_ ?_
  · unfold implStep
    obtain ⟨h1, h2⟩ := (skip_spec (2 * rest.length + 1)).1 rest (by omega)
    cases hp : skipType (2 * rest.length + 1) rest with
    | ok new => exact ⟨by simp, Nat.le_of_lt (h2 new hp)⟩
    | stuck => exact absurd hp h1
    | no => exact ⟨by simp, Nat.le_refl _⟩
    | panic => simp [V0Step.Holds]
  refine ite_both (Q := fun (st : V0Step) => st ≠ .stuck ∧ st.Holds (fun s => s.length ≤ rest.length)) ?_ ?_
  · refine ⟨by simp, ?_⟩
    cases hp : parseDisambiguator rest with
    | none => exact Nat.le_refl _
    | some d => exact parseDisambiguator_le hp
  refine ite_both (Q := fun (st : V0Step) => st ≠ .stuck ∧ st.Holds (fun s => s.length ≤ rest.length)) ?_ ?_
  · exact ⟨by simp, Nat.le_refl _⟩
  refine ite_both (Q := fun (st : V0Step) => st ≠ .stuck ∧ st.Holds (fun s => s.length ≤ rest.length)) ?_ ?_
  · refine ⟨by simp, ?_⟩
    cases hp : findSplit '_' rest with
    | none => exact Nat.le_refl _
    | some d => exact Nat.le_of_lt (findSplit_shorter (a := d.1) (b := d.2) hp)
  iterate 11
    refine ite_both (Q := fun (st : V0Step) => st ≠ .stuck ∧ st.Holds (fun s => s.length ≤ rest.length)) ?_ ?_
    · exact ⟨by simp, Nat.le_refl _⟩
  refine ite_both (Q := fun (st : V0Step) => st ≠ .stuck ∧ st.Holds (fun s => s.length ≤ rest.length)) ?_ ?_
  · exact identStep_spec (by simp) (by simp) trivial
  · exact ⟨by simp, Nat.le_refl _⟩

/-- The v0 iterator has enough fuel, and each token shortens what remains. -/
theorem v0Next_spec : ∀ (fuel : Nat) (data : Str), data.length < fuel →
    v0Next fuel data ≠ .stuck ∧ ∀ t r, v0Next fuel data = .tok t r → r.length < data.length := by
  intro fuel
  induction fuel with
  | zero => intro _ h; omega
  | succ fuel ih =>
    intro data h
    cases data with
    | nil => simp [v0Next]
    | cons tag rest =>
      simp only [List.length_cons] at h ⊢
      obtain ⟨h1, h2⟩ := v0Step_spec tag rest
      rw [v0Next]
      generalize v0Step tag rest = st at h1 h2
      cases st with
      | stuck => exact absurd rfl h1
      | tok t s =>
        refine ⟨by simp, ?_⟩
        intro t r hr; cases hr
        exact Nat.lt_succ_of_le h2
      | again s =>
        have h2 : s.length ≤ rest.length := h2
        obtain ⟨h3, h4⟩ := ih s (by omega)
        exact ⟨h3, fun t r hr => by have := h4 t r hr; omega⟩
      | _ => simp

/-- More fuel does not change the result. -/
theorem v0Next_more : ∀ (fuel : Nat) (data : Str) (k : Nat), data.length < fuel →
    v0Next (fuel + k) data = v0Next fuel data := by
  intro fuel
  induction fuel with
  | zero => intro _ _ h; omega
  | succ fuel ih =>
    intro data k h
    rw [show fuel + 1 + k = (fuel + k) + 1 by omega]
    cases data with
    | nil => rfl
    | cons tag rest =>
      simp only [List.length_cons] at h
      obtain ⟨_, h2⟩ := v0Step_spec tag rest
      rw [v0Next, v0Next]
      generalize v0Step tag rest = st at h2
      cases st with
      | again s =>
        have h2 : s.length ≤ rest.length := h2
        exact ih s k (by omega)
      | _ => rfl

/-! ## ASCII texts -/

/-- All characters are ASCII. -/
def Ascii (s : Str) : Prop := ∀ c ∈ s, c.toNat < 128

theorem utf8Size_ascii {c : Char} (h : c.toNat < 128) : c.utf8Size = 1 := by
  unfold Char.utf8Size
  have : c.val ≤ 127 := by
    show c.val.toNat ≤ 127
    exact Nat.le_of_lt_succ h
  simp [this]

theorem byteLen_ascii : ∀ {s : Str}, Ascii s → byteLen s = s.length
  | [], _ => rfl
  | c :: s, h => by
    rw [byteLen, utf8Size_ascii (h c (by simp)), byteLen_ascii (fun d hd => h d (by simp [hd])), List.length_cons]
    omega

theorem splitBytes_ascii : ∀ {n : Nat} {s : Str}, Ascii s → n ≤ byteLen s → ∃ r, splitBytes n s = some r
  | 0, s, _, _ => ⟨([], s), by simp [splitBytes]⟩
  | n + 1, [], _, h => by simp [byteLen] at h
  | n + 1, c :: s, ha, h => by
    have hc := utf8Size_ascii (ha c (by simp))
    rw [byteLen, hc] at h
    rw [splitBytes, hc, if_pos (by omega)]
    obtain ⟨r, hr⟩ := splitBytes_ascii (n := n) (s := s) (fun d hd => ha d (by simp [hd])) (by omega)
    exact ⟨(c :: r.1, r.2), by rw [show n + 1 - 1 = n by omega, hr]; rfl⟩

theorem Ascii.of_suffix {a b : Str} (h : Ascii b) (hs : a <:+ b) : Ascii a :=
  fun c hc => h c (hs.subset hc)

theorem component_ascii {outer : Str} (ha : Ascii outer) : component outer ≠ .panic ∧
    ∀ part rest, component outer = .ok (part, rest) → Ascii part ∧ Ascii rest := by
  constructor
  · unfold component
    simp only []
    split
    · simp
    · split
      · simp
      · split
        · simp
        · split
          · simp
          · rename_i h1 h2 h3 h4
            have hd : Ascii (digits outer).2 := ha.of_suffix ⟨_, digits_append outer⟩
            obtain ⟨r, hr⟩ := splitBytes_ascii hd (Nat.le_of_not_lt h4)
            rw [hr]
            simp
  · intro part rest h
    obtain ⟨ds, e, _⟩ := component_ok h
    rw [e] at ha
    exact ⟨fun c hc => ha c (by simp [hc]), fun c hc => ha c (by simp [hc])⟩

theorem legacyNext_ascii : ∀ (fuel : Nat) (st : Legacy), Ascii st.outer → legacyNext fuel st ≠ .panic ∧
    ∀ t s, legacyNext fuel st = .tok t s → Ascii s.outer := by
  intro fuel
  induction fuel with
  | zero => intro st _; simp [legacyNext]
  | succ fuel ih =>
    intro st ha
    rw [legacyNext]
    split
    · refine ⟨by simp, ?_⟩
      intro t s h; cases h; exact ha
    · obtain ⟨h1, h2⟩ := component_ascii ha
      split
      · simp
      · rename_i hc; exact absurd hc h1
      · simp
      · rename_i part rest hc
        have hr := (h2 _ _ hc).2
        split
        · exact ih _ hr
        · split
          · exact ih _ hr
          · refine ⟨by simp, ?_⟩
            intro t s h; cases h; exact hr

theorem stripOne_suffix (c : Char) (s : Str) : stripOne c s <:+ s := by
  cases s with
  | nil => exact List.suffix_rfl
  | cons d s =>
    rw [stripOne]
    split
    · exact List.suffix_cons _ _
    · exact List.suffix_rfl

theorem findSplit_suffix {c : Char} {s a b : Str} (h : findSplit c s = some (a, b)) : b <:+ s := by
  rw [(findSplit_eq h).1]
  exact ⟨a ++ [c], by simp⟩

theorem parseDisambiguator_suffix {data rest : Str} (h : parseDisambiguator data = some rest) : rest <:+ data := by
  unfold parseDisambiguator at h
  split at h
  · simp only [Option.map_eq_some_iff] at h
    obtain ⟨⟨a, b⟩, h1, rfl⟩ := h
    exact (findSplit_suffix h1).trans (List.suffix_cons _ _)
  · cases h; exact List.suffix_rfl

theorem parseIdentifier_ascii {data : Str} (ha : Ascii data) : parseIdentifier data ≠ .panic ∧
    ∀ r, parseIdentifier data = .ok r → Ascii r.2 := by
  unfold parseIdentifier
  split
  · simp
  · rename_i d hd
    have ha := ha.of_suffix (parseDisambiguator_suffix hd)
    unfold parseUndisambiguated
    split
    · simp
    · rename_i len rest hp
      unfold parseDecimal at hp
      simp only [] at hp ⊢
      split at hp
      · cases hp
      · split at hp
        · cases hp
        · cases hp
          have h1 : Ascii (stripOne '_' (digits (stripOne 'u' d)).2) :=
            ha.of_suffix (((stripOne_suffix _ _).trans ⟨_, digits_append _⟩).trans (stripOne_suffix _ _))
          split
          · rename_i hle
            obtain ⟨r, hr⟩ := splitBytes_ascii h1 hle
            rw [hr]
            refine ⟨by simp, ?_⟩
            intro r' hr'
            cases hr'
            exact h1.of_suffix ⟨r.1, ((splitBytes_append (a := r.1) (b := r.2) hr).1).symm⟩
          · simp

theorem skip_ascii : ∀ (fuel : Nat),
    (∀ data, Ascii data → skipType fuel data ≠ .panic ∧ ∀ r, skipType fuel data = .ok r → Ascii r) ∧
    (∀ data, Ascii data → skipArgs fuel data ≠ .panic ∧ ∀ r, skipArgs fuel data = .ok r → Ascii r) := by
  intro fuel
  induction fuel with
  | zero => exact ⟨fun _ _ => by simp [skipType], fun _ _ => by simp [skipArgs]⟩
  | succ fuel ih =>
    obtain ⟨ihT, ihA⟩ := ih
    constructor
    · intro data ha
      cases data with
      | nil => simp [skipType]
      | cons tag rest =>
        have hr : Ascii rest := ha.of_suffix (List.suffix_cons _ _)
        rw [skipType]
        rw [if_neg (by rw [utf8Size_ascii (ha tag (by simp))]; simp)]
        split
        · obtain ⟨h1, h2⟩ := parseIdentifier_ascii hr
          cases hp : parseIdentifier rest with
          | ok r => exact ⟨by simp, fun q hq => by cases hq; exact h2 r hp⟩
          | panic => exact absurd hp h1
          | _ => simp
        split
        · exact ihT rest hr
        split
        · exact ihA rest hr
        split
        · obtain ⟨h1, h2⟩ := ihT rest hr
          cases hp : skipType fuel rest with
          | ok cur => exact ihA cur (h2 cur hp)
          | panic => exact absurd hp h1
          | _ => simp
        split
        · exact ⟨by simp, fun q hq => by cases hq; exact hr⟩
        split
        · obtain ⟨h1, h2⟩ := parseIdentifier_ascii ha
          cases hp : parseIdentifier (tag :: rest) with
          | ok r => exact ⟨by simp, fun q hq => by cases hq; exact h2 r hp⟩
          | panic => exact absurd hp h1
          | _ => simp
        · exact ⟨by simp, fun q hq => by cases hq; exact hr⟩
    · intro data ha
      cases data with
      | nil => simp [skipArgs]
      | cons c rest =>
        rw [skipArgs]
        split
        · exact ⟨by simp, fun q hq => by cases hq; exact ha.of_suffix (List.suffix_cons _ _)⟩
        · obtain ⟨h1, h2⟩ := ihT (c :: rest) ha
          cases hp : skipType fuel (c :: rest) with
          | ok cur => exact ihA cur (h2 cur hp)
          | panic => exact absurd hp h1
          | _ => simp

theorem identStep_ascii {data : Str} {e : V0Step} (ha : Ascii data) (he : e ≠ .panic) (he' : e.Holds Ascii) :
    identStep data e ≠ .panic ∧ (identStep data e).Holds Ascii := by
  unfold identStep
  obtain ⟨h1, h2⟩ := parseIdentifier_ascii ha
  cases hp : parseIdentifier data with
  | ok r => exact ⟨by simp, h2 r hp⟩
  | panic => exact absurd hp h1
  | no => exact ⟨he, he'⟩
  | stuck => simp [V0Step.Holds]

theorem v0Step_ascii {tag : Char} {rest : Str} (ha : Ascii (tag :: rest)) :
    v0Step tag rest ≠ .panic ∧ (v0Step tag rest).Holds Ascii := by
  have hr : Ascii rest := ha.of_suffix (List.suffix_cons _ _)
  unfold v0Step
  rw [if_neg (by rw [utf8Size_ascii (ha tag (by simp))]; simp)]
  refine ite_both (Q := fun (st : V0Step) => st ≠ .panic ∧ st.Holds Ascii) ?_ ?_
  · exact identStep_ascii hr (by simp) trivial
  refine ite_both (Q := fun (st : V0Step) => st ≠ .panic ∧ st.Holds Ascii) ?_ ?_
  · unfold nestedStep
    cases rest with
    | nil => exact ⟨by simp, hr⟩
    | cons next rest' =>
      simp only []
      split
      · exact ⟨by simp, hr.of_suffix (List.suffix_cons _ _)⟩
      split
      · exact ⟨by simp, hr⟩
      · exact identStep_ascii hr (by simp) hr
  refine ite_both (Q := fun (st : V0Step) => st ≠ .panic ∧ st.Holds Ascii) ?_ ?_
  · exact ⟨by simp, hr⟩
  refine ite_both (Q := fun (st : V0Step) => st ≠ .panic ∧ st.Holds Ascii) ?_ ?_
  · unfold implStep
    obtain ⟨h1, h2⟩ := (skip_ascii (2 * rest.length + 1)).1 rest hr
    cases hp : skipType (2 * rest.length + 1) rest with
    | ok new => exact ⟨by simp, h2 new hp⟩
    | panic => exact absurd hp h1
    | no => exact ⟨by simp, hr⟩
    | stuck => simp [V0Step.Holds]
  refine ite_both (Q := fun (st : V0Step) => st ≠ .panic ∧ st.Holds Ascii) ?_ ?_
  · refine ⟨by simp, ?_⟩
    cases hp : parseDisambiguator rest with
    | none => exact hr
    | some d => exact hr.of_suffix (parseDisambiguator_suffix hp)
  refine ite_both (Q := fun (st : V0Step) => st ≠ .panic ∧ st.Holds Ascii) ?_ ?_
  · exact ⟨by simp, hr⟩
  refine ite_both (Q := fun (st : V0Step) => st ≠ .panic ∧ st.Holds Ascii) ?_ ?_
  · refine ⟨by simp, ?_⟩
    cases hp : findSplit '_' rest with
    | none => exact hr
    | some d => exact hr.of_suffix (findSplit_suffix (a := d.1) (b := d.2) hp)
  iterate 11
    refine ite_both (Q := fun (st : V0Step) => st ≠ .panic ∧ st.Holds Ascii) ?_ ?_
    · exact ⟨by simp, hr⟩
  refine ite_both (Q := fun (st : V0Step) => st ≠ .panic ∧ st.Holds Ascii) ?_ ?_
  · exact identStep_ascii ha (by simp) trivial
  · exact ⟨by simp, hr⟩

theorem v0Next_ascii : ∀ (fuel : Nat) (data : Str), Ascii data →
    v0Next fuel data ≠ .panic ∧ ∀ t r, v0Next fuel data = .tok t r → Ascii r := by
  intro fuel
  induction fuel with
  | zero => intro _ _; simp [v0Next]
  | succ fuel ih =>
    intro data ha
    cases data with
    | nil => simp [v0Next]
    | cons tag rest =>
      obtain ⟨h1, h2⟩ := v0Step_ascii ha
      rw [v0Next]
      generalize v0Step tag rest = st at h1 h2
      cases st with
      | panic => exact absurd rfl h1
      | tok t s =>
        refine ⟨by simp, ?_⟩
        intro t r hr; cases hr
        exact h2
      | again s => exact ih s h2
      | _ => simp

/-! ## Iterating -/

theorem toks_mono {σ : Type} (next : σ → Next σ) : ∀ (n : Nat) (s : σ), (toks next n s).2 ≠ .more →
    ∀ k, toks next (n + k) s = toks next n s := by
  intro n
  induction n with
  | zero => intro s h; exact absurd rfl h
  | succ n ih =>
    intro s h k
    rw [show n + 1 + k = (n + k) + 1 by omega, toks, toks]
    rw [toks] at h
    cases hs : next s with
    | tok t s' =>
      rw [hs] at h
      simp only [] at h ⊢
      rw [ih s' h k]
    | _ => rfl

/-- An iteration with a decreasing measure ends. -/
theorem toks_ends {σ : Type} (next : σ → Next σ) (μ : σ → Nat) (I : σ → Prop)
    (hdec : ∀ s t s', I s → next s = .tok t s' → I s' ∧ μ s' < μ s) :
    ∀ (n : Nat) (s : σ), I s → μ s < n → (toks next n s).2 ≠ .more := by
  intro n
  induction n with
  | zero => intro s _ h; omega
  | succ n ih =>
    intro s hi h
    rw [toks]
    cases hs : next s with
    | tok t s' =>
      obtain ⟨h1, h2⟩ := hdec s t s' hi hs
      exact ih s' h1 (by omega)
    | _ => simp

theorem toks_end {σ : Type} (next : σ → Next σ) (I : σ → Prop) (e : End)
    (he : e = .panic ∧ (∀ s, I s → next s ≠ .panic) ∨ e = .stuck ∧ ∀ s, I s → next s ≠ .stuck)
    (hinv : ∀ s t s', I s → next s = .tok t s' → I s') :
    ∀ (n : Nat) (s : σ), I s → (toks next n s).2 ≠ e := by
  intro n
  induction n with
  | zero =>
    intro s _
    rcases he with ⟨rfl, _⟩ | ⟨rfl, _⟩ <;> simp [toks]
  | succ n ih =>
    intro s hi
    rw [toks]
    cases hs : next s with
    | tok t s' => exact ih s' (hinv s t s' hi hs)
    | done => rcases he with ⟨rfl, _⟩ | ⟨rfl, _⟩ <;> simp
    | panic =>
      rcases he with ⟨rfl, h⟩ | ⟨rfl, _⟩
      · exact absurd hs (h s hi)
      · simp
    | stuck =>
      rcases he with ⟨rfl, _⟩ | ⟨rfl, h⟩
      · simp
      · exact absurd hs (h s hi)

/-! ## Progress of the legacy iterator -/

/-- An even number of dollar signs. -/
def EvenDollars (s : Str) : Prop := s.count '$' % 2 = 0

theorem dropDots_count : ∀ (s : Str), (dropDots s).count '$' = s.count '$' := by
  intro s
  fun_induction dropDots s with
  | case1 s ih => rw [ih, List.count_cons]; simp
  | case2 s => rfl

theorem chunk_count : ∀ (s : Str), (chunk s).1.count '$' = 0
  | [] => rfl
  | c :: s => by
    rw [chunk]
    split
    · rfl
    · rename_i h
      simp only [not_or] at h
      rw [List.count_cons, chunk_count s]
      simp [h.2]

theorem chunk_snd_count (s : Str) : (chunk s).2.count '$' = s.count '$' := by
  have h := congrArg (List.count '$') (chunk_append s)
  rw [List.count_append, chunk_count] at h
  omega

theorem dropDots_head : ∀ (s r : Str), dropDots s ≠ '.' :: r := by
  intro s
  fun_induction dropDots s with
  | case1 s ih => exact ih
  | case2 s h => intro r e; exact h r e

/-- With an even number of dollar signs each token makes the component shorter. -/
theorem innerNext_spec {data : Str} {after : Nat} (hne : data ≠ []) (he : EvenDollars data) :
    EvenDollars (innerNext data after).2 ∧ (innerNext data after).2.length < data.length := by
  have hle : (dropDots data).length ≤ data.length := (dropDots_suffix data).length_le
  have hc := dropDots_count data
  have hh := dropDots_head data
  unfold EvenDollars at he
  rw [← hc] at he
  have hpos : 0 < data.length := List.length_pos_iff.mpr hne
  unfold innerNext
  simp only []
  generalize dropDots data = d at *
  have plain : (∀ r, d ≠ '$' :: r) → EvenDollars (chunk d).2 ∧ (chunk d).2.length < data.length := by
    intro hd
    refine ⟨by unfold EvenDollars; rw [chunk_snd_count]; exact he, ?_⟩
    cases d with
    | nil => simpa [chunk] using hpos
    | cons c s =>
      have h1 : ¬ (c = '.' ∨ c = '$') := by
        rintro (rfl | rfl)
        · exact hh s rfl
        · exact hd s rfl
      rw [chunk, if_neg h1]
      have := (chunk_suffix s).length_le
      simp only [List.length_cons] at hle ⊢
      omega
  split
  · rename_i rest
    split
    · rename_i esc r hf
      obtain ⟨e, hne⟩ := findSplit_eq hf
      subst e
      have : esc.count '$' = 0 := List.count_eq_zero.mpr hne
      simp only [List.count_cons, List.count_append, this, beq_self_eq_true, if_true] at he
      refine ⟨by unfold EvenDollars; simp only []; omega, ?_⟩
      simp only [List.length_cons, List.length_append] at hle ⊢
      omega
    · rename_i hf
      have := List.count_eq_zero.mpr (findSplit_none.mp hf)
      simp [List.count_cons, this] at he
  · rename_i h; exact plain h

/-- The length of what is left of a legacy symbol. -/
def Legacy.size (st : Legacy) : Nat := st.outer.length + (st.inner.getD []).length

/-- Progress of the legacy iterator, given an invariant of the outer data that yields components with an even
number of dollar signs. -/
theorem legacyNext_progress (J : Str → Prop)
    (hJ : ∀ outer part rest, J outer → component outer = .ok (part, rest) → EvenDollars part ∧ J rest) :
    ∀ (fuel : Nat) (st : Legacy), J st.outer → EvenDollars (st.inner.getD []) →
      ∀ t s, legacyNext fuel st = .tok t s → (J s.outer ∧ EvenDollars (s.inner.getD [])) ∧ s.size < st.size := by
  intro fuel
  induction fuel with
  | zero => intro st _ _ t s h; simp [legacyNext] at h
  | succ fuel ih =>
    intro st hj he t s h
    rw [legacyNext] at h
    cases hin : (if st.inner = some [] then none else st.inner) with
    | some data =>
      rw [hin] at h
      cases h
      have hd : st.inner = some data ∧ data ≠ [] := by
        split at hin
        · cases hin
        · rename_i hne
          exact ⟨hin, fun e => hne (by rw [hin, e])⟩
      rw [hd.1] at he
      obtain ⟨h1, h2⟩ := innerNext_spec (after := st.outer.length) hd.2 he
      refine ⟨⟨hj, h1⟩, ?_⟩
      simp only [Legacy.size, hd.1, Option.getD_some]
      omega
    | none =>
      rw [hin] at h
      simp only [] at h
      have hsz : st.outer.length ≤ st.size := Nat.le_add_right _ _
      split at h
      · cases h
      · cases h
      · cases h
      · rename_i part rest hc
        have hlen := component_shorter hc
        obtain ⟨hp, hr⟩ := hJ _ _ _ hj hc
        split at h
        · rename_i tail
          have hp' : EvenDollars tail := by
            unfold EvenDollars at hp ⊢
            rw [List.count_cons] at hp
            simpa using hp
          obtain ⟨h1, h2⟩ := ih { outer := rest, inner := some tail } hr hp' t s h
          refine ⟨h1, ?_⟩
          simp only [Legacy.size, Option.getD_some, List.length_cons] at h2 hlen hsz ⊢
          omega
        · split at h
          · obtain ⟨h1, h2⟩ := ih { outer := rest, inner := some part } hr hp t s h
            refine ⟨h1, ?_⟩
            simp only [Legacy.size, Option.getD_some] at h2 hsz ⊢
            omega
          · cases h
            refine ⟨⟨hr, rfl⟩, ?_⟩
            simp only [Legacy.size, Option.getD_none, List.length_nil] at hsz ⊢
            omega

/-! ## Both kinds of symbols -/

theorem Next.map_tok {σ τ : Type} {f : σ → τ} {x : Next σ} {t : Tok} {s : τ} (h : x.map f = .tok t s) :
    ∃ s', x = .tok t s' ∧ s = f s' := by
  cases x with
  | tok t' s' => cases h; exact ⟨s', rfl, rfl⟩
  | _ => cases h

/-- `Iter.next` never lacks fuel. -/
theorem Iter.next_not_stuck (it : Iter) : it.next ≠ .stuck := by
  cases it with
  | v0 r =>
    have := (v0Next_spec (r.length + 1) r (by omega)).1
    rw [Iter.next]
    cases h : v0Next (r.length + 1) r <;> simp_all [Next.map]
  | legacy st =>
    have := legacyNext_not_stuck (st.outer.length + 2) st (by omega)
    rw [Iter.next]
    cases h : legacyNext (st.outer.length + 2) st <;> simp_all [Next.map]
  | empty => simp [Iter.next]

/-- The data that an iterator still has to read is ASCII. -/
def Iter.Ascii : Iter → Prop
  | .v0 r => Demangle.Ascii r
  | .legacy st => Demangle.Ascii st.outer
  | .empty => True

theorem Iter.next_ascii {it : Iter} (ha : it.Ascii) : it.next ≠ .panic ∧ ∀ t s, it.next = .tok t s → s.Ascii := by
  cases it with
  | v0 r =>
    obtain ⟨h1, h2⟩ := v0Next_ascii (r.length + 1) r ha
    rw [Iter.next]
    constructor
    · cases h : v0Next (r.length + 1) r <;> simp_all [Next.map]
    · intro t s e
      obtain ⟨s', e1, rfl⟩ := Next.map_tok e
      exact h2 t s' e1
  | legacy st =>
    obtain ⟨h1, h2⟩ := legacyNext_ascii (st.outer.length + 2) st ha
    rw [Iter.next]
    constructor
    · cases h : legacyNext (st.outer.length + 2) st <;> simp_all [Next.map]
    · intro t s e
      obtain ⟨s', e1, rfl⟩ := Next.map_tok e
      exact h2 t s' e1
  | empty => simp [Iter.next]

theorem Iter.v0_ends (r : Str) : (toks Iter.next (r.length + 1) (.v0 r)).2 ≠ .more := by
  refine toks_ends Iter.next (fun it => match it with | .v0 r => r.length | _ => 0) (fun it => ∃ r, it = .v0 r) ?_
    (r.length + 1) (.v0 r) ⟨r, rfl⟩ (by simp)
  rintro _ t s' ⟨r, rfl⟩ h
  rw [Iter.next] at h
  obtain ⟨s, e1, rfl⟩ := Next.map_tok h
  exact ⟨⟨s, rfl⟩, (v0Next_spec (r.length + 1) r (by omega)).2 t s e1⟩

theorem Iter.legacy_ends (J : Str → Prop)
    (hJ : ∀ outer part rest, J outer → component outer = .ok (part, rest) → EvenDollars part ∧ J rest)
    (outer : Str) (hj : J outer) : (toks Iter.next (outer.length + 1) (.legacy { outer := outer })).2 ≠ .more := by
  refine toks_ends Iter.next (fun it => match it with | .legacy st => st.size | _ => 0)
    (fun it => ∃ st, it = .legacy st ∧ J st.outer ∧ EvenDollars (st.inner.getD [])) ?_
    (outer.length + 1) _ ⟨_, rfl, hj, rfl⟩ (by simp [Legacy.size])
  rintro _ t s' ⟨st, rfl, h1, h2⟩ h
  rw [Iter.next] at h
  obtain ⟨s, e1, rfl⟩ := Next.map_tok h
  obtain ⟨⟨h3, h4⟩, h5⟩ := legacyNext_progress J hJ _ st h1 h2 t s e1
  exact ⟨⟨s, rfl, h3, h4⟩, h5⟩

/-! ## Names that are not mangled -/

theorem dropColons_suffix : ∀ (s : Str), dropColons s <:+ s := by
  intro s
  fun_induction dropColons s with
  | case1 s ih => exact ih.trans (List.suffix_cons _ _)
  | case2 s => exact List.suffix_rfl

theorem word_append : ∀ (s : Str), (word s).1 ++ (word s).2 = s
  | [] => rfl
  | c :: s => by
    rw [word]
    split
    · rfl
    · simp [word_append s]

theorem Plain.next_spec (it : Plain) : it.next ≠ .panic ∧ it.next ≠ .stuck ∧
    ∀ t s, it.next = .tok t s → s.namespace_.length + s.data.length < it.namespace_.length + it.data.length := by
  obtain ⟨ns, data⟩ := it
  unfold Plain.next
  cases ns with
  | cons n rest =>
    refine ⟨by simp, by simp, ?_⟩
    intro t s h; cases h; simp
  | nil =>
    have hl := (dropColons_suffix data).length_le
    simp only []
    generalize dropColons data = d at *
    cases d with
    | nil => simp
    | cons c s =>
      simp only [List.length_cons] at hl ⊢
      split
      · refine ⟨by simp, by simp, ?_⟩
        intro t s h; cases h; simp; omega
      · rename_i hc
        refine ⟨by simp, by simp, ?_⟩
        intro t s' h; cases h
        rw [word, if_neg hc]
        have := congrArg List.length (word_append s)
        rw [List.length_append] at this
        simp
        omega

theorem Plain.ends (it : Plain) :
    (toks Plain.next (it.namespace_.length + it.data.length + 1) it).2 = .fin := by
  have h1 := toks_ends Plain.next (fun it => it.namespace_.length + it.data.length) (fun _ => True)
    (fun s t s' _ h => ⟨trivial, (Plain.next_spec s).2.2 t s' h⟩) _ it trivial (Nat.lt_succ_self _)
  have h2 := toks_end Plain.next (fun _ => True) .panic (Or.inl ⟨rfl, fun s _ => (Plain.next_spec s).1⟩)
    (fun _ _ _ _ _ => trivial) (it.namespace_.length + it.data.length + 1) it trivial
  have h3 := toks_end Plain.next (fun _ => True) .stuck (Or.inr ⟨rfl, fun s _ => (Plain.next_spec s).2.1⟩)
    (fun _ _ _ _ _ => trivial) (it.namespace_.length + it.data.length + 1) it trivial
  cases h : (toks Plain.next (it.namespace_.length + it.data.length + 1) it).2 <;> simp_all

theorem Iter.end_of {it : Iter} {n : Nat} (h : (toks Iter.next n it).2 ≠ .more) :
    (toks Iter.next n it).2 = .fin ∨ (toks Iter.next n it).2 = .panic := by
  have h3 := toks_end Iter.next (fun _ => True) .stuck (Or.inr ⟨rfl, fun s _ => Iter.next_not_stuck s⟩)
    (fun _ _ _ _ _ => trivial) n it trivial
  cases h : (toks Iter.next n it).2 <;> simp_all

end Cackle.Demangle
