import Verif.Model.Diff

/-!
# C41, C42: the displayed diff
-/

namespace Cackle.Diff
open Cackle

/-! ## Specification -/

/-- A line that shows a change. -/
def IsChange (line : Str) : Prop := line.head? = some '-' ∨ line.head? = some '+'

instance (line : Str) : Decidable (IsChange line) := by unfold IsChange; infer_instance

/-- A line that shows no change. -/
def IsContext (line : Str) : Prop := line.head? = some ' '

/-- The second list is the first one with some runs of context lines cut out. A cut is marked, except at the end. -/
inductive Trimmed : List Str → List Str → Prop
  | nil : Trimmed [] []
  | keep {line : Str} {a b : List Str} : Trimmed a b → Trimmed (line :: a) (line :: b)
  | cut {run a b : List Str} : run ≠ [] → (∀ l ∈ run, IsContext l) → Trimmed a b → Trimmed (run ++ a) (str! "..." :: b)
  | cutEnd {run : List Str} : (∀ l ∈ run, IsContext l) → Trimmed run []

/-! ## C41 -/

theorem isContext_iff {l : Str} : isContext l = true ↔ IsContext l := by
  unfold isContext IsContext
  exact beq_iff_eq

/-- How blocks lie in lines, which begin at offset `k`. Lines that are in no block have property `P`. -/
inductive Layout (P : Str → Prop) : Nat → List Str → List Block → Prop
  | nil {k : Nat} : Layout P k [] []
  | line {k : Nat} {l : Str} {rest : List Str} {bs : List Block} : P l → Layout P (k + 1) rest bs → Layout P k (l :: rest) bs
  | last {k : Nat} {run : List Str} {b : Block} : run ≠ [] → (∀ l ∈ run, IsContext l) → b.start = k →
      b.length = run.length → b.toTake ≤ b.length → Layout P k run [b]
  | block {k : Nat} {run rest : List Str} {l : Str} {b : Block} {bs : List Block} : run ≠ [] → (∀ l ∈ run, IsContext l) →
      b.start = k → b.length = run.length → b.toTake ≤ b.length → P l → Layout P (k + run.length + 1) rest bs →
      Layout P k (run ++ l :: rest) (b :: bs)

theorem Layout.mono {P Q : Str → Prop} (h : ∀ l, P l → Q l) {k : Nat} {lines : List Str} {bs : List Block}
    (hl : Layout P k lines bs) : Layout Q k lines bs := by
  induction hl with
  | nil => exact .nil
  | line hp _ ih => exact .line (h _ hp) ih
  | last h1 h2 h3 h4 h5 => exact .last h1 h2 h3 h4 h5
  | block h1 h2 h3 h4 h5 h6 _ ih => exact .block h1 h2 h3 h4 h5 (h _ h6) ih

theorem Layout.lines {k : Nat} {rest : List Str} {bs : List Block} : ∀ (run : List Str),
    Layout (fun _ => True) (k + run.length) rest bs → Layout (fun _ => True) k (run ++ rest) bs := by
  intro run
  induction run generalizing k with
  | nil => exact fun h => h
  | cons l run ih =>
    intro h
    refine .line trivial (ih ?_)
    rw [List.length_cons] at h
    rwa [show k + 1 + run.length = k + (run.length + 1) by omega]

theorem Layout.filter {k : Nat} {lines : List Str} {bs : List Block} (h : Layout (fun _ => True) k lines bs) :
    Layout (fun _ => True) k lines (bs.filter (fun b => b.toTake > 0)) := by
  induction h with
  | nil => exact .nil
  | line hp _ ih => exact .line hp ih
  | @last k run b h1 h2 h3 h4 h5 =>
    by_cases hb : b.toTake > 0
    · rw [List.filter_cons_of_pos (by simpa using hb), List.filter_nil]
      exact .last h1 h2 h3 h4 h5
    · rw [List.filter_cons_of_neg (by simpa using hb), List.filter_nil]
      have := Layout.lines (k := k) (bs := []) (rest := []) run .nil
      rwa [List.append_nil] at this
  | @block k run rest l b bs h1 h2 h3 h4 h5 h6 _ ih =>
    by_cases hb : b.toTake > 0
    · rw [List.filter_cons_of_pos (by simpa using hb)]
      exact .block h1 h2 h3 h4 h5 h6 ih
    · rw [List.filter_cons_of_neg (by simpa using hb)]
      exact Layout.lines run (.line trivial ih)

theorem blocksFrom_layout : ∀ (lines : List Str) (k : Nat),
    (Layout (fun l => ¬ IsContext l) k lines (blocksFrom k none lines)) ∧
    ∀ (run : List Str) (b : Block), run ≠ [] → (∀ l ∈ run, IsContext l) → b.start + run.length = k → b.length = run.length →
      b.toTake = 0 → Layout (fun l => ¬ IsContext l) b.start (run ++ lines) (blocksFrom k (some b) lines)
  | [], k => by
    refine ⟨.nil, fun run b h1 h2 h3 h4 h5 => ?_⟩
    rw [List.append_nil]
    exact .last h1 h2 rfl h4 (by omega)
  | l :: lines, k => by
    have ih := blocksFrom_layout lines (k + 1)
    by_cases hc : IsContext l
    · have hc' := isContext_iff.mpr hc
      refine ⟨?_, fun run b h1 h2 h3 h4 h5 => ?_⟩
      · unfold blocksFrom
        rw [if_pos hc']
        exact ih.2 [l] ⟨k, 1, 0⟩ (by simp) (by simpa using hc) rfl rfl rfl
      · unfold blocksFrom
        rw [if_pos hc']
        have := ih.2 (run ++ [l]) { b with length := b.length + 1 } (by simp)
          (fun x hx => by
            rcases List.mem_append.mp hx with hx | hx
            · exact h2 x hx
            · cases List.mem_singleton.mp hx; exact hc)
          (by simp only [List.length_append, List.length_cons, List.length_nil]; omega) (by simp [h4]) h5
        rw [List.append_assoc] at this
        exact this
    · have hc' : isContext l = false := by
        cases h : isContext l
        · rfl
        · exact absurd (isContext_iff.mp h) hc
      refine ⟨?_, fun run b h1 h2 h3 h4 h5 => ?_⟩
      · unfold blocksFrom
        rw [if_neg (by simp [hc'])]
        exact .line hc ih.1
      · unfold blocksFrom
        rw [if_neg (by simp [hc'])]
        refine .block h1 h2 rfl h4 (by omega) hc ?_
        rw [h3]
        exact ih.1

theorem blocksFrom_take : ∀ (lines : List Str) (k : Nat) (cur : Option Block), (∀ b ∈ cur, b.toTake = 0) →
    ∀ b ∈ blocksFrom k cur lines, b.toTake = 0
  | [], _, cur, h => by
    intro b hb
    exact h b (Option.mem_toList.mp hb)
  | l :: lines, k, cur, h => by
    unfold blocksFrom
    split
    · refine blocksFrom_take lines _ _ (fun b hb => ?_)
      cases hb
      cases cur with
      | none => rfl
      | some c => exact h c rfl
    · intro b hb
      rcases List.mem_append.mp hb with hb | hb
      · exact h b (Option.mem_toList.mp hb)
      · exact blocksFrom_take lines _ none (by simp) b hb

/-! ### What is removed -/

/-- The number of lines by which the diff becomes shorter. -/
def saved (bs : List Block) : Nat := (bs.map (fun b => b.toTake - 1)).sum

def leftSum (bs : List Block) : Nat := (bs.map Block.left).sum

theorem maxPos_spec : ∀ (bs : List Block), match maxPos bs with
    | none => bs = []
    | some (i, b) => bs[i]? = some b ∧ ∀ c ∈ bs, c.left ≤ b.left
  | [] => rfl
  | b :: bs => by
    have ih := maxPos_spec bs
    unfold maxPos
    cases h : maxPos bs with
    | none =>
      rw [h] at ih
      simp only [] at ih ⊢
      subst ih
      simp
    | some r =>
      obtain ⟨i, c⟩ := r
      rw [h] at ih
      simp only [] at ih ⊢
      split
      · rename_i heq
        split at heq
        · cases heq
        · cases heq
      · rename_i i' b' heq
        split at heq
        · rename_i hle
          cases heq
          exact ⟨by simpa using ih.1, fun x hx => by
            rcases List.mem_cons.mp hx with rfl | hx
            · exact hle
            · exact ih.2 x hx⟩
        · rename_i hle
          cases heq
          refine ⟨rfl, fun x hx => ?_⟩
          rcases List.mem_cons.mp hx with rfl | hx
          · exact Nat.le_refl _
          · have := ih.2 x hx
            omega

theorem Layout.set {P : Str → Prop} {k : Nat} {lines : List Str} {bs : List Block} (h : Layout P k lines bs) :
    ∀ (i : Nat) (b : Block), bs[i]? = some b → b.left ≠ 0 → Layout P k lines (bs.set i { b with toTake := b.toTake + 1 }) := by
  induction h with
  | nil => exact fun i b hb _ => by simp at hb
  | line hp _ ih => exact fun i b hb hl => .line hp (ih i b hb hl)
  | last h1 h2 h3 h4 h5 =>
    intro i b hb hl
    cases i with
    | zero =>
      cases hb
      unfold Block.left at hl
      exact .last h1 h2 h3 h4 (by simp only []; omega)
    | succ i => simp at hb
  | block h1 h2 h3 h4 h5 h6 h7 ih =>
    intro i b hb hl
    cases i with
    | zero =>
      cases hb
      unfold Block.left at hl
      exact .block h1 h2 h3 h4 (by simp only []; omega) h6 h7
    | succ i => exact .block h1 h2 h3 h4 h5 h6 (ih i b (by simpa using hb) hl)

theorem saved_set : ∀ (bs : List Block) (i : Nat) (b : Block), bs[i]? = some b →
    saved (bs.set i { b with toTake := b.toTake + 1 }) = saved bs + if b.toTake > 0 then 1 else 0
  | [], i, b, h => by simp at h
  | c :: bs, 0, b, h => by
    cases h
    simp only [saved, List.set_cons_zero, List.map_cons, List.sum_cons]
    split <;> omega
  | c :: bs, i + 1, b, h => by
    have := saved_set bs i b (by simpa using h)
    simp only [saved, List.set_cons_succ, List.map_cons, List.sum_cons] at this ⊢
    omega

theorem leftSum_set : ∀ (bs : List Block) (i : Nat) (b : Block), bs[i]? = some b → b.left ≠ 0 →
    leftSum (bs.set i { b with toTake := b.toTake + 1 }) < leftSum bs
  | [], i, b, h, _ => by simp at h
  | c :: bs, 0, b, h, hl => by
    cases h
    simp only [leftSum, List.set_cons_zero, List.map_cons, List.sum_cons]
    unfold Block.left at hl ⊢
    simp only []
    omega
  | c :: bs, i + 1, b, h, hl => by
    have := leftSum_set bs i b (by simpa using h) hl
    simp only [leftSum, List.set_cons_succ, List.map_cons, List.sum_cons] at this ⊢
    omega

theorem reclaim_spec {P : Str → Prop} {lines : List Str} : ∀ (n : Nat) (t : Int) (bs : List Block), Layout P 0 lines bs →
    leftSum bs < n → ∃ bs', reclaim n t bs = some bs' ∧ Layout P 0 lines bs' ∧
      (t + saved bs ≤ saved bs' ∨ ∀ b ∈ bs', b.left = 0) ∧ (t ≤ 0 → bs' = bs)
  | 0, _, _, _, h => absurd h (Nat.not_lt_zero _)
  | n + 1, t, bs, hl, hn => by
    unfold reclaim
    by_cases ht : t ≤ 0
    · rw [if_pos ht]
      exact ⟨bs, rfl, hl, .inl (by omega), fun _ => rfl⟩
    rw [if_neg ht]
    have hm := maxPos_spec bs
    cases h : maxPos bs with
    | none =>
      rw [h] at hm
      subst hm
      exact ⟨_, rfl, hl, .inr (by simp), fun _ => rfl⟩
    | some r =>
      obtain ⟨i, b⟩ := r
      rw [h] at hm
      simp only [] at hm ⊢
      by_cases hb : b.left = 0
      · rw [if_pos hb]
        exact ⟨bs, rfl, hl, .inr (fun c hc => Nat.le_zero.mp (hb ▸ hm.2 c hc)), fun _ => rfl⟩
      · rw [if_neg hb]
        have h1 := leftSum_set bs i b hm.1 hb
        have h2 := saved_set bs i b hm.1
        obtain ⟨bs', e1, e2, e3, _⟩ := reclaim_spec n (if b.toTake > 0 then t - 1 else t) _ (hl.set i b hm.1 hb) (by omega)
        refine ⟨bs', e1, e2, e3.imp (fun h => ?_) id, fun e => absurd e ht⟩
        rw [h2] at h
        split at h <;> omega

/-! ### What is shown -/

theorem emit_nil : ∀ (lines : List Str) (k : Nat), emit k [] lines = lines
  | [], _ => rfl
  | l :: lines, k => by simp only [emit, emit_nil lines]

/-- Lines before a cut. -/
theorem emit_before {b : Block} {bs : List Block} {rest : List Str} : ∀ (run : List Str) (k : Nat),
    k + run.length ≤ b.start + (b.length - b.toTake) / 2 →
    emit k (b :: bs) (run ++ rest) = run ++ emit (k + run.length) (b :: bs) rest
  | [], _, _ => rfl
  | l :: run, k, h => by
    rw [List.length_cons] at h
    simp only [List.cons_append, emit]
    rw [if_pos (by omega), emit_before run (k + 1) (by omega), List.length_cons]
    rw [show k + 1 + run.length = k + (run.length + 1) by omega]

/-- Lines that are cut out. -/
theorem emit_cut {b : Block} {bs : List Block} {rest : List Str} : ∀ (run : List Str) (k : Nat),
    b.start + (b.length - b.toTake) / 2 ≤ k → k + run.length ≤ b.start + (b.length - b.toTake) / 2 + b.toTake →
    emit k (b :: bs) (run ++ rest) = emit (k + run.length) (b :: bs) rest
  | [], _, _, _ => rfl
  | l :: run, k, h, h' => by
    rw [List.length_cons] at h'
    simp only [List.cons_append, emit]
    rw [if_neg (by omega), if_neg (by omega), emit_cut run (k + 1) (by omega) (by omega), List.length_cons]
    rw [show k + 1 + run.length = k + (run.length + 1) by omega]

theorem Trimmed.append {a b : List Str} : ∀ (l : List Str), Trimmed a b → Trimmed (l ++ a) (l ++ b)
  | [], h => h
  | _ :: l, h => .keep (Trimmed.append l h)

theorem Trimmed.refl : ∀ (l : List Str), Trimmed l l
  | [] => .nil
  | _ :: l => .keep (Trimmed.refl l)

/-- The lines of a block: those before, in and after the cut. -/
theorem split_run {run : List Str} {b : Block} (h4 : b.length = run.length) (h5 : b.toTake ≤ b.length) :
    ∃ r1 r2 r3 : List Str, run = r1 ++ r2 ++ r3 ∧ r1.length = (b.length - b.toTake) / 2 ∧ r2.length = b.toTake := by
  refine ⟨run.take ((b.length - b.toTake) / 2), (run.drop ((b.length - b.toTake) / 2)).take b.toTake,
    (run.drop ((b.length - b.toTake) / 2)).drop b.toTake, ?_, ?_, ?_⟩
  · rw [List.append_assoc, List.take_append_drop, List.take_append_drop]
  · rw [List.length_take]; omega
  · rw [List.length_take, List.length_drop]; omega

theorem Layout.le_start {P : Str → Prop} {k : Nat} {lines : List Str} {bs : List Block} (h : Layout P k lines bs) :
    ∀ b ∈ bs, k ≤ b.start := by
  induction h with
  | nil => simp
  | line _ _ ih => exact fun b hb => Nat.le_of_succ_le (ih b hb)
  | last _ _ h3 => exact fun b hb => by cases List.mem_singleton.mp hb; omega
  | block _ _ h3 _ _ _ _ ih =>
    intro b hb
    rcases List.mem_cons.mp hb with rfl | hb
    · omega
    · have := ih b hb
      omega

theorem emit_skip {bs : List Block} {rest run : List Str} {k : Nat} (h : ∀ b ∈ bs, k + run.length ≤ b.start) :
    emit k bs (run ++ rest) = run ++ emit (k + run.length) bs rest := by
  cases bs with
  | nil => rw [emit_nil, emit_nil]
  | cons b bs => exact emit_before run k (Nat.le_trans (h b (by simp)) (Nat.le_add_right _ _))

theorem emit_mark {b : Block} {bs : List Block} {l : Str} {rest : List Str} {k : Nat}
    (h : b.start + (b.length - b.toTake) / 2 + b.toTake ≤ k) :
    emit k (b :: bs) (l :: rest) = str! "..." :: l :: emit (k + 1) bs rest := by
  simp only [emit]
  rw [if_neg (by omega), if_pos h]

theorem emit_spec {k : Nat} {lines : List Str} {bs : List Block} (h : Layout (fun _ => True) k lines bs)
    (hb : ∀ b ∈ bs, b.toTake > 0) :
    Trimmed lines (emit k bs lines) ∧ (emit k bs lines).length + saved bs ≤ lines.length := by
  induction h with
  | nil => exact ⟨.nil, by simp [emit, saved]⟩
  | @line k l rest bs _ hr ih =>
    have := emit_skip (bs := bs) (rest := rest) (run := [l]) (k := k) hr.le_start
    simp only [List.singleton_append, List.length_cons, List.length_nil, Nat.zero_add] at this
    obtain ⟨i1, i2⟩ := ih hb
    rw [this]
    exact ⟨.keep i1, by simp only [List.length_cons]; omega⟩
  | @last k run b h1 h2 h3 h4 h5 =>
    obtain ⟨r1, r2, r3, rfl, hr1, hr2⟩ := split_run h4 h5
    have ht := hb b (by simp)
    have he : emit k [b] (r1 ++ r2 ++ r3) = r1 ++ emit (k + r1.length + r2.length) [b] r3 := by
      rw [List.append_assoc, emit_before r1 k (by omega), emit_cut r2 _ (by omega) (by omega)]
    rw [he]
    have hc : ∀ l ∈ r2, IsContext l := fun l hl => h2 l (by simp [hl])
    cases r3 with
    | nil =>
      refine ⟨?_, ?_⟩
      · rw [List.append_nil]
        exact Trimmed.append r1 (.cutEnd hc)
      · simp only [emit, saved, List.map_cons, List.map_nil, List.sum_cons, List.sum_nil, List.length_append, List.length_nil]
        omega
    | cons x r3 =>
      rw [emit_mark (by omega), emit_nil]
      refine ⟨?_, ?_⟩
      · rw [List.append_assoc]
        exact Trimmed.append r1 (.cut (by rintro rfl; simp at hr2; omega) hc (.refl _))
      · simp only [saved, List.map_cons, List.map_nil, List.sum_cons, List.sum_nil, List.length_append, List.length_cons]
        omega
  | @block k run rest l b bs h1 h2 h3 h4 h5 h6 hl ih =>
    obtain ⟨r1, r2, r3, rfl, hr1, hr2⟩ := split_run h4 h5
    have ht := hb b (by simp)
    obtain ⟨i1, i2⟩ := ih (fun c hc => hb c (by simp [hc]))
    have hlen : (r1 ++ r2 ++ r3).length = r1.length + r2.length + r3.length := by simp [Nat.add_assoc]
    have he : emit k (b :: bs) (r1 ++ r2 ++ r3 ++ l :: rest) = r1 ++ emit (k + r1.length + r2.length) (b :: bs) (r3 ++ l :: rest) := by
      rw [List.append_assoc, List.append_assoc, emit_before r1 k (by omega), emit_cut r2 _ (by omega) (by omega)]
    have hrest : emit (k + r1.length + r2.length) (b :: bs) (r3 ++ l :: rest) =
        str! "..." :: (r3 ++ l :: emit (k + (r1 ++ r2 ++ r3).length + 1) bs rest) := by
      cases r3 with
      | nil =>
        rw [List.nil_append, List.nil_append, emit_mark (by omega),
          show k + (r1 ++ r2 ++ ([] : List Str)).length + 1 = k + r1.length + r2.length + 1 by simp only [List.length_append, List.length_nil]; omega]
      | cons x r3 =>
        have hst := hl.le_start
        have hsk := emit_skip (bs := bs) (rest := rest) (run := r3 ++ [l]) (k := k + r1.length + r2.length + 1) (fun c hc => by
          have := hst c hc
          simp only [List.length_append, List.length_cons, List.length_nil] at this ⊢
          omega)
        rw [List.append_assoc] at hsk
        rw [List.cons_append, emit_mark (by omega)]
        rw [show r3 ++ l :: rest = r3 ++ ([l] ++ rest) from rfl, hsk]
        rw [show k + r1.length + r2.length + 1 + (r3 ++ [l]).length = k + (r1 ++ r2 ++ x :: r3).length + 1 by
          simp only [List.length_append, List.length_cons, List.length_nil]; omega]
        simp only [List.append_assoc, List.cons_append, List.nil_append]
    have hc : ∀ l ∈ r2, IsContext l := fun l hl => h2 l (by simp [hl])
    rw [he, hrest]
    refine ⟨?_, ?_⟩
    · rw [List.append_assoc, List.append_assoc]
      exact Trimmed.append r1 (.cut (by rintro rfl; simp at hr2; omega) hc (Trimmed.append r3 (.keep i1)))
    · simp only [saved, List.map_cons, List.sum_cons, List.length_append, List.length_cons] at i2 ⊢
      omega

/-- If all blocks are cut out, no context is left. -/
theorem emit_none {k : Nat} {lines : List Str} {bs : List Block} (h : Layout (fun l => ¬ IsContext l) k lines bs)
    (hb : ∀ b ∈ bs, b.left = 0) : ∀ l ∈ emit k bs lines, ¬ IsContext l := by
  induction h with
  | nil => simp [emit]
  | @line k l rest bs hp hr ih =>
    have := emit_skip (bs := bs) (rest := rest) (run := [l]) (k := k) hr.le_start
    simp only [List.singleton_append, List.length_cons, List.length_nil, Nat.zero_add] at this
    rw [this]
    intro x hx
    rcases List.mem_cons.mp hx with rfl | hx
    · exact hp
    · exact ih hb x hx
  | @last k run b h1 h2 h3 h4 h5 =>
    have ht := hb b (by simp)
    unfold Block.left at ht
    have := emit_cut (b := b) (bs := []) (rest := []) run k (by omega) (by omega)
    rw [List.append_nil] at this
    rw [this]
    simp [emit]
  | @block k run rest l b bs h1 h2 h3 h4 h5 h6 _ ih =>
    have ht := hb b (by simp)
    unfold Block.left at ht
    rw [emit_cut run k (by omega) (by omega), emit_mark (by omega)]
    intro x hx
    rcases List.mem_cons.mp hx with rfl | hx
    · unfold IsContext; decide
    rcases List.mem_cons.mp hx with rfl | hx
    · exact h6
    · exact ih (fun c hc => hb c (by simp [hc])) x hx

theorem Trimmed.changes {a b : List Str} (h : Trimmed a b) : a.filter (fun l => decide (IsChange l)) = b.filter (fun l => decide (IsChange l)) := by
  have hno : ∀ run : List Str, (∀ l ∈ run, IsContext l) → run.filter (fun l => decide (IsChange l)) = [] := by
    intro run hr
    refine List.filter_eq_nil_iff.mpr (fun l hl => ?_)
    have := hr l hl
    unfold IsContext at this
    intro hd
    have hd := of_decide_eq_true hd
    unfold IsChange at hd
    rw [this] at hd
    exact absurd hd (by decide)
  induction h with
  | nil => rfl
  | keep _ ih =>
    simp only [List.filter_cons, ih]
  | cut _ h2 _ ih =>
    rw [List.filter_append, hno _ h2, List.nil_append, ih, List.filter_cons_of_neg (by decide)]
  | cutEnd h2 => rw [hno _ h2]; rfl

theorem reclaim_mono : ∀ (n : Nat) (t : Int) (bs bs' : List Block), reclaim n t bs = some bs' → reclaim (n + 1) t bs = some bs'
  | 0, _, _, _, h => by cases h
  | n + 1, t, bs, bs', h => by
    unfold reclaim at h ⊢
    by_cases ht : t ≤ 0
    · rw [if_pos ht] at h ⊢; exact h
    rw [if_neg ht] at h ⊢
    cases hm : maxPos bs with
    | none => rw [hm] at h; exact h
    | some r =>
      rw [hm] at h
      simp only [] at h ⊢
      by_cases hb : r.2.left = 0
      · rw [if_pos hb] at h ⊢; exact h
      · rw [if_neg hb] at h ⊢
        exact reclaim_mono n _ _ _ h

/-- **C41.** For all diffs and limits: trimming ends; only runs of context lines are cut out, every change is still there, in
order; and the result is within the limit, or has no context lines any more. If the diff was within the limit, nothing is
removed. -/
theorem C41_trim (maxLines : Int) (lines : List Str) : ∃ n out, (∀ k, n ≤ k → removeExcessContext k maxLines lines = some out) ∧
    Trimmed lines out ∧ lines.filter (fun l => decide (IsChange l)) = out.filter (fun l => decide (IsChange l)) ∧
    (out.length ≤ maxLines ∨ ∀ l ∈ out, ¬ IsContext l) ∧ (lines.length ≤ maxLines → out = lines) := by
  have hlay := (blocksFrom_layout lines 0).1
  have h0 := blocksFrom_take lines 0 none (by simp)
  obtain ⟨bs, hr, hl, hs, hid⟩ := reclaim_spec (leftSum (blocksFrom 0 none lines) + 1) (lines.length - maxLines) _ hlay
    (Nat.lt_succ_self _)
  have hsave : ∀ l : List Block, saved (l.filter (fun b => b.toTake > 0)) = saved l := by
    intro l
    induction l with
    | nil => rfl
    | cons b l ih =>
      by_cases hb : b.toTake > 0
      · rw [List.filter_cons_of_pos (by simpa using hb)]
        simp only [saved, List.map_cons, List.sum_cons] at ih ⊢
        rw [ih]
      · rw [List.filter_cons_of_neg (by simpa using hb), ih]
        simp only [saved, List.map_cons, List.sum_cons]
        omega
  have hz : saved (blocksFrom 0 none lines) = 0 := by
    unfold saved
    generalize blocksFrom 0 none lines = l at h0
    induction l with
    | nil => rfl
    | cons b l ih =>
      rw [List.map_cons, List.sum_cons, ih (fun c hc => h0 c (by simp [hc])), h0 b (by simp)]
  obtain ⟨e1, e2⟩ := emit_spec (hl.mono (fun _ _ => trivial)).filter (fun b hb => by simpa using (List.mem_filter.mp hb).2)
  rw [hsave] at e2
  refine ⟨leftSum (blocksFrom 0 none lines) + 1, emit 0 (bs.filter (fun b => b.toTake > 0)) lines, fun k hk => ?_, e1, e1.changes, ?_, fun hle => ?_⟩
  · unfold removeExcessContext
    have : reclaim k (lines.length - maxLines) (blocksFrom 0 none lines) = some bs := by
      induction hk with
      | refl => exact hr
      | step _ ih => exact reclaim_mono _ _ _ _ ih
    rw [this]
    rfl
  · rcases hs with hs | hs
    · exact .inl (by omega)
    · refine .inr ?_
      have hf : bs.filter (fun b => b.toTake > 0) = bs := by
        refine List.filter_eq_self.mpr (fun b hb => ?_)
        have hpos : ∀ {k : Nat} {ls : List Str} {bs : List Block}, Layout (fun l => ¬ IsContext l) k ls bs → ∀ b ∈ bs, 0 < b.length := by
          intro k ls bs h
          induction h with
          | nil => simp
          | line _ _ ih => exact ih
          | last h1 _ _ h4 => exact fun b hb => by cases List.mem_singleton.mp hb; rw [h4]; exact List.length_pos_iff.mpr h1
          | block h1 _ _ h4 _ _ _ ih =>
            intro b hb
            rcases List.mem_cons.mp hb with rfl | hb
            · rw [h4]; exact List.length_pos_iff.mpr h1
            · exact ih b hb
        have h1 := hpos hl b hb
        have h2 := hs b hb
        unfold Block.left at h2
        exact decide_eq_true (by omega)
      rw [hf]
      exact emit_none hl hs
  · rw [hid (by omega), List.filter_eq_nil_iff.mpr (fun b hb => by simp [h0 b hb]), emit_nil]

/-! Non-vacuity of C41: five of seven context lines are cut out. -/

private def exLines : List Str := [str! " [a]", str! "-x = 1", str! "+x = 2", str! " a", str! " b", str! " c", str! " d", str! " e", str! "+y = 1"]
example : removeExcessContext 20 7 exLines =
    some [str! " [a]", str! "-x = 1", str! "+x = 2", str! " a", str! "...", str! " e", str! "+y = 1"] := by decide +kernel

/-! ## C42 -/

/-- The line of a change, as it is shown. -/
def Item.shown : Item → Str
  | .left s => '-' :: s
  | .both s => ' ' :: s
  | .right s => '+' :: s

def Item.isChange : Item → Bool
  | .both _ => false
  | _ => true

/-- The two files. -/
inductive File where
  | original
  | updated

/-- The sign of lines that are only in this file. -/
def File.sign : File → Char
  | .original => '-'
  | .updated => '+'

/-- The text of an entry, if it is in the file. -/
def File.line : File → Item → Option Str
  | _, .both s => some s
  | .original, .left s => some s
  | .updated, .right s => some s
  | _, _ => none

/-- The text of a displayed line, if it is in the file. -/
def File.shownLine (f : File) : Str → Option Str
  | c :: s => if c = ' ' ∨ c = f.sign then some s else none
  | [] => none

/-- A section header. -/
def IsHeader (s : Str) : Prop := ∃ rest, s = '[' :: rest

/-- The last section header in some lines, if there is one. -/
inductive LastHeader : List Str → Option Str → Prop
  | none {l : List Str} : (∀ s ∈ l, ¬ IsHeader s) → LastHeader l none
  | some {before after : List Str} {s : Str} : IsHeader s → (∀ x ∈ after, ¬ IsHeader x) →
      LastHeader (before ++ s :: after) (some s)

/-- The change is shown after `shownBefore`, and for each file in which its line is, the last header shown before it is the
header of the section in which the line is. -/
def InSection (before : List Item) (c : Item) (out : List Str) : Prop :=
  ∃ shownBefore shownAfter, out = shownBefore ++ c.shown :: shownAfter ∧
    shownBefore.filter (fun l => decide (IsChange l)) = (before.filter Item.isChange).map Item.shown ∧
    ∀ (f : File) (s : Str), f.line c = some s → ∀ h, LastHeader (before.filterMap f.line) h →
      LastHeader (shownBefore.filterMap f.shownLine) h

/-- What users rely on: each change is shown below the header of its section. -/
def C42_Claim : Prop := ∀ (before : List Item) (c : Item) (after : List Item), c.isChange = true →
  InSection before c (diffLines (before ++ c :: after))

/-- An unchanged section header. -/
def Item.isHeader : Item → Bool
  | .both ('[' :: _) => true
  | _ => false

/-- Between two changes that follow each other there are no headers or several. -/
def NotOneHeader (d : List Item) : Prop := ∀ (before run after : List Item) (c c' : Item),
  d = before ++ c :: (run ++ c' :: after) → c.isChange = true → c'.isChange = true → (∀ x ∈ run, x.isChange = false) →
  (run.filter Item.isHeader).length ≠ 1

theorem isSectionStart_iff {s : Str} : isSectionStart s = true ↔ IsHeader s := by
  unfold isSectionStart IsHeader
  cases s with
  | nil => simp
  | cons c s => simp

theorem isHeader_both {s : Str} : (Item.both s).isHeader = isSectionStart s := by
  unfold Item.isHeader isSectionStart
  split
  · rename_i heq
    cases heq
    rfl
  · rename_i hne
    cases s with
    | nil => rfl
    | cons c s =>
      have : c ≠ '[' := fun e => hne s (by rw [e])
      simp [this]

theorem LastHeader.plain {l : List Str} {h : Option Str} {s : Str} (hl : LastHeader l h) (hs : ¬ IsHeader s) :
    LastHeader (l ++ [s]) h := by
  cases hl with
  | none h1 =>
    refine .none (fun x hx => ?_)
    rcases List.mem_append.mp hx with hx | hx
    · exact h1 x hx
    · cases List.mem_singleton.mp hx; exact hs
  | some h1 h2 =>
    rw [List.append_assoc, List.cons_append]
    refine .some h1 (fun x hx => ?_)
    rcases List.mem_append.mp hx with hx | hx
    · exact h2 x hx
    · cases List.mem_singleton.mp hx; exact hs

theorem LastHeader.header {l : List Str} {s : Str} (hs : IsHeader s) : LastHeader (l ++ [s]) (Option.some s) :=
  .some (after := []) hs (by simp)

theorem LastHeader.exists : ∀ (l : List Str), ∃ h, LastHeader l h
  | [] => ⟨_, .none (by simp)⟩
  | s :: l => by
    obtain ⟨h, ih⟩ := LastHeader.exists l
    cases ih with
    | none h1 =>
      by_cases hs : IsHeader s
      · exact ⟨_, .some (before := []) hs h1⟩
      · refine ⟨_, .none (fun x hx => ?_)⟩
        rcases List.mem_cons.mp hx with rfl | hx
        · exact hs
        · exact h1 x hx
    | @some before after x h1 h2 => exact ⟨_, .some (before := s :: before) h1 h2⟩

theorem LastHeader.of_snoc {l : List Str} {s : Str} {h : Option Str} (hl : LastHeader (l ++ [s]) h) :
    (IsHeader s ∧ h = Option.some s) ∨ (¬ IsHeader s ∧ LastHeader l h) := by
  generalize e : l ++ [s] = k at hl
  cases hl with
  | none h1 =>
    subst e
    exact .inr ⟨h1 s (by simp), .none (fun x hx => h1 x (by simp [hx]))⟩
  | @some before after x h1 h2 =>
    rcases List.eq_nil_or_concat after with rfl | ⟨after', y, rfl⟩
    · have := List.append_inj' e rfl
      obtain ⟨rfl, e2⟩ := this
      cases e2
      exact .inl ⟨h1, rfl⟩
    · rw [List.concat_eq_append, ← List.cons_append, ← List.append_assoc] at e
      obtain ⟨rfl, e2⟩ := List.append_inj' e rfl
      cases e2
      exact .inr ⟨h2 _ (by simp), .some h1 (fun z hz => h2 z (by simp [hz]))⟩

/-- What would be shown if a change followed. -/
def St.shown (st : St) : List Str := st.lines ++ st.common.map (' ' :: ·)

/-- The last headers are right. -/
def Good (pre : List Item) (st : St) : Prop :=
  ∀ (f : File) h, LastHeader (pre.filterMap f.line) h → LastHeader (st.shown.filterMap f.shownLine) h

theorem good_header {pre : List Item} {st : St} {s : Str} (hs : IsHeader s) {l : List Str} (he : st.shown = l ++ [' ' :: s]) :
    Good (pre ++ [.both s]) st := by
  intro f h hl
  rw [List.filterMap_append, show [Item.both s].filterMap f.line = [s] by cases f <;> rfl] at hl
  rw [he, List.filterMap_append, show [' ' :: s].filterMap f.shownLine = [s] by cases f <;> rfl]
  rcases hl.of_snoc with ⟨_, rfl⟩ | ⟨hn, _⟩
  · exact .header hs
  · exact absurd hs hn

theorem good_plain {pre : List Item} {st st' : St} {s : Str} (hs : ¬ IsHeader s) (he : st'.shown = st.shown ++ [' ' :: s])
    (hg : Good pre st) : Good (pre ++ [.both s]) st' := by
  intro f h hl
  rw [List.filterMap_append, show [Item.both s].filterMap f.line = [s] by cases f <;> rfl] at hl
  rw [he, List.filterMap_append, show [' ' :: s].filterMap f.shownLine = [s] by cases f <;> rfl]
  rcases hl.of_snoc with ⟨hh, _⟩ | ⟨_, hl⟩
  · exact absurd hh hs
  · exact (hg f h hl).plain hs

theorem shownLine_shown (f : File) (c : Item) : f.shownLine c.shown = f.line c := by
  cases f <;> cases c <;> simp [File.shownLine, Item.shown, File.line, File.sign]

theorem good_change {pre : List Item} {st : St} {c : Item} (hg : Good pre st) : Good (pre ++ [c]) (change st c.shown) := by
  intro f h hl
  have he : (change st c.shown).shown = st.shown ++ [c.shown] := by simp [change, St.shown]
  rw [he]
  rw [List.filterMap_append] at hl ⊢
  have : [c.shown].filterMap f.shownLine = [c].filterMap f.line := by simp [List.filterMap_cons, shownLine_shown]
  rw [this]
  cases hc : f.line c with
  | none =>
    simp only [List.filterMap_cons, hc, List.filterMap_nil, List.append_nil] at hl ⊢
    exact hg f h hl
  | some s =>
    simp only [List.filterMap_cons, hc, List.filterMap_nil] at hl ⊢
    rcases hl.of_snoc with ⟨hh, rfl⟩ | ⟨hh, hl⟩
    · exact .header hh
    · exact (hg f h hl).plain hh

theorem step_change (st : St) {c : Item} (hc : c.isChange = true) : step st c = change st c.shown := by
  cases c with
  | both s => cases hc
  | left s => rfl
  | right s => rfl

/-- The state after some entries. -/
inductive Inv (pre : List Item) (st : St) : Prop
  | fresh : (∀ x ∈ pre, x.isChange = false) → st.afterContext = false → Good pre st → Inv pre st
  | after {before run : List Item} {c : Item} : pre = before ++ c :: run → c.isChange = true →
      (∀ x ∈ run, x.isChange = false) →
      ((run.filter Item.isHeader).length = 0 ∧ st.afterContext = true ∧ st.common = [] ∧ Good pre st ∨
        (run.filter Item.isHeader).length = 1 ∧ st.afterContext = false ∨
        2 ≤ (run.filter Item.isHeader).length ∧ st.afterContext = false ∧ Good pre st) → Inv pre st

theorem NotOneHeader.prefix {d e : List Item} (h : NotOneHeader (d ++ e)) : NotOneHeader d := by
  intro before run after c c' hd
  exact h before run (after ++ e) c c' (by rw [hd]; simp)

theorem Inv.good {pre : List Item} {st : St} {c : Item} (h : Inv pre st) (hc : c.isChange = true) (hn : NotOneHeader (pre ++ [c])) :
    Good pre st := by
  cases h with
  | fresh _ _ hg => exact hg
  | @after before run c0 h1 h2 h3 h4 =>
    rcases h4 with ⟨_, _, _, hg⟩ | ⟨h, _⟩ | ⟨_, _, hg⟩
    · exact hg
    · exact absurd h (hn before run [] c0 c (by rw [h1]; simp) h2 hc h3)
    · exact hg

theorem inv_step {pre : List Item} {st : St} {c : Item} (h : Inv pre st) (hn : NotOneHeader (pre ++ [c])) :
    Inv (pre ++ [c]) (step st c) := by
  by_cases hc : c.isChange = true
  · rw [step_change st hc]
    exact .after (run := []) rfl hc (by simp) (.inl ⟨rfl, rfl, rfl, good_change (h.good hc hn)⟩)
  cases c with
  | left s => exact absurd rfl hc
  | right s => exact absurd rfl hc
  | both s =>
    -- adding to the common lines
    have hcommon : st.afterContext = false → (IsHeader s ∨ Good pre st) → Good (pre ++ [.both s]) (step st (.both s)) := by
      intro ha hg
      by_cases hs : IsHeader s
      · refine good_header hs (l := st.lines) ?_
        simp [step, ha, isSectionStart_iff.mpr hs, St.shown]
      · refine good_plain hs ?_ (hg.resolve_left hs)
        have : isSectionStart s = false := by
          cases h : isSectionStart s
          · rfl
          · exact absurd (isSectionStart_iff.mp h) hs
        simp [step, ha, this, St.shown]
    have hafter : st.afterContext = false → (step st (.both s)).afterContext = false := by
      intro ha
      simp [step, ha]
    cases h with
    | fresh h1 h2 h3 =>
      refine .fresh (fun x hx => ?_) (hafter h2) (hcommon h2 (.inr h3))
      rcases List.mem_append.mp hx with hx | hx
      · exact h1 x hx
      · cases List.mem_singleton.mp hx; rfl
    | @after before run c0 h1 h2 h3 h4 =>
      refine .after (before := before) (run := run ++ [.both s]) (c := c0) (by rw [h1]; simp) h2 (fun x hx => ?_) ?_
      · rcases List.mem_append.mp hx with hx | hx
        · exact h3 x hx
        · cases List.mem_singleton.mp hx; rfl
      rw [List.filter_append, List.length_append]
      by_cases hs : IsHeader s
      · have hs' := isSectionStart_iff.mpr hs
        rw [List.filter_cons_of_pos (by rw [isHeader_both]; exact hs')]
        simp only [List.filter_nil, List.length_cons, List.length_nil]
        rcases h4 with ⟨h4, ha, hcm, hg⟩ | ⟨h4, ha⟩ | ⟨h4, ha, hg⟩
        · refine .inr (.inl ⟨by omega, ?_⟩)
          simp [step, ha, hs']
        · exact .inr (.inr ⟨by omega, hafter ha, hcommon ha (.inl hs)⟩)
        · exact .inr (.inr ⟨by omega, hafter ha, hcommon ha (.inl hs)⟩)
      · have hs' : isSectionStart s = false := by
          cases h : isSectionStart s
          · rfl
          · exact absurd (isSectionStart_iff.mp h) hs
        rw [List.filter_cons_of_neg (by rw [isHeader_both, hs']; simp)]
        simp only [List.filter_nil, List.length_nil, Nat.add_zero]
        rcases h4 with ⟨h4, ha, hcm, hg⟩ | ⟨h4, ha⟩ | ⟨h4, ha, hg⟩
        · refine .inl ⟨h4, by simp [step, ha, hs'], by simp [step, ha, hs', hcm], good_plain hs ?_ hg⟩
          simp [step, ha, hs', St.shown, hcm]
        · exact .inr (.inl ⟨h4, hafter ha⟩)
        · exact .inr (.inr ⟨h4, hafter ha, hcommon ha (.inr hg)⟩)

theorem inv_fold : ∀ (rest pre : List Item) (st : St), Inv pre st → NotOneHeader (pre ++ rest) →
    Inv (pre ++ rest) (rest.foldl step st)
  | [], pre, st, h, _ => by rw [List.append_nil]; exact h
  | c :: rest, pre, st, h, hn => by
    rw [show pre ++ c :: rest = pre ++ [c] ++ rest by simp] at hn ⊢
    exact inv_fold rest (pre ++ [c]) _ (inv_step h hn.prefix) hn

/-! ### Changes -/

theorem shown_isChange (c : Item) : decide (IsChange c.shown) = c.isChange := by
  cases c <;> rfl

theorem common_noChange (l : List Str) : (l.map (' ' :: ·)).filter (fun l => decide (IsChange l)) = [] := by
  refine List.filter_eq_nil_iff.mpr (fun x hx => ?_)
  obtain ⟨y, _, rfl⟩ := List.mem_map.mp hx
  simp [IsChange]

theorem step_changes (st : St) (c : Item) :
    (step st c).lines.filter (fun l => decide (IsChange l)) =
      st.lines.filter (fun l => decide (IsChange l)) ++ ([c].filter Item.isChange).map Item.shown := by
  by_cases hc : c.isChange = true
  · rw [step_change st hc]
    simp only [change, List.filter_append, common_noChange, List.append_nil]
    rw [List.filter_cons_of_pos (by rw [shown_isChange]; exact hc), List.filter_cons_of_pos (by exact hc)]
    rfl
  · cases c with
    | left s => exact absurd rfl hc
    | right s => exact absurd rfl hc
    | both s =>
      rw [List.filter_cons_of_neg (by exact hc)]
      simp only [step]
      split
      · split
        · simp
        · rw [List.filter_append, List.filter_cons_of_neg (by simp [IsChange])]
          simp
      · simp

theorem fold_changes : ∀ (items : List Item) (st : St), (items.foldl step st).lines.filter (fun l => decide (IsChange l)) =
    st.lines.filter (fun l => decide (IsChange l)) ++ (items.filter Item.isChange).map Item.shown
  | [], st => by simp
  | c :: items, st => by
    rw [List.foldl_cons, fold_changes items, step_changes, List.append_assoc, ← List.map_append, ← List.filter_append]
    rfl

theorem fold_grows : ∀ (items : List Item) (st : St), ∃ more, (items.foldl step st).lines = st.lines ++ more
  | [], st => ⟨[], by simp⟩
  | c :: items, st => by
    obtain ⟨more, h⟩ := fold_grows items (step st c)
    have : ∃ m, (step st c).lines = st.lines ++ m := by
      cases c with
      | left s => exact ⟨_, List.append_assoc _ _ _⟩
      | right s => exact ⟨_, List.append_assoc _ _ _⟩
      | both s =>
        simp only [step]
        split
        · split
          · exact ⟨[], by simp⟩
          · exact ⟨_, rfl⟩
        · exact ⟨[], by simp⟩
    obtain ⟨m, hm⟩ := this
    exact ⟨m ++ more, by rw [List.foldl_cons, h, hm, List.append_assoc]⟩

theorem fold_sublist : ∀ (items : List Item) (st : St), (st.afterContext = true → st.common = []) →
    (items.foldl step st).lines.Sublist (st.shown ++ items.map Item.shown)
  | [], st, _ => by simp [St.shown]
  | c :: items, st, hst => by
    have hst' : (step st c).afterContext = true → (step st c).common = [] := by
      cases c with
      | left s => exact fun _ => rfl
      | right s => exact fun _ => rfl
      | both s =>
        simp only [step]
        cases ha : st.afterContext
        · simp [ha]
        · simp only [if_true]
          split
          · simp
          · exact fun _ => hst ha
    refine (fold_sublist items (step st c) hst').trans ?_
    rw [List.map_cons, show st.shown ++ c.shown :: items.map Item.shown = st.shown ++ [c.shown] ++ items.map Item.shown by simp]
    refine List.Sublist.append ?_ (.refl _)
    by_cases hc : c.isChange = true
    · rw [step_change st hc]
      simp [change, St.shown]
    · cases c with
      | left s => exact absurd rfl hc
      | right s => exact absurd rfl hc
      | both s =>
        cases ha : st.afterContext
        · simp only [step, Item.shown, St.shown, ha]
          cases isSectionStart s <;> simp
        · have hcm := hst ha
          cases hs : isSectionStart s <;> simp [step, Item.shown, St.shown, ha, hcm, hs]

/-- **C42.** For all diffs: exactly the changed lines are shown as changes, in order, and all other displayed lines are
unchanged lines at their place. -/
theorem C42_changes (items : List Item) :
    (diffLines items).filter (fun l => decide (IsChange l)) = (items.filter Item.isChange).map Item.shown ∧
      (diffLines items).Sublist (items.map Item.shown) :=
  ⟨by simpa [diffLines] using fold_changes items {}, by simpa [St.shown, diffLines] using fold_sublist items {} (fun h => by cases h)⟩

/-- **C42.** For all diffs in which two changes that follow each other never have exactly one header between them: each
change is shown below the header of its section.

What is missing: changes in sections that follow each other, see `C42_next_section`. -/
theorem C42_headers_partial (before : List Item) (c : Item) (after : List Item) (hc : c.isChange = true)
    (hn : NotOneHeader (before ++ c :: after)) : InSection before c (diffLines (before ++ c :: after)) := by
  have hn' : NotOneHeader (before ++ [c]) := NotOneHeader.prefix (e := after) (by simpa using hn)
  have hinv := inv_fold before [] {} (.fresh (by simp) rfl (fun f h hl => hl)) hn'.prefix
  rw [List.nil_append] at hinv
  have hg := hinv.good hc hn'
  obtain ⟨more, hm⟩ := fold_grows after (step (before.foldl step {}) c)
  refine ⟨(before.foldl step {}).shown, more, ?_, ?_, fun f s _ h hl => hg f h hl⟩
  · unfold diffLines
    rw [List.foldl_append, List.foldl_cons, hm, step_change _ hc]
    simp [change, St.shown]
  · rw [St.shown, List.filter_append, common_noChange, List.append_nil, fold_changes]
    rfl

/-- The header of section `b` is not shown, so that the change in it seems to be in section `a`. -/
theorem C42_next_section : ¬ C42_Claim := by
  intro h
  obtain ⟨sb, sa, h1, h2, h3⟩ := h [.both (str! "[a]"), .right (str! "x"), .both (str! "[b]"), .both (str! "z")]
    (.right (str! "y")) [] rfl
  rw [show diffLines ([.both (str! "[a]"), .right (str! "x"), .both (str! "[b]"), .both (str! "z")] ++ [.right (str! "y")]) =
    [str! " [a]", str! "+x", str! " z", str! "+y"] by rfl] at h1
  have h4 := h3 .updated (str! "y") rfl (some (str! "[b]")) (.some (before := [str! "[a]", str! "x"]) (after := [str! "z"])
    ⟨_, rfl⟩ (by simp [IsHeader]))
  have h5 : sb = [str! " [a]", str! "+x", str! " z"] := by
    rcases sb with _ | ⟨a, _ | ⟨b, _ | ⟨c, _ | ⟨d, sb⟩⟩⟩⟩ <;> simp_all [Item.shown]
  subst h5
  rcases (LastHeader.of_snoc (l := [str! "[a]", str! "x"]) h4) with ⟨⟨_, e⟩, _⟩ | ⟨_, h6⟩
  · cases e
  rcases (LastHeader.of_snoc (l := [str! "[a]"]) h6) with ⟨⟨_, e⟩, _⟩ | ⟨_, h7⟩
  · cases e
  rcases (LastHeader.of_snoc (l := []) h7) with ⟨_, e⟩ | ⟨h8, _⟩
  · cases e
  · exact h8 ⟨_, rfl⟩

/-- The same for what is left after trimming. -/
def C42_TrimmedClaim : Prop := ∀ (before : List Item) (c : Item) (after : List Item) (n : Nat) (maxLines : Int) (out : List Str),
  c.isChange = true → NotOneHeader (before ++ c :: after) →
  removeExcessContext n maxLines (diffLines (before ++ c :: after)) = some out → InSection before c out

/-- Trimming may cut out the header. -/
theorem C42_trimmed : ¬ C42_TrimmedClaim := by
  intro h
  have hn : NotOneHeader [.both (str! "[a]"), .both (str! "x"), .both (str! "y"), .both (str! "z"), .right (str! "q")] := by
    intro before run after c c' h hc hc' hrun
    have h1 := congrArg (fun l => (l.filter Item.isChange).length) h
    simp only [List.filter_append, List.filter_cons, hc, hc', List.length_append, if_true, List.length_cons] at h1
    simp [Item.isChange] at h1
    omega
  obtain ⟨sb, sa, h1, h2, h3⟩ := h [.both (str! "[a]"), .both (str! "x"), .both (str! "y"), .both (str! "z")]
    (.right (str! "q")) [] 20 3 [str! "...", str! " z", str! "+q"] rfl hn (by decide +kernel)
  have h4 := h3 .updated (str! "q") rfl (some (str! "[a]")) (.some (before := []) (after := [str! "x", str! "y", str! "z"])
    ⟨_, rfl⟩ (by simp [IsHeader]))
  have h5 : sb = [str! "...", str! " z"] := by
    rcases sb with _ | ⟨a, _ | ⟨b, _ | ⟨c, sb⟩⟩⟩ <;> simp_all [Item.shown]
  subst h5
  rcases (LastHeader.of_snoc (l := []) h4) with ⟨⟨_, e⟩, _⟩ | ⟨_, h6⟩
  · cases e
  generalize hx : ([] : List Str) = k at h6
  cases h6
  exact absurd hx (by simp)

/-! Non-vacuity of C42: a change in the third section after one in the first. -/

private def exItems : List Item := [.both (str! "[a]"), .right (str! "x"), .both (str! "[b]"), .both (str! "z"), .both (str! "[c]"),
  .left (str! "y")]
example : diffLines exItems = [str! " [a]", str! "+x", str! " [c]", str! "-y"] := rfl
example : NotOneHeader exItems := by
  intro before run after c c' h hc hc' hrun
  rcases before with _ | ⟨_, _ | ⟨_, _ | ⟨_, _ | ⟨_, _ | ⟨_, _ | ⟨_, before⟩⟩⟩⟩⟩⟩ <;>
    simp only [exItems, List.cons_append, List.nil_append, List.cons.injEq] at h
  · obtain ⟨rfl, _⟩ := h; cases hc
  · obtain ⟨_, rfl, h⟩ := h
    rcases run with _ | ⟨_, _ | ⟨_, _ | ⟨_, _ | ⟨_, run⟩⟩⟩⟩ <;>
      simp only [List.cons_append, List.nil_append, List.cons.injEq] at h
    · obtain ⟨rfl, _⟩ := h; cases hc'
    · obtain ⟨_, rfl, _⟩ := h; cases hc'
    · obtain ⟨_, _, rfl, _⟩ := h; cases hc'
    · obtain ⟨rfl, rfl, rfl, _⟩ := h; decide
    · obtain ⟨_, _, _, _, h⟩ := h
      exact absurd h (by simp)
  · obtain ⟨_, _, rfl, _⟩ := h; cases hc
  · obtain ⟨_, _, _, rfl, _⟩ := h; cases hc
  · obtain ⟨_, _, _, _, rfl, _⟩ := h; cases hc
  · obtain ⟨_, _, _, _, _, _, h⟩ := h
    exact absurd h (by simp)
  · obtain ⟨_, _, _, _, _, _, h⟩ := h
    exact absurd h (by simp)

end Cackle.Diff
