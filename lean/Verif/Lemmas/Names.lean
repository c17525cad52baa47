import Verif.Lemmas.Demangle

/-!
# Lemmas about splitting names: termination, stability, panics
-/

namespace Cackle.Names
open Cackle Demangle

/-! ## Measure -/

/-- The number of texts `as`. -/
def asCount : List Tok → Nat
  | [] => 0
  | .text s _ :: rest => (if s = str! "as" then 1 else 0) + asCount rest
  | _ :: rest => asCount rest

/-- The tokens that are still to be read once the iterator has gone back. -/
def base (p : Pos) : List Tok :=
  match p.state with
  | .asSkip _ r => r
  | _ => p.it

/-- An iterator that looks ahead is inside the tokens that it goes back to. -/
def Inv (p : Pos) : Prop := p.it <:+ base p

def phase : State → Nat
  | .asPrefix => 2
  | .asSkip _ _ => 1
  | _ => 0

def active : State → Nat
  | .outputting => 1
  | _ => 0

def measure (p : Pos) : Nat × Nat × Nat := (asCount (base p), phase p.state, 2 * p.it.length + active p.state)

/-- Lexicographic order. -/
def Less (a b : Nat × Nat × Nat) : Prop :=
  a.1 < b.1 ∨ a.1 ≤ b.1 ∧ (a.2.1 < b.2.1 ∨ a.2.1 ≤ b.2.1 ∧ a.2.2 < b.2.2)

theorem asCount_append : ∀ (a b : List Tok), asCount (a ++ b) = asCount a + asCount b
  | [], b => by simp [asCount]
  | t :: a, b => by
    cases t <;> simp [asCount, asCount_append a b] <;> omega

theorem asCount_suffix {a b : List Tok} (h : a <:+ b) : asCount a ≤ asCount b := by
  obtain ⟨t, rfl⟩ := h
  rw [asCount_append]
  omega

/-- An iteration goes on with a smaller measure. -/
def Smaller (p : Pos) : Iteration → Prop
  | .cont q => Inv q ∧ Less (measure q) (measure p) ∧ base q <:+ base p
  | .emit _ q => Inv q ∧ Less (measure q) (measure p) ∧ base q <:+ base p
  | _ => True

theorem less_of_tail {p q : Pos} (hb : asCount (base q) ≤ asCount (base p)) (hp : phase q.state ≤ phase p.state)
    (hl : q.it.length < p.it.length) : Less (measure q) (measure p) := by
  refine Or.inr ⟨hb, Or.inr ⟨hp, ?_⟩⟩
  have : active q.state ≤ 1 := by unfold active; split <;> omega
  simp only [measure]
  omega

theorem onText_smaller {p : Pos} {s : Str} {pos : Nat} {rest : List Tok} (hi : Inv p)
    (hit : p.it = .text s pos :: rest) : Smaller p (onText p s pos rest) := by
  obtain ⟨it, state, bd, af⟩ := p
  simp only at hit
  subst hit
  -- going on in the same state
  have same : Inv { it := rest, state := state, braceDepth := bd, asFinal := af } ∧
      Less (measure { it := rest, state := state, braceDepth := bd, asFinal := af })
        (measure { it := .text s pos :: rest, state := state, braceDepth := bd, asFinal := af }) ∧
      base { it := rest, state := state, braceDepth := bd, asFinal := af } <:+
        base { it := .text s pos :: rest, state := state, braceDepth := bd, asFinal := af } := by
    cases state with
    | asSkip d r =>
      have hi : Tok.text s pos :: rest <:+ r := hi
      exact ⟨(List.suffix_cons _ _).trans hi, less_of_tail (Nat.le_refl _) (Nat.le_refl _) (by simp), List.suffix_rfl⟩
    | _ =>
      exact ⟨List.suffix_rfl, less_of_tail (asCount_suffix (List.suffix_cons _ _)) (Nat.le_refl _) (by simp),
        List.suffix_cons _ _⟩
  unfold onText
  simp only []
  split
  · exact same
  split
  · exact same
  split
  · exact same
  split
  · rename_i has
    refine ⟨List.suffix_rfl, Or.inl ?_, ?_⟩
    rotate_left
    · refine List.IsSuffix.trans ?_ hi
      exact (List.tail_suffix _).trans (List.suffix_cons _ _)
    have h1 : asCount rest.tail ≤ asCount rest := asCount_suffix (List.tail_suffix _)
    have h2 : asCount (Tok.text s pos :: rest) = 1 + asCount rest := by simp [asCount, has.1]
    simp only [measure, base]
    cases state with
    | asSkip d r =>
      have := asCount_suffix (show Tok.text s pos :: rest <:+ r from hi)
      simp only
      omega
    | _ => simp only; omega
  split
  · exact same
  split
  · exact same
  cases state with
  | inactive =>
    exact ⟨List.suffix_rfl, less_of_tail (asCount_suffix (List.suffix_cons _ _)) (Nat.le_refl _) (by simp),
      List.suffix_cons _ _⟩
  | _ => exact same

theorem onChar_smaller {e : End} {p : Pos} {c : Char} {rest : List Tok} (hi : Inv p)
    (hit : p.it = .char c :: rest) : Smaller p (onChar e p c rest) := by
  obtain ⟨it, state, bd, af⟩ := p
  simp only at hit
  subst hit
  unfold onChar
  have back : ∀ (x : NameTok) (r : List Tok) (af' : Option (Str × Nat)) (st : State) (bd' : Int),
      (st = .inactive ∨ st = .outputting) →
      r <:+ (base { it := .char c :: rest, state := state, braceDepth := bd, asFinal := af }) →
      0 < phase state → Smaller { it := .char c :: rest, state := state, braceDepth := bd, asFinal := af }
        (.emit x { it := r, state := st, braceDepth := bd', asFinal := af' }) := by
    intro x r af' st bd' hst hb hp
    rcases hst with rfl | rfl
    · exact ⟨List.suffix_rfl, Or.inr ⟨asCount_suffix hb, Or.inl hp⟩, hb⟩
    · exact ⟨List.suffix_rfl, Or.inr ⟨asCount_suffix hb, Or.inl hp⟩, hb⟩
  cases state with
  | inactive =>
    simp only [charState]
    exact ⟨List.suffix_rfl, less_of_tail (asCount_suffix (List.suffix_cons _ _)) (Nat.le_refl _) (by simp),
      List.suffix_cons _ _⟩
  | outputting =>
    simp only [charState]
    exact ⟨List.suffix_rfl, less_of_tail (asCount_suffix (List.suffix_cons _ _)) (Nat.le_refl _) (by simp),
      List.suffix_cons _ _⟩
  | asPrefix =>
    simp only [charState]
    have hb : rest <:+ base { it := .char c :: rest, state := .asPrefix, braceDepth := bd, asFinal := af } :=
      List.suffix_cons _ _
    split
    · split
      · exact back _ _ _ _ _ (Or.inr rfl) hb (by simp [phase])
      · split
        · exact back _ _ _ _ _ (Or.inl rfl) hb (by simp [phase])
        · split <;> trivial
      · exact back _ _ _ _ _ (Or.inl rfl) hb (by simp [phase])
    · exact ⟨List.suffix_rfl, Or.inr ⟨asCount_suffix hb, Or.inl (by simp [measure, phase])⟩, hb⟩
  | asSkip d r =>
    have hi : Tok.char c :: rest <:+ r := hi
    have hi' : rest <:+ r := (List.suffix_cons _ _).trans hi
    simp only [charState]
    split
    · split
      · exact back _ _ _ _ _ (Or.inr rfl) List.suffix_rfl (by simp [phase])
      · split
        · exact back _ _ _ _ _ (Or.inl rfl) List.suffix_rfl (by simp [phase])
        · split <;> trivial
      · exact back _ _ _ _ _ (Or.inl rfl) List.suffix_rfl (by simp [phase])
    · exact ⟨hi', less_of_tail (Nat.le_refl _) (Nat.le_refl _) (by simp), List.suffix_rfl⟩

theorem iterate_smaller {e : End} {p : Pos} (hi : Inv p) : Smaller p (iterate e p) := by
  unfold iterate
  split
  · rename_i s pos rest h; exact onText_smaller hi h
  · rename_i c rest h; exact onChar_smaller hi h
  · rename_i s rest h
    obtain ⟨it, state, bd, af⟩ := p
    simp only at h
    subst h
    cases state with
    | asSkip d r =>
      have hi : Tok.unsupported s :: rest <:+ r := hi
      exact ⟨(List.suffix_cons _ _).trans hi, less_of_tail (Nat.le_refl _) (Nat.le_refl _) (by simp), List.suffix_rfl⟩
    | _ =>
      exact ⟨List.suffix_rfl, less_of_tail (asCount_suffix (List.suffix_cons _ _)) (Nat.le_refl _) (by simp),
      List.suffix_cons _ _⟩
  · rename_i h
    obtain ⟨it, state, bd, af⟩ := p
    simp only at h
    subst h
    cases e with
    | fin =>
      cases state with
      | outputting =>
        refine ⟨List.suffix_rfl, Or.inr ⟨Nat.le_refl _, Or.inr ⟨Nat.le_refl _, ?_⟩⟩, List.suffix_rfl⟩
        simp [measure, active]
      | _ => trivial
    | _ => trivial

theorem less_wf {Q : Nat × Nat × Nat → Prop} (h : ∀ a, (∀ b, Less b a → Q b) → Q a) : ∀ a, Q a := by
  have key : ∀ A B C a, a.1 ≤ A → (a.1 < A ∨ a.2.1 ≤ B) → (a.1 < A ∨ a.2.1 < B ∨ a.2.2 ≤ C) → Q a := by
    intro A
    induction A using Nat.strongRecOn with
    | _ A ihA =>
      intro B
      induction B using Nat.strongRecOn with
      | _ B ihB =>
        intro C
        induction C using Nat.strongRecOn with
        | _ C ihC =>
          intro a h1 h2 h3
          apply h
          intro b hb
          by_cases hA : b.1 < A
          · exact ihA b.1 hA b.2.1 b.2.2 b (Nat.le_refl _) (Or.inr (Nat.le_refl _)) (Or.inr (Or.inr (Nat.le_refl _)))
          · have e1 : a.1 = A ∧ b.1 = A := by unfold Less at hb; omega
            by_cases hB : b.2.1 < B
            · exact ihB b.2.1 hB b.2.2 b (by omega) (Or.inr (Nat.le_refl _)) (Or.inr (Or.inr (Nat.le_refl _)))
            · have e2 : a.2.1 = B ∧ b.2.1 = B := by unfold Less at hb; omega
              have e3 : b.2.2 < C := by unfold Less at hb; omega
              exact ihC b.2.2 e3 b (by omega) (by omega) (by omega)
  intro a
  exact key a.1 a.2.1 a.2.2 a (Nat.le_refl _) (Or.inr (Nat.le_refl _)) (Or.inr (Or.inr (Nat.le_refl _)))

/-! ## Termination -/

theorem iterate_known {e : End} (he : e = .fin ∨ e = .panic) (p : Pos) : iterate e p ≠ .unknown := by
  unfold iterate onText onChar
  simp only []
  rcases he with rfl | rfl
  · repeat' split
    all_goals simp_all
  · repeat' split
    all_goals simp_all

theorem drain_ends {e : End} (he : e = .fin ∨ e = .panic) : ∀ (p : Pos), Inv p → ∃ n, drain e n p ≠ none := by
  have := less_wf (Q := fun a => ∀ p, Inv p → measure p = a → ∃ n, drain e n p ≠ none) (by
    intro a ih p hi hp
    subst hp
    have hs := iterate_smaller (e := e) hi
    have hk := iterate_known he p
    cases hit : iterate e p with
    | cont q =>
      rw [hit] at hs
      obtain ⟨n, hn⟩ := ih _ hs.2.1 q hs.1 rfl
      exact ⟨n + 1, by rw [drain, hit]; exact hn⟩
    | emit t q =>
      rw [hit] at hs
      cases t with
      | part s =>
        obtain ⟨n, hn⟩ := ih _ hs.2.1 q hs.1 rfl
        exact ⟨n + 1, by rw [drain, hit]; exact hn⟩
      | _ => exact ⟨1, by rw [drain, hit]; simp⟩
    | unknown => exact absurd hit hk
    | _ => exact ⟨1, by rw [drain, hit]; simp⟩)
  exact fun p hi => this _ p hi rfl

theorem collect_ends {e : End} (he : e = .fin ∨ e = .panic) :
    ∀ (p : Pos), Inv p → ∀ current done, ∃ n, collect e n p current done ≠ none := by
  have := less_wf (Q := fun a => ∀ p, Inv p → measure p = a → ∀ current done, ∃ n, collect e n p current done ≠ none) (by
    intro a ih p hi hp current done
    subst hp
    have hs := iterate_smaller (e := e) hi
    have hk := iterate_known he p
    cases hit : iterate e p with
    | cont q =>
      rw [hit] at hs
      obtain ⟨n, hn⟩ := ih _ hs.2.1 q hs.1 rfl current done
      exact ⟨n + 1, by rw [collect, hit]; exact hn⟩
    | emit t q =>
      rw [hit] at hs
      cases t with
      | part s =>
        obtain ⟨n, hn⟩ := ih _ hs.2.1 q hs.1 rfl (current ++ [s]) done
        exact ⟨n + 1, by rw [collect, hit]; exact hn⟩
      | endName =>
        obtain ⟨n, hn⟩ := ih _ hs.2.1 q hs.1 rfl [] (done ++ [current])
        exact ⟨n + 1, by rw [collect, hit]; exact hn⟩
      | error =>
        obtain ⟨n, hn⟩ := drain_ends he q hs.1
        exact ⟨n + 1, by rw [collect, hit]; exact hn⟩
    | unknown => exact absurd hit hk
    | _ => exact ⟨1, by rw [collect, hit]; simp⟩)
  exact fun p hi => this _ p hi rfl

theorem drain_mono {e : End} : ∀ (n : Nat) (p : Pos) (r : Result), drain e n p = some r →
    ∀ k, drain e (n + k) p = some r := by
  intro n
  induction n with
  | zero => intro p r h; simp [drain] at h
  | succ n ih =>
    intro p r h k
    rw [show n + 1 + k = (n + k) + 1 by omega]
    rw [drain] at h ⊢
    cases hit : iterate e p with
    | cont q => rw [hit] at h; exact ih q r h k
    | emit t q =>
      rw [hit] at h
      cases t with
      | part s => exact ih q r h k
      | _ => exact h
    | _ => rw [hit] at h; exact h

theorem collect_mono {e : End} : ∀ (n : Nat) (p : Pos) (current : List Str) (done : List (List Str)) (r : Result),
    collect e n p current done = some r → ∀ k, collect e (n + k) p current done = some r := by
  intro n
  induction n with
  | zero => intro p c d r h; simp [collect] at h
  | succ n ih =>
    intro p c d r h k
    rw [show n + 1 + k = (n + k) + 1 by omega]
    rw [collect] at h ⊢
    cases hit : iterate e p with
    | cont q => rw [hit] at h; exact ih q _ _ r h k
    | emit t q =>
      rw [hit] at h
      cases t with
      | part s => exact ih q _ _ r h k
      | endName => exact ih q _ _ r h k
      | error => exact drain_mono n q r h k
    | _ => rw [hit] at h; exact h

/-- If the tokens end then the names do, and the result does not depend on the bound. -/
theorem namesOf_ends {σ : Type} (next : σ → Next σ) (s : σ) (n : Nat)
    (hfin : (toks next n s).2 = .fin ∨ (toks next n s).2 = .panic) :
    ∃ r n₀, ∀ m, n₀ ≤ m → namesOf next m s = some r := by
  obtain ⟨k, hk⟩ := collect_ends hfin { it := (toks next n s).1 } List.suffix_rfl [] []
  obtain ⟨r, hr⟩ := Option.ne_none_iff_exists'.mp hk
  refine ⟨r, n + k, fun m hm => ?_⟩
  obtain ⟨j, rfl⟩ : ∃ j, m = n + j := ⟨m - n, by omega⟩
  unfold namesOf
  have hmore : (toks next n s).2 ≠ .more := by rcases hfin with h | h <;> rw [h] <;> simp
  rw [toks_mono next n s hmore j]
  have := collect_mono k _ _ _ r hr (n + j - k)
  rw [show k + (n + j - k) = n + j by omega] at this
  exact this

/-- From a finished computation. -/
theorem namesOf_of {σ : Type} (next : σ → Next σ) (s : σ) (l : List Tok) (n k : Nat) (r : Result)
    (ht : toks next n s = (l, .fin)) (hc : collect .fin k { it := l } [] [] = some r) :
    ∃ n₀, ∀ m, n₀ ≤ m → namesOf next m s = some r := by
  refine ⟨n + k, fun m hm => ?_⟩
  obtain ⟨j, rfl⟩ : ∃ j, m = n + j := ⟨m - n, by omega⟩
  unfold namesOf
  rw [toks_mono next n s (by rw [ht]; simp) j, ht]
  have := collect_mono k _ _ _ r hc (n + j - k)
  rw [show k + (n + j - k) = n + j by omega] at this
  exact this

/-! ## Stability -/

/-- The same position with more tokens at the end. -/
def State.ext (x : List Tok) : State → State
  | .asSkip d r => .asSkip d (r ++ x)
  | s => s

def Pos.ext (x : List Tok) (p : Pos) : Pos := { p with it := p.it ++ x, state := p.state.ext x }

def Iteration.ext (x : List Tok) : Iteration → Iteration
  | .cont p => .cont (p.ext x)
  | .emit t p => .emit t (p.ext x)
  | i => i

/-- An iteration that looks at the last token that is known. -/
def Last : Iteration → Prop
  | .cont q => q.it = []
  | .emit (.part _) q => q.it = []
  | .unknown => True
  | _ => False

theorem charState_ext (x : List Tok) (c : Char) (rest : List Tok) (st : State) :
    charState c (rest ++ x) (st.ext x) = (charState c rest st).ext x := by
  cases st <;> rfl

theorem onText_ext (x : List Tok) (p : Pos) (s : Str) (pos : Nat) (rest : List Tok) :
    onText (p.ext x) s pos (rest ++ x) = (onText p s pos rest).ext x ∨ Last (onText p s pos rest) := by
  obtain ⟨it, state, bd, af⟩ := p
  cases rest with
  | nil =>
    refine .inr ?_
    unfold onText
    simp only []
    repeat' split
    all_goals simp_all [Last]
  | cons a l =>
    refine .inl ?_
    unfold onText
    simp only [Pos.ext, List.cons_append, List.head?_cons, reduceCtorEq, and_false, if_false, List.tail_cons]
    split
    · rfl
    split
    · rfl
    split
    · rfl
    split
    · rfl
    split
    · rfl
    cases state <;> rfl

theorem onChar_ext (x : List Tok) (e : End) (p : Pos) (c : Char) (rest : List Tok) :
    onChar e (p.ext x) c (rest ++ x) = (onChar .more p c rest).ext x ∨ Last (onChar .more p c rest) := by
  obtain ⟨it, state, bd, af⟩ := p
  unfold onChar
  simp only [Pos.ext, charState_ext]
  cases hc : charState c rest state with
  | inactive => exact .inl rfl
  | outputting => exact .inl rfl
  | asPrefix => exact .inl rfl
  | asSkip d r =>
    simp only [State.ext]
    by_cases hd : d = 0
    · subst hd
      cases rest with
      | nil => exact .inr trivial
      | cons a l => cases a <;> exact .inl rfl
    · simp only [hd, if_false]
      exact .inl rfl

theorem iterate_ext (x : List Tok) (e : End) (p : Pos) :
    iterate e (p.ext x) = (iterate .more p).ext x ∨ Last (iterate .more p) := by
  cases hit : p.it with
  | nil =>
    refine .inr ?_
    unfold iterate
    rw [hit]
    trivial
  | cons a l =>
    have he : (p.ext x).it = a :: (l ++ x) := by simp [Pos.ext, hit]
    unfold iterate
    rw [hit, he]
    cases a with
    | text s pos => exact onText_ext x p s pos l
    | char c => exact onChar_ext x e p c l
    | unsupported s => exact .inl rfl

theorem iterate_empty {p : Pos} (h : p.it = []) : iterate .more p = .unknown := by
  unfold iterate
  rw [h]

theorem drain_empty {p : Pos} (h : p.it = []) : ∀ n, drain .more n p = none
  | 0 => rfl
  | n + 1 => by rw [drain, iterate_empty h]

theorem collect_empty {p : Pos} (h : p.it = []) (current : List Str) (done : List (List Str)) :
    ∀ n, collect .more n p current done = none
  | 0 => rfl
  | n + 1 => by rw [collect, iterate_empty h]

theorem drain_ext (x : List Tok) (e : End) : ∀ (n : Nat) (p : Pos) (r : Result), drain .more n p = some r →
    drain e n (p.ext x) = some r := by
  intro n
  induction n with
  | zero => intro p r h; cases h
  | succ n ih =>
    intro p r h
    rw [drain] at h ⊢
    rcases iterate_ext x e p with hx | hx
    · rw [hx]
      cases hit : iterate .more p with
      | cont q => rw [hit] at h; exact ih q r h
      | emit t q =>
        rw [hit] at h
        cases t with
        | part s => exact ih q r h
        | _ => exact h
      | _ => rw [hit] at h; exact h
    · cases hit : iterate .more p with
      | cont q => rw [hit] at h hx; simp only [] at h; rw [drain_empty hx] at h; cases h
      | emit t q =>
        rw [hit] at h hx
        cases t with
        | part s => simp only [] at h; rw [drain_empty hx] at h; cases h
        | _ => cases hx
      | unknown => rw [hit] at h; cases h
      | _ => rw [hit] at hx; cases hx

theorem collect_ext (x : List Tok) (e : End) : ∀ (n : Nat) (p : Pos) (current : List Str) (done : List (List Str))
    (r : Result), collect .more n p current done = some r → collect e n (p.ext x) current done = some r := by
  intro n
  induction n with
  | zero => intro p _ _ r h; cases h
  | succ n ih =>
    intro p c d r h
    rw [collect] at h ⊢
    rcases iterate_ext x e p with hx | hx
    · rw [hx]
      cases hit : iterate .more p with
      | cont q => rw [hit] at h; exact ih q _ _ r h
      | emit t q =>
        rw [hit] at h
        cases t with
        | part s => exact ih q _ _ r h
        | endName => exact ih q _ _ r h
        | error => exact drain_ext x e n q r h
      | _ => rw [hit] at h; exact h
    · cases hit : iterate .more p with
      | cont q => rw [hit] at h hx; simp only [] at h; rw [collect_empty hx] at h; cases h
      | emit t q =>
        rw [hit] at h hx
        cases t with
        | part s => simp only [] at h; rw [collect_empty hx] at h; cases h
        | _ => cases hx
      | unknown => rw [hit] at h; cases h
      | _ => rw [hit] at hx; cases hx

theorem toks_prefix {σ : Type} (next : σ → Next σ) : ∀ (n : Nat) (s : σ) (k : Nat),
    ∃ x, (toks next (n + k) s).1 = (toks next n s).1 ++ x := by
  intro n
  induction n with
  | zero => intro s k; exact ⟨_, rfl⟩
  | succ n ih =>
    intro s k
    rw [show n + 1 + k = (n + k) + 1 by omega, toks, toks]
    cases hs : next s with
    | tok t s' =>
      obtain ⟨x, hx⟩ := ih s' k
      exact ⟨x, by simp only [hx, List.cons_append]⟩
    | _ => exact ⟨[], rfl⟩

/-- A result does not depend on the bound. -/
theorem namesOf_stable {σ : Type} (next : σ → Next σ) (s : σ) (n : Nat) (r : Result) (h : namesOf next n s = some r) :
    ∀ m, n ≤ m → namesOf next m s = some r := by
  intro m hm
  obtain ⟨k, rfl⟩ : ∃ k, m = n + k := ⟨m - n, by omega⟩
  unfold namesOf at h ⊢
  by_cases hmore : (toks next n s).2 = .more
  · rw [hmore] at h
    obtain ⟨x, hx⟩ := toks_prefix next n s k
    have := collect_mono n _ _ _ r (collect_ext x (toks next (n + k) s).2 n _ _ _ r h) k
    rw [hx]
    exact this
  · rw [toks_mono next n s hmore k]
    exact collect_mono n _ _ _ r h k

/-! ## Panics -/

theorem iterate_no_panic {e : End} (he : e ≠ .panic) (p : Pos) : iterate e p ≠ .panic := by
  unfold iterate onText onChar
  simp only []
  repeat' split
  all_goals simp_all

theorem drain_no_panic {e : End} (he : e ≠ .panic) : ∀ (n : Nat) (p : Pos), drain e n p ≠ some .panic := by
  intro n
  induction n with
  | zero => intro p; simp [drain]
  | succ n ih =>
    intro p
    rw [drain]
    cases hit : iterate e p with
    | cont q => exact ih q
    | emit t q =>
      cases t with
      | part s => exact ih q
      | _ => simp
    | panic => exact absurd hit (iterate_no_panic he p)
    | _ => simp

theorem collect_no_panic {e : End} (he : e ≠ .panic) : ∀ (n : Nat) (p : Pos) (current : List Str)
    (done : List (List Str)), collect e n p current done ≠ some .panic := by
  intro n
  induction n with
  | zero => intro p _ _; simp [collect]
  | succ n ih =>
    intro p c d
    rw [collect]
    cases hit : iterate e p with
    | cont q => exact ih q _ _
    | emit t q =>
      cases t with
      | part s => exact ih q _ _
      | endName => exact ih q _ _
      | error => exact drain_no_panic he n q
    | panic => exact absurd hit (iterate_no_panic he p)
    | _ => simp

/-! ## Errors -/

theorem iterate_error {e : End} {p q : Pos} (h : iterate e p = .emit .error q) : ∃ s, .unsupported s ∈ p.it := by
  unfold iterate at h
  split at h
  · refine absurd h ?_
    unfold onText
    simp only []
    repeat' split
    all_goals simp
  · refine absurd h ?_
    unfold onChar
    simp only []
    repeat' split
    all_goals simp
  · rename_i s rest hit; exact ⟨s, by rw [hit]; simp⟩
  · refine absurd h ?_
    repeat' split
    all_goals simp

/-- Without unsupported escapes there is no error. -/
theorem collect_no_error {e : End} : ∀ (n : Nat) (q : Pos) (current : List Str) (done : List (List Str)),
    Inv q → (∀ s, .unsupported s ∉ base q) → collect e n q current done ≠ some .error := by
  intro n
  induction n with
  | zero => intro q c d _ _; simp [collect]
  | succ n ih =>
    intro q c d hi hf
    have hs := iterate_smaller (e := e) hi
    rw [collect]
    cases hit : iterate e q with
    | cont q' =>
      rw [hit] at hs
      exact ih q' c d hs.1 (fun s hm => hf s (hs.2.2.subset hm))
    | emit t q' =>
      rw [hit] at hs
      have hf' : ∀ s, .unsupported s ∉ base q' := fun s hm => hf s (hs.2.2.subset hm)
      cases t with
      | part s => exact ih q' _ d hs.1 hf'
      | endName => exact ih q' _ _ hs.1 hf'
      | error =>
        obtain ⟨s, hm⟩ := iterate_error hit
        exact absurd (hi.subset hm) (hf s)
    | _ => simp

end Cackle.Names
