import Verif.Lemmas.Names

/-!
# Lemmas about reading names that are not mangled
-/

namespace Cackle.Names
open Cackle Demangle

/-! ## Tokens -/

/-- The tokens of a text. -/
def dk (data : Str) : List Tok := (toks Plain.next (data.length + 1) { namespace_ := [], data := data }).1

theorem toks_plain (data : Str) (n : Nat) (h : data.length < n) :
    toks Plain.next n { namespace_ := [], data := data } = (dk data, .fin) := by
  have hf := Plain.ends { namespace_ := [], data := data }
  simp only [List.length_nil, Nat.zero_add] at hf
  obtain ⟨k, rfl⟩ : ∃ k, n = data.length + 1 + k := ⟨n - (data.length + 1), by omega⟩
  rw [toks_mono _ _ _ (by rw [hf]; simp) k, ← hf]
  rfl

theorem dk_of_next {data s : Str} {t : Tok} (hl : s.length < data.length)
    (h : Plain.next { namespace_ := [], data := data } = .tok t { namespace_ := [], data := s }) :
    dk data = t :: dk s := by
  have h1 := toks_plain data (data.length + 1) (by omega)
  rw [toks, h] at h1
  simp only [toks_plain s data.length hl] at h1
  exact (Prod.mk.inj h1).1.symm

theorem dk_nil : dk [] = [] := rfl

theorem dk_colon (s : Str) : dk (':' :: s) = dk s := by
  have h : ∀ n, toks Plain.next n { namespace_ := [], data := ':' :: s } =
      toks Plain.next n { namespace_ := [], data := s } := by
    intro n
    cases n with
    | zero => rfl
    | succ n =>
      have : Plain.next { namespace_ := [], data := ':' :: s } = Plain.next { namespace_ := [], data := s } := by
        unfold Plain.next
        simp only [dropColons]
      rw [toks, toks, this]
  have h1 := toks_plain (':' :: s) (s.length + 2) (by simp)
  rw [h, toks_plain s _ (by omega)] at h1
  exact (Prod.mk.inj h1).1.symm

theorem dk_char {c : Char} (hc : isSeparator c = true) (hn : c ≠ ':') (s : Str) : dk (c :: s) = .char c :: dk s := by
  refine dk_of_next (by simp) ?_
  unfold Plain.next
  have : dropColons (c :: s) = c :: s := by
    unfold dropColons
    split
    · rename_i h; cases h; exact absurd rfl hn
    · rfl
  simp only [this, hc, if_true]

/-- A text ends here. -/
def Boundary (k : Str) : Prop := ∀ c, k.head? = some c → isSeparator c = true

theorem word_exact : ∀ {w : Str} {k : Str}, (∀ c ∈ w, isSeparator c = false) → Boundary k → word (w ++ k) = (w, k)
  | [], [], _, _ => rfl
  | [], c :: k, _, h => by rw [List.nil_append, word, if_pos (h c rfl)]
  | d :: w, k, hw, hk => by
    rw [List.cons_append, word, if_neg (by simp [hw d (by simp)]), word_exact (fun c hc => hw c (by simp [hc])) hk]

theorem dk_word {w k : Str} (hne : w ≠ []) (hw : ∀ c ∈ w, isSeparator c = false) (hk : Boundary k) :
    dk (w ++ k) = .text w (w.length + k.length) :: dk k := by
  obtain ⟨d, r, rfl⟩ := List.exists_cons_of_ne_nil hne
  have hd := hw d (by simp)
  refine dk_of_next (by simp; omega) ?_
  have hcol : dropColons (d :: r ++ k) = d :: (r ++ k) := by
    rw [List.cons_append]
    unfold dropColons
    split
    · rename_i h; cases h; exact absurd hd (by decide)
    · rfl
  have hword := word_exact hw hk
  rw [List.cons_append] at hword
  unfold Plain.next
  simp only [hcol, hd, hword]
  simp
  omega

/-! ## Steps -/

/-- A position in a text, outside of braces. -/
def At (st : State) (af : Option (Str × Nat)) (data : Str) : Pos := { it := dk data, state := st, asFinal := af }

/-- Reading goes from the first situation to the second. -/
def Leads (p : Pos) (current : List Str) (done : List (List Str)) (p' : Pos) (current' : List Str)
    (done' : List (List Str)) : Prop :=
  ∃ m, ∀ n, collect .fin (n + m) p current done = collect .fin n p' current' done'

theorem Leads.refl (p : Pos) (c : List Str) (d : List (List Str)) : Leads p c d p c d := ⟨0, fun _ => rfl⟩

theorem Leads.trans {p p' p'' : Pos} {c c' c'' : List Str} {d d' d'' : List (List Str)}
    (h : Leads p c d p' c' d') (h' : Leads p' c' d' p'' c'' d'') : Leads p c d p'' c'' d'' := by
  obtain ⟨m, hm⟩ := h
  obtain ⟨m', hm'⟩ := h'
  exact ⟨m' + m, fun n => by rw [← Nat.add_assoc, hm, hm']⟩

theorem Leads.cont {p q : Pos} {c : List Str} {d : List (List Str)} (h : iterate .fin p = .cont q) : Leads p c d q c d :=
  ⟨1, fun n => by rw [collect, h]⟩

theorem Leads.part {p q : Pos} {s : Str} {c : List Str} {d : List (List Str)} (h : iterate .fin p = .emit (.part s) q) :
    Leads p c d q (c ++ [s]) d := ⟨1, fun n => by rw [collect, h]⟩

theorem Leads.endName {p q : Pos} {c : List Str} {d : List (List Str)} (h : iterate .fin p = .emit .endName q) :
    Leads p c d q [] (d ++ [c]) := ⟨1, fun n => by rw [collect, h]⟩

/-- A separator that is neither a colon nor a brace. -/
def Plainly (c : Char) : Prop := isSeparator c = true ∧ c ≠ ':' ∧ c ≠ '{' ∧ c ≠ '}'

theorem braceChange_plainly {c : Char} (h : Plainly c) : braceChange c = 0 := by
  unfold braceChange; rw [if_neg h.2.2.1, if_neg h.2.2.2]

theorem leads_char_inactive {c : Char} (hc : Plainly c) (af : Option (Str × Nat)) (s : Str) (cur : List Str)
    (d : List (List Str)) : Leads (At .inactive af (c :: s)) cur d (At .inactive af s) cur d := by
  refine .cont ?_
  unfold At iterate
  simp only [dk_char hc.1 hc.2.1]
  unfold onChar
  simp [charState, braceChange_plainly hc]

theorem leads_char_outputting {c : Char} (hc : Plainly c) (af : Option (Str × Nat)) (s : Str) (cur : List Str)
    (d : List (List Str)) : Leads (At .outputting af (c :: s)) cur d (At .inactive af s) [] (d ++ [cur]) := by
  refine .endName ?_
  unfold At iterate
  simp only [dk_char hc.1 hc.2.1]
  unfold onChar
  simp [charState, braceChange_plainly hc]

/-- A character inside the arguments of a trait. -/
theorem leads_char_skip {c : Char} (hc : Plainly c) (af : Option (Str × Nat)) (s : Str) (cur : List Str)
    (d : List (List Str)) (depth : Int) (r : List Tok) (h : depth + gtChange c ≠ 0) :
    Leads (At (.asSkip depth r) af (c :: s)) cur d (At (.asSkip (depth + gtChange c) r) af s) cur d := by
  refine .cont ?_
  unfold At iterate
  simp only [dk_char hc.1 hc.2.1]
  unfold onChar
  simp [charState, braceChange_plainly hc, h]

/-- A text that can be a part of a name. -/
structure IsPart (w : Str) : Prop where
  ne : w ≠ []
  noSep : ∀ c ∈ w, isSeparator c = false
  notMut : w ≠ str! "mut"
  notAs : w ≠ str! "as"
  notNumber : isI64 w = false
  notHash : isHash w = false

/-- The state after a part. -/
def afterPart : State → State
  | .inactive => .outputting
  | s => s

theorem leads_part {w k : Str} (hw : IsPart w) (hk : Boundary k) (st : State) (hst : ∀ d r, st ≠ .asSkip d r)
    (af : Option (Str × Nat)) (haf : af ≠ some (w, w.length + k.length)) (cur : List Str) (d : List (List Str)) :
    Leads (At st af (w ++ k)) cur d (At (afterPart st) af k) (cur ++ [w]) d := by
  refine .part ?_
  unfold At iterate
  simp only [dk_word hw.ne hw.noSep hk]
  unfold onText
  simp only []
  rw [if_neg hw.notMut, if_neg (by simp), if_neg (by simp [hw.notNumber]), if_neg (fun h => hw.notAs h.1), if_neg haf,
    if_neg (by simp [hw.notHash])]
  cases st with
  | asSkip d r => exact absurd rfl (hst d r)
  | _ => rfl

/-- A text inside the arguments of a trait. -/
theorem leads_text_skip {w k : Str} (hne : w ≠ []) (hsep : ∀ c ∈ w, isSeparator c = false) (hna : w ≠ str! "as")
    (hk : Boundary k) (depth : Int) (r : List Tok) (af : Option (Str × Nat)) (cur : List Str) (d : List (List Str)) :
    Leads (At (.asSkip depth r) af (w ++ k)) cur d (At (.asSkip depth r) af k) cur d := by
  refine .cont ?_
  unfold At iterate
  simp only [dk_word hne hsep hk]
  unfold onText
  simp only []
  split
  · rfl
  split
  · rfl
  split
  · rfl
  rw [if_neg (fun h => hna h.1)]
  split
  · rfl
  split
  · rfl
  rfl

/-- `mut` and numbers are left out. -/
theorem leads_ignored {w k : Str} (hne : w ≠ []) (hsep : ∀ c ∈ w, isSeparator c = false)
    (hig : w = str! "mut" ∨ isI64 w = true) (hk : Boundary k) (st : State) (af : Option (Str × Nat)) (cur : List Str)
    (d : List (List Str)) : Leads (At st af (w ++ k)) cur d (At st af k) cur d := by
  refine .cont ?_
  unfold At iterate
  simp only [dk_word hne hsep hk]
  unfold onText
  simp only []
  rcases hig with h | h
  · rw [if_pos h]
  · split
    · rfl
    · simp [h]

/-- The part that was already read as the last part of a name with `as`. -/
theorem leads_final {w k : Str} (hw : IsPart w) (hk : Boundary k) (st : State) (cur : List Str) (d : List (List Str)) :
    Leads (At st (some (w, w.length + k.length)) (w ++ k)) cur d (At st (some (w, w.length + k.length)) k) cur d := by
  refine .cont ?_
  unfold At iterate
  simp only [dk_word hw.ne hw.noSep hk]
  unfold onText
  simp only []
  rw [if_neg hw.notMut, if_neg (by simp), if_neg (by simp [hw.notNumber]), if_neg (fun h => hw.notAs h.1)]
  simp

theorem as_noSep : ∀ c ∈ str! "as", isSeparator c = false := by decide

theorem boundary_cons {c : Char} (h : isSeparator c = true) (s : Str) : Boundary (c :: s) := by
  intro d hd
  simp only [List.head?_cons, Option.some.injEq] at hd
  exact hd ▸ h

/-- ` as `, with nothing being read before the space. -/
theorem leads_as (s : Str) (af : Option (Str × Nat)) (cur : List Str) (d : List (List Str)) :
    Leads (At .inactive af (str! "as " ++ s)) cur d (At .asPrefix af s) cur d := by
  refine .cont ?_
  have h1 : dk (str! "as " ++ s) = .text (str! "as") (s.length + 3) :: .char ' ' :: dk s := by
    have := dk_word (w := str! "as") (k := ' ' :: s) (by simp) as_noSep (boundary_cons (by decide) _)
    rw [dk_char (c := ' ') (by decide) (by decide)] at this
    rw [show str! "as " ++ s = str! "as" ++ ' ' :: s by rfl, this]
    simp only [List.length_cons, List.length_nil]
    congr 2
    omega
  unfold At iterate
  simp only [h1]
  unfold onText
  simp only []
  rw [if_neg (by decide), if_neg (by simp), if_neg (by decide), if_pos (by simp)]
  rfl

/-- The end of a trait without arguments, followed by the last part of the name. -/
theorem leads_trait_end {w k : Str} (hw : IsPart w) (hk : Boundary k) (af : Option (Str × Nat)) (cur : List Str)
    (d : List (List Str)) : Leads (At .asPrefix af ('>' :: ':' :: ':' :: (w ++ k))) cur d
      (At .outputting (some (w, w.length + k.length)) k) (cur ++ [w]) d := by
  have h1 : iterate .fin (At .asPrefix af ('>' :: ':' :: ':' :: (w ++ k))) =
      .emit (.part w) (At .outputting (some (w, w.length + k.length)) (w ++ k)) := by
    unfold At iterate
    simp only [dk_char (c := '>') (by decide) (by decide), dk_colon]
    unfold onChar
    simp only [charState]
    rw [show (1 : Int) + gtChange '>' = 0 by decide]
    simp [dk_word hw.ne hw.noSep hk, show braceChange '>' = 0 by decide]
  exact (Leads.part h1).trans (leads_final hw hk _ _ _)

/-- The beginning of the arguments of a trait. -/
theorem leads_trait_args (s : Str) (af : Option (Str × Nat)) (cur : List Str) (d : List (List Str)) :
    Leads (At .asPrefix af ('<' :: s)) cur d (At (.asSkip 2 (dk s)) af s) cur d := by
  refine .cont ?_
  unfold At iterate
  simp only [dk_char (c := '<') (by decide) (by decide)]
  unfold onChar
  simp [charState, show gtChange '<' = 1 by decide, show braceChange '<' = 0 by decide]

/-- The end of the arguments of a trait: reading goes back to their beginning. -/
theorem leads_trait_args_end {w k : Str} (hw : IsPart w) (hk : Boundary k) (af : Option (Str × Nat)) (cur : List Str)
    (d : List (List Str)) (r : Str) :
    Leads (At (.asSkip 2 (dk r)) af ('>' :: '>' :: ':' :: ':' :: (w ++ k))) cur d
      (At .outputting (some (w, w.length + k.length)) r) (cur ++ [w]) d := by
  have h0 := leads_char_skip (c := '>') (by unfold Plainly; decide) af ('>' :: ':' :: ':' :: (w ++ k)) cur d 2 (dk r)
    (by decide)
  rw [show (2 : Int) + gtChange '>' = 1 by decide] at h0
  refine h0.trans (.part ?_)
  unfold At iterate
  simp only [dk_char (c := '>') (by decide) (by decide), dk_colon]
  unfold onChar
  simp only [charState]
  rw [show (1 : Int) + gtChange '>' = 0 by decide]
  simp [dk_word hw.ne hw.noSep hk, show braceChange '>' = 0 by decide]

/-- A name that is being read is ended by what begins with a separator. -/
theorem leads_split {c : Char} (hc : Plainly c) {s : Str} {af : Option (Str × Nat)} {cur : List Str}
    {d : List (List Str)} {p : Pos} {cur' : List Str} {d' : List (List Str)}
    (h : ∃ m, ∀ n, collect .fin (n + (m + 1)) (At .inactive af (c :: s)) [] (d ++ [cur]) = collect .fin n p cur' d') :
    Leads (At .outputting af (c :: s)) cur d p cur' d' := by
  obtain ⟨m, hm⟩ := h
  refine ⟨m + 1, fun n => ?_⟩
  rw [← hm n, ← Nat.add_assoc, collect, collect]
  have h1 : iterate .fin (At .outputting af (c :: s)) = .emit .endName (At .inactive af s) := by
    unfold At iterate
    simp only [dk_char hc.1 hc.2.1]
    unfold onChar
    simp [charState, braceChange_plainly hc]
  have h2 : iterate .fin (At .inactive af (c :: s)) = .cont (At .inactive af s) := by
    unfold At iterate
    simp only [dk_char hc.1 hc.2.1]
    unfold onChar
    simp [charState, braceChange_plainly hc]
  rw [h1, h2]

/-- `{…}` after a name. -/
theorem leads_braces {w k : Str} (hne : w ≠ []) (hsep : ∀ c ∈ w, isSeparator c = false) (af : Option (Str × Nat))
    (cur : List Str) (d : List (List Str)) :
    Leads (At .outputting af ('{' :: (w ++ '}' :: k))) cur d (At .inactive af k) [] (d ++ [cur]) := by
  have h1 : iterate .fin (At .outputting af ('{' :: (w ++ '}' :: k))) =
      .emit .endName { At .inactive af (w ++ '}' :: k) with braceDepth := 1 } := by
    unfold At iterate
    simp only [dk_char (c := '{') (by decide) (by decide)]
    unfold onChar
    simp [charState, show braceChange '{' = 1 by decide]
  have h2 : iterate .fin { At .inactive af (w ++ '}' :: k) with braceDepth := 1 } =
      .cont { At .inactive af ('}' :: k) with braceDepth := 1 } := by
    unfold At iterate
    simp only [dk_word hne hsep (boundary_cons (c := '}') (by decide) k)]
    unfold onText
    simp
  have h3 : iterate .fin { At .inactive af ('}' :: k) with braceDepth := 1 } = .cont (At .inactive af k) := by
    unfold At iterate
    simp only [dk_char (c := '}') (by decide) (by decide)]
    unfold onChar
    simp [charState, show braceChange '}' = -1 by decide]
  exact (Leads.endName h1).trans ((Leads.cont h2).trans (.cont h3))

/-- `{…}` inside the arguments of a trait. -/
theorem leads_braces_skip {w k : Str} (hne : w ≠ []) (hsep : ∀ c ∈ w, isSeparator c = false) (depth : Int) (r : List Tok)
    (hd : depth ≠ 0) (af : Option (Str × Nat)) (cur : List Str) (d : List (List Str)) :
    Leads (At (.asSkip depth r) af ('{' :: (w ++ '}' :: k))) cur d (At (.asSkip depth r) af k) cur d := by
  have h1 : iterate .fin (At (.asSkip depth r) af ('{' :: (w ++ '}' :: k))) =
      .cont { At (.asSkip depth r) af (w ++ '}' :: k) with braceDepth := 1 } := by
    unfold At iterate
    simp only [dk_char (c := '{') (by decide) (by decide)]
    unfold onChar
    simp [charState, show braceChange '{' = 1 by decide, show gtChange '{' = 0 by decide, hd]
  have h2 : iterate .fin { At (.asSkip depth r) af (w ++ '}' :: k) with braceDepth := 1 } =
      .cont { At (.asSkip depth r) af ('}' :: k) with braceDepth := 1 } := by
    unfold At iterate
    simp only [dk_word hne hsep (boundary_cons (c := '}') (by decide) k)]
    unfold onText
    simp
  have h3 : iterate .fin { At (.asSkip depth r) af ('}' :: k) with braceDepth := 1 } = .cont (At (.asSkip depth r) af k) := by
    unfold At iterate
    simp only [dk_char (c := '}') (by decide) (by decide)]
    unfold onChar
    simp [charState, show braceChange '}' = -1 by decide, show gtChange '}' = 0 by decide, hd]
  exact (Leads.cont h1).trans ((Leads.cont h2).trans (.cont h3))

end Cackle.Names
