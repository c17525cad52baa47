import Verif.Model.Json

/-!
# Lemmas about JSON: what is written is read back
-/

namespace Cackle.Json
open Cackle

/-! ## Strings -/

theorem readStr_ctrl : ∀ n : Fin 32, ∀ r : Option (Str × Str),
    (if n.val = 8 ∨ n.val = 12 ∨ n.val = 10 ∨ n.val = 13 ∨ n.val = 9 then True
      else hex4 '0' '0' (hexDigit (n.val / 16)) (hexDigit (n.val % 16)) = some n.val) := by
  intro n _
  revert n
  decide

theorem push_some (c : Char) (s t : Str) : push c (some (s, t)) = some (c :: s, t) := rfl

theorem char_ext {c d : Char} (h : c.toNat = d.toNat) : c = d := by
  apply Char.ext
  exact UInt32.toNat_inj.mp h

theorem ofNat_toNat (c : Char) : Char.ofNat c.toNat = c := by
  simp

theorem readStr_escChar (c : Char) (t : Str) : readStr (escChar c ++ t) = push c (readStr t) := by
  unfold escChar
  by_cases h1 : c = '"'
  · subst h1; rw [if_pos rfl, readStr.eq_def]; simp [unescape]
  rw [if_neg h1]
  by_cases h2 : c = '\\'
  · subst h2; rw [if_pos rfl, readStr.eq_def]; simp [unescape]
  rw [if_neg h2]
  by_cases h3 : c = '\n'
  · subst h3; rw [if_pos rfl, readStr.eq_def]; simp [unescape]
  rw [if_neg h3]
  by_cases h4 : c = '\r'
  · subst h4; rw [if_pos rfl, readStr.eq_def]; simp [unescape]
  rw [if_neg h4]
  by_cases h5 : c = '\t'
  · subst h5; rw [if_pos rfl, readStr.eq_def]; simp [unescape]
  rw [if_neg h5]
  by_cases h6 : c.toNat = 8
  · rw [if_pos h6]
    have : c = Char.ofNat 8 := char_ext (by rw [h6]; rfl)
    rw [readStr.eq_def]; simp [unescape, this]
  rw [if_neg h6]
  by_cases h7 : c.toNat = 12
  · rw [if_pos h7]
    have : c = Char.ofNat 12 := char_ext (by rw [h7]; rfl)
    rw [readStr.eq_def]; simp [unescape, this]
  rw [if_neg h7]
  by_cases h8 : c.toNat < 32
  · rw [if_pos h8]
    have hc := readStr_ctrl ⟨c.toNat, h8⟩ none
    have n3 : c.toNat ≠ 10 := fun h => h3 (char_ext (by rw [h]; rfl))
    have n4 : c.toNat ≠ 13 := fun h => h4 (char_ext (by rw [h]; rfl))
    have n5 : c.toNat ≠ 9 := fun h => h5 (char_ext (by rw [h]; rfl))
    rw [if_neg (by simp [h6, h7, n3, n4, n5])] at hc
    simp only [List.cons_append, List.nil_append]
    rw [readStr.eq_def]
    simp only
    rw [if_neg (by decide), if_neg (by decide), if_neg (by decide)]
    simp only [ne_eq, not_true_eq_false, if_false]
    rw [hc]
    simp only
    rw [if_neg (by omega), if_neg (by omega), ofNat_toNat]
  · rw [if_neg h8]
    simp only [List.cons_append, List.nil_append]
    rw [readStr.eq_def]
    simp only
    rw [if_neg h1, if_neg h8, if_pos h2]

theorem readStr_text (s t : Str) : readStr (s.flatMap escChar ++ '"' :: t) = some (s, t) := by
  induction s with
  | nil => rw [readStr.eq_def]; simp
  | cons c s ih =>
    rw [List.flatMap_cons, List.append_assoc, readStr_escChar, ih]
    rfl

/-! ## Numbers -/

theorem digit_ofNat : ∀ d : Fin 10, isDigit (Char.ofNat (48 + d.val)) = true ∧ (Char.ofNat (48 + d.val)).toNat - 48 = d.val := by
  decide

theorem decimal_ne_nil (n : Nat) : Wire.decimal n ≠ [] := by
  rw [Wire.decimal]
  split <;> simp

theorem decimal_digits (n : Nat) : ∀ c ∈ Wire.decimal n, isDigit c = true := by
  induction n using Nat.strongRecOn with
  | ind n ih =>
    rw [Wire.decimal]
    split
    · rename_i h
      intro c hc
      rw [List.mem_singleton] at hc
      subst hc
      exact (digit_ofNat ⟨n, h⟩).1
    · rename_i h
      intro c hc
      rcases List.mem_append.mp hc with hc | hc
      · exact ih _ (by omega) c hc
      · rw [List.mem_singleton] at hc
        subst hc
        exact (digit_ofNat ⟨n % 10, by omega⟩).1

theorem readDigits_stop (n : Nat) (rest : Str) (h : ∀ c r, rest = c :: r → isDigit c = false) :
    readDigits n rest = (n, rest) := by
  cases rest with
  | nil => rfl
  | cons c r => simp [readDigits, h c r rfl]

theorem readDigits_decimal : ∀ (n a : Nat) (rest : Str),
    ∃ k, readDigits a (Wire.decimal n ++ rest) = readDigits (a * 10 ^ k + n) rest := by
  intro n
  induction n using Nat.strongRecOn with
  | ind n ih =>
    intro a rest
    rw [Wire.decimal]
    split
    · rename_i h
      have := digit_ofNat ⟨n, h⟩
      simp only at this
      refine ⟨1, ?_⟩
      simp only [List.cons_append, List.nil_append, readDigits, this.1, this.2, if_true, Nat.pow_one]
    · rename_i h
      obtain ⟨k, hk⟩ := ih (n / 10) (by omega) a (Char.ofNat (48 + n % 10) :: rest)
      have := digit_ofNat ⟨n % 10, by omega⟩
      simp only at this
      refine ⟨k + 1, ?_⟩
      rw [List.append_assoc, List.singleton_append, hk]
      simp only [readDigits, this.1, this.2, if_true]
      congr 1
      rw [Nat.pow_succ, ← Nat.mul_assoc]
      omega

theorem decimal_zero_head {n : Nat} {c : Char} {r : Str} (h : Wire.decimal n = c :: r) (hc : c = '0') : r = [] := by
  induction n using Nat.strongRecOn generalizing r with
  | ind n ih =>
    rw [Wire.decimal] at h
    split at h
    · cases h; rfl
    · rename_i hn
      cases hd : Wire.decimal (n / 10) with
      | nil => exact absurd hd (decimal_ne_nil _)
      | cons c' r' =>
        rw [hd] at h
        simp only [List.cons_append, List.cons.injEq] at h
        obtain ⟨rfl, h⟩ := h
        have hr := ih (n / 10) (by omega) hd
        subst hr
        -- then `n / 10 = 0`
        rw [Wire.decimal] at hd
        split at hd
        · rename_i hlt
          simp only [List.cons.injEq, and_true] at hd
          have h1 := (digit_ofNat ⟨n / 10, hlt⟩).2
          simp only at h1
          rw [hd, hc] at h1
          have : ('0' : Char).toNat - 48 = 0 := by decide
          omega
        · have := congrArg List.length hd
          simp only [List.length_append, List.length_cons, List.length_nil] at this
          have hne := decimal_ne_nil (n / 10 / 10)
          cases hx : Wire.decimal (n / 10 / 10) with
          | nil => exact absurd hx hne
          | cons _ _ => rw [hx] at this; simp at this

/-- What may follow a value. -/
def Stop (rest : Str) : Prop := ∀ c r, rest = c :: r → c = ',' ∨ c = ']' ∨ c = '}'

theorem Stop.digit {rest : Str} (h : Stop rest) : ∀ c r, rest = c :: r → isDigit c = false := by
  intro c r he
  rcases h c r he with rfl | rfl | rfl <;> decide

theorem Stop.float {rest : Str} (h : Stop rest) : isFloat rest = false := by
  cases rest with
  | nil => rfl
  | cons c r => rcases h c r rfl with rfl | rfl | rfl <;> rfl

theorem readNat_decimal (n : Nat) {rest : Str} (h : Stop rest) : readNat (Wire.decimal n ++ rest) = some (n, rest) := by
  obtain ⟨k, hk⟩ := readDigits_decimal n 0 rest
  rw [readDigits_stop _ _ h.digit] at hk
  cases hd : Wire.decimal n with
  | nil => exact absurd hd (decimal_ne_nil n)
  | cons c r =>
    have hc : isDigit c = true := decimal_digits n c (by rw [hd]; exact List.mem_cons_self ..)
    rw [hd, List.cons_append] at hk
    rw [List.cons_append, readNat.eq_def]
    simp only [hc, Bool.not_true, Bool.false_eq_true, if_false]
    rw [hk]
    have hz : (c = '0' && digitNext (r ++ rest)) = false := by
      by_cases h0 : c = '0'
      · have := decimal_zero_head hd h0
        subst this
        simp only [h0, List.nil_append, decide_true, Bool.true_and]
        cases rest with
        | nil => rfl
        | cons d t => exact h.digit d t rfl
      · simp [h0]
    rw [hz]
    simp [h.float]

/-! ## Values -/

mutual
/-- The nesting of arrays and objects. -/
def depth : Json → Nat
  | .arr l => depthElems l + 1
  | .obj l => depthFields l + 1
  | _ => 0
def depthElems : List Json → Nat
  | [] => 0
  | j :: l => max (depth j) (depthElems l)
def depthFields : List (Str × Json) → Nat
  | [] => 0
  | (_, j) :: l => max (depth j) (depthFields l)
end

mutual
/-- The numbers are in the range of integers. -/
def Ok : Json → Prop
  | .num n => -2 ^ 63 ≤ n ∧ n < 2 ^ 64
  | .arr l => OkElems l
  | .obj l => OkFields l
  | _ => True
def OkElems : List Json → Prop
  | [] => True
  | j :: l => Ok j ∧ OkElems l
def OkFields : List (Str × Json) → Prop
  | [] => True
  | (_, j) :: l => Ok j ∧ OkFields l
end

theorem digit_facts {c : Char} (h : isDigit c = true) :
    isWs c = false ∧ c ≠ ']' ∧ c ≠ '}' ∧ c ≠ 'n' ∧ c ≠ 't' ∧ c ≠ 'f' ∧ c ≠ '-' := by
  refine ⟨?_, ?_, ?_, ?_, ?_, ?_, ?_⟩
  · cases hw : isWs c
    · rfl
    · exfalso
      simp only [isWs, Bool.or_eq_true, decide_eq_true_eq] at hw
      rcases hw with ((rfl | rfl) | rfl) | rfl <;> revert h <;> decide
  all_goals (rintro rfl; revert h; decide)

/-- The first character of a value. -/
theorem text_head (j : Json) : ∃ c r, text j = c :: r ∧ isWs c = false ∧ c ≠ ']' ∧ c ≠ '}' := by
  cases j with
  | null => exact ⟨_, _, rfl, by decide, by decide, by decide⟩
  | bool b => cases b <;> exact ⟨_, _, rfl, by decide, by decide, by decide⟩
  | num n =>
    simp only [text, showInt]
    split
    · exact ⟨_, _, rfl, by decide, by decide, by decide⟩
    · cases hd : Wire.decimal n.natAbs with
      | nil => exact absurd hd (decimal_ne_nil _)
      | cons c r =>
        have := digit_facts (decimal_digits n.natAbs c (by rw [hd]; exact List.mem_cons_self ..))
        exact ⟨c, r, rfl, this.1, this.2.1, this.2.2.1⟩
  | str s => exact ⟨_, _, rfl, by decide, by decide, by decide⟩
  | arr l => exact ⟨_, _, rfl, by decide, by decide, by decide⟩
  | obj l => exact ⟨_, _, rfl, by decide, by decide, by decide⟩

theorem skipWs_of {c : Char} (h : isWs c = false) (r : Str) : skipWs (c :: r) = c :: r := by
  simp [skipWs, h]

theorem skipWs_text (j : Json) (r : Str) : skipWs (text j ++ r) = text j ++ r := by
  obtain ⟨c, t, h, hw, _⟩ := text_head j
  rw [h, List.cons_append, skipWs_of hw]

theorem stop_elems (l : List Json) (r : Str) : Stop (textElemsMore l ++ r) := by
  intro c t h
  cases l with
  | nil => simp only [textElemsMore, List.cons_append, List.cons.injEq] at h; exact .inr (.inl h.1.symm)
  | cons j l => simp only [textElemsMore, List.cons_append, List.cons.injEq] at h; exact .inl h.1.symm

theorem stop_fields (l : List (Str × Json)) (r : Str) : Stop (textFieldsMore l ++ r) := by
  intro c t h
  cases l with
  | nil => simp only [textFieldsMore, List.cons_append, List.cons.injEq] at h; exact .inr (.inr h.1.symm)
  | cons j l =>
    obtain ⟨k, j⟩ := j
    simp only [textFieldsMore, List.cons_append, List.cons.injEq] at h; exact .inl h.1.symm

theorem showStr_append (k t : Str) : showStr k ++ t = '"' :: (k.flatMap escChar ++ '"' :: t) := by
  simp [showStr]

mutual
theorem readValue_text : ∀ (j : Json) (d : Nat) (rest : Str), Ok j → depth j < d → Stop rest →
    readValue d (text j ++ rest) = some (j, rest)
  | j, 0, _, _, h, _ => absurd h (by omega)
  | .null, d + 1, rest, _, _, _ => by
    simp [readValue, text, skipWs, isWs, readWord, List.isPrefixOf]
  | .bool true, d + 1, rest, _, _, _ => by
    simp [readValue, text, skipWs, isWs, readWord, List.isPrefixOf]
  | .bool false, d + 1, rest, _, _, _ => by
    simp [readValue, text, skipWs, isWs, readWord, List.isPrefixOf]
  | .num n, d + 1, rest, ho, _, hs => by
    simp only [Ok] at ho
    rw [readValue, skipWs_text]
    simp only [text, showInt]
    by_cases hn : n < 0
    · rw [if_pos hn, List.cons_append]
      simp only
      rw [if_neg (by decide), if_neg (by decide), if_neg (by decide), if_pos trivial, readNat_decimal _ hs]
      simp only
      rw [if_neg (by omega)]
      congr 3
      omega
    · rw [if_neg hn]
      have hr := readNat_decimal n.natAbs hs
      cases hd : Wire.decimal n.natAbs with
      | nil => exact absurd hd (decimal_ne_nil _)
      | cons c r =>
        have hdig := decimal_digits n.natAbs c (by rw [hd]; exact List.mem_cons_self ..)
        obtain ⟨_, _, _, h1, h2, h3, h4⟩ := digit_facts hdig
        rw [hd, List.cons_append] at hr
        rw [List.cons_append]
        simp only
        rw [if_neg h1, if_neg h2, if_neg h3, if_neg h4, if_pos hdig, hr]
        simp only
        rw [if_neg (by omega)]
        congr 3
        omega
  | .str s, d + 1, rest, _, _, _ => by
    rw [readValue, skipWs_text]
    simp only [text, showStr_append]
    rw [if_neg (by decide), if_neg (by decide), if_neg (by decide), if_neg (by decide), if_neg (by decide), if_pos trivial,
      readStr_text]
    rfl
  | .arr l, d + 1, rest, ho, hd, _ => by
    simp only [depth] at hd
    simp only [Ok] at ho
    rw [readValue, skipWs_text]
    simp only [text, List.cons_append]
    rw [if_neg (by decide), if_neg (by decide), if_neg (by decide), if_neg (by decide), if_neg (by decide),
      if_neg (by decide), if_pos trivial, if_neg (by omega)]
    cases l with
    | nil => simp [textElems, skipWs, isWs]
    | cons j l =>
      obtain ⟨c, t, h, hw, hb, _⟩ := text_head j
      have h1 : skipWs (textElems (j :: l) ++ rest) = c :: (t ++ textElemsMore l ++ rest) := by
        simp only [textElems, h, List.cons_append, List.append_assoc]
        exact skipWs_of hw _
      rw [h1]
      simp only
      rw [if_neg hb, readElems_text (j :: l) d rest (by simp) ho (by omega)]
      rfl
  | .obj l, d + 1, rest, ho, hd, _ => by
    simp only [depth] at hd
    simp only [Ok] at ho
    rw [readValue, skipWs_text]
    simp only [text, List.cons_append]
    rw [if_neg (by decide), if_neg (by decide), if_neg (by decide), if_neg (by decide), if_neg (by decide),
      if_neg (by decide), if_neg (by decide), if_pos trivial, if_neg (by omega)]
    cases l with
    | nil => simp [textFields, skipWs, isWs]
    | cons e l =>
      obtain ⟨k, j⟩ := e
      have h1 : skipWs (textFields ((k, j) :: l) ++ rest) = textFields ((k, j) :: l) ++ rest := by
        simp only [textFields, showStr, List.cons_append]
        exact skipWs_of (by decide) _
      rw [h1]
      have h2 : textFields ((k, j) :: l) ++ rest =
          '"' :: (k.flatMap escChar ++ '"' :: (':' :: (text j ++ textFieldsMore l) ++ rest)) := by
        simp [textFields, showStr]
      rw [h2]
      simp only
      rw [if_neg (by decide), ← h2, readFields_text ((k, j) :: l) d rest (by simp) ho (by omega)]
      rfl
theorem readElems_text : ∀ (l : List Json) (d : Nat) (rest : Str), l ≠ [] → OkElems l → depthElems l < d →
    readElems (readValue d) (textElems l ++ rest) = some (l, rest)
  | [], _, _, h, _, _ => absurd rfl h
  | j :: l, d, rest, _, ho, hd => by
    simp only [OkElems] at ho
    simp only [depthElems] at hd
    rw [readElems]
    have h1 : textElems (j :: l) ++ rest = text j ++ (textElemsMore l ++ rest) := by simp [textElems]
    have h2 := readValue_text j d (textElemsMore l ++ rest) ho.1 (by omega) (stop_elems l rest)
    rw [h1, h2]
    simp only
    cases l with
    | nil => simp [textElemsMore, skipWs, isWs]
    | cons j' l =>
      have h3 : textElemsMore (j' :: l) ++ rest = ',' :: (textElems (j' :: l) ++ rest) := by
        simp [textElemsMore, textElems]
      rw [h3, skipWs_of (by decide)]
      simp only
      rw [if_neg (by decide), if_pos trivial, dif_pos (by simp only [List.length_append, List.length_cons]; omega),
        readElems_text (j' :: l) d rest (by simp) ho.2 (by omega)]
      rfl
theorem readFields_text : ∀ (l : List (Str × Json)) (d : Nat) (rest : Str), l ≠ [] → OkFields l → depthFields l < d →
    readFields (readValue d) (textFields l ++ rest) = some (l, rest)
  | [], _, _, h, _, _ => absurd rfl h
  | (k, j) :: l, d, rest, _, ho, hd => by
    simp only [OkFields] at ho
    simp only [depthFields] at hd
    rw [readFields]
    have h1 : textFields ((k, j) :: l) ++ rest =
        '"' :: (k.flatMap escChar ++ '"' :: (':' :: (text j ++ (textFieldsMore l ++ rest)))) := by
      simp [textFields, showStr]
    have h2 := readValue_text j d (textFieldsMore l ++ rest) ho.1 (by omega) (stop_fields l rest)
    rw [h1, skipWs_of (by decide)]
    simp only
    rw [if_neg (by simp), readStr_text]
    simp only
    rw [skipWs_of (by decide)]
    simp only
    rw [if_neg (by simp), h2]
    simp only
    cases l with
    | nil => simp [textFieldsMore, skipWs, isWs]
    | cons e l =>
      obtain ⟨k', j'⟩ := e
      have h3 : textFieldsMore ((k', j') :: l) ++ rest = ',' :: (textFields ((k', j') :: l) ++ rest) := by
        simp [textFieldsMore, textFields]
      rw [h3, skipWs_of (by decide)]
      simp only
      rw [if_neg (by decide), if_pos trivial, dif_pos (by simp only [List.length_append, List.length_cons]; omega),
        readFields_text ((k', j') :: l) d rest (by simp) ho.2 (by omega)]
      rfl
end

/-- What is written is read back. -/
theorem parse_text {j : Json} (ho : Ok j) (hd : depth j < 128) : parse (text j) = some j := by
  have := readValue_text j 128 [] ho hd (by intro c r h; cases h)
  rw [List.append_nil] at this
  simp [parse, this, skipWs]

end Cackle.Json
