import Verif.Lemmas.Names

/-!
# C27, C28, C29: names of symbols
-/

namespace Cackle.Names
open Cackle Demangle

/-! ## Specification -/

/-- The names of the symbol are read to the end, with this result. -/
def Gives (symbol : Str) (r : Result) : Prop := ∃ n₀, ∀ n, n₀ ≤ n → symbolNames n symbol = some r

/-- The names of the debug name are read to the end, with this result. -/
def DebugGives (namespace_ : List Str) (name : Str) (r : Result) : Prop :=
  ∃ n₀, ∀ n, n₀ ≤ n → debugNames n namespace_ name = some r

/-- An ASCII letter. -/
def Letter (c : Char) : Prop := ('a' ≤ c ∧ c ≤ 'z') ∨ ('A' ≤ c ∧ c ≤ 'Z')

/-- An ASCII digit. -/
def Digit (c : Char) : Prop := '0' ≤ c ∧ c ≤ '9'

/-- An ASCII identifier. -/
def Ident (i : Str) : Prop :=
  ∃ c r, i = c :: r ∧ (Letter c ∨ c = '_') ∧ ∀ d ∈ r, Letter d ∨ Digit d ∨ d = '_'

/-- A number in decimal notation. -/
inductive Numeral : Str → Nat → Prop
  | one {c : Char} : Digit c → Numeral [c] (c.toNat - 48)
  | more {c : Char} {s : Str} {n : Nat} : Numeral s n → Digit c → Numeral (s ++ [c]) (10 * n + (c.toNat - 48))

/-- A hexadecimal digit. -/
def Hex (c : Char) : Prop := Digit c ∨ ('a' ≤ c ∧ c ≤ 'f')

/-- The form of the hash at the end of a legacy symbol. -/
def HashLike (i : Str) : Prop := ∃ r, i = 'h' :: r ∧ r.length = 16 ∧ ∀ c ∈ r, Hex c ∨ ('A' ≤ c ∧ c ≤ 'F')

/-- Identifiers, each with its length before it. -/
inductive Components : List Str → Str → Prop
  | nil : Components [] []
  | cons {i : Str} {path : List Str} {ds s : Str} : Numeral ds i.length → Components path s →
      Components (i :: path) (ds ++ i ++ s)

/-- A path in legacy mangling. -/
def LegacySymbol (path : List Str) (symbol : Str) : Prop :=
  ∃ s hash, Components path s ∧ hash.length = 16 ∧ (∀ c ∈ hash, Hex c) ∧
    symbol = str! "_ZN" ++ s ++ str! "17h" ++ hash ++ str! "E"

/-- An optional disambiguator in v0 mangling. -/
inductive Disambiguator : Str → Prop
  | none : Disambiguator []
  | some {b : Str} : '_' ∉ b → Disambiguator ('s' :: b ++ ['_'])

/-- An identifier in v0 mangling. An underscore separates it from its length if it begins with one. -/
inductive V0Ident : Str → Str → Prop
  | plain {i ds : Str} : Numeral ds i.length → i.head? ≠ some '_' → V0Ident i (ds ++ i)
  | separated {i ds : Str} : Numeral ds i.length → i.head? = some '_' → V0Ident i (ds ++ '_' :: i)

/-- A path in v0 mangling. -/
inductive V0Path : List Str → Str → Prop
  | crate {i d e : Str} : Disambiguator d → V0Ident i e → V0Path [i] ('C' :: (d ++ e))
  | nested {p : List Str} {i s d e : Str} {ns : Char} : ns = 't' ∨ ns = 'v' → V0Path p s → Disambiguator d →
      V0Ident i e → V0Path (p ++ [i]) ('N' :: ns :: (s ++ d ++ e))

/-! ## C28: termination -/

/-- What users rely on: reading the names of any symbol comes to an end. -/
def C28_Claim : Prop := ∀ symbol, ∃ r, Gives symbol r

theorem Gives.unique {s : Str} {r r' : Result} (h : Gives s r) (h' : Gives s r') : r = r' := by
  obtain ⟨a, ha⟩ := h
  obtain ⟨b, hb⟩ := h'
  have h1 := ha (a + b) (by omega)
  rw [hb (a + b) (by omega)] at h1
  exact (Option.some.inj h1).symm

theorem Gives.of {s : Str} {n : Nat} {r : Result} (h1 : (toks Iter.next n (Iter.new s)).2 = .fin)
    (h2 : symbolNames n s = some r) : Gives s r := by
  refine ⟨n, fun m hm => ?_⟩
  obtain ⟨j, rfl⟩ : ∃ j, m = n + j := ⟨m - n, by omega⟩
  unfold symbolNames namesOf at h2 ⊢
  rw [toks_mono Iter.next n _ (by rw [h1]; simp) j]
  exact collect_mono n _ _ _ r h2 j

/-- The tokens of `_ZN4$abcE` never end: each call of `next` gives an empty text. -/
theorem toks_unclosed : ∀ n, toks Iter.next n (.legacy { outer := [], inner := some (str! "$abc") }) =
    (List.replicate n (.text [] 4), .more)
  | 0 => rfl
  | n + 1 => by
    rw [toks, show Iter.next (.legacy { outer := [], inner := some (str! "$abc") }) =
      .tok (.text [] 4) (.legacy { outer := [], inner := some (str! "$abc") }) by rfl]
    simp only [toks_unclosed n, List.replicate_succ]

theorem toks_unclosed_symbol (n : Nat) : toks Iter.next n (Iter.new (str! "_ZN4$abcE")) =
    (List.replicate n (.text [] 4), .more) := by
  cases n with
  | zero => rfl
  | succ n =>
    rw [toks, show Iter.next (Iter.new (str! "_ZN4$abcE")) =
      .tok (.text [] 4) (.legacy { outer := [], inner := some (str! "$abc") }) by rfl]
    simp only [toks_unclosed n, List.replicate_succ]

theorem collect_empties : ∀ (m k : Nat) (st : State) (current : List Str) (done : List (List Str)),
    (st = .inactive ∨ st = .outputting) →
    collect .more m { it := List.replicate k (.text [] 4), state := st } current done = none := by
  intro m
  induction m with
  | zero => intros; rfl
  | succ m ih =>
    intro k st current done hst
    cases k with
    | zero => rw [collect]; rfl
    | succ k =>
      rw [List.replicate_succ, collect]
      have : iterate .more { it := .text [] 4 :: List.replicate k (.text [] 4), state := st } =
          .emit (.part []) { it := List.replicate k (.text [] 4), state := .outputting } := by
        rcases hst with rfl | rfl <;> rfl
      rw [this]
      exact ih k .outputting _ _ (Or.inr rfl)

/-- A dollar sign without its counterpart makes the demangler return empty texts for ever. -/
theorem C28_not_terminating : ¬ C28_Claim := by
  intro h
  obtain ⟨r, n, hn⟩ := h (str! "_ZN4$abcE")
  have := hn n (Nat.le_refl _)
  unfold symbolNames namesOf at this
  rw [toks_unclosed_symbol, collect_empties n n .inactive [] [] (Or.inl rfl)] at this
  cases this

/-- `part` is one of the components of the data of a legacy symbol: the data starts with a number, which is the
length in bytes of the text after it, and so on. -/
inductive Component : Str → Str → Prop
  | here {ds part rest : Str} {n : Nat} : Numeral ds n → byteLen part = n →
      (∀ c, (part ++ rest).head? = some c → ¬ Digit c) → Component (ds ++ part ++ rest) part
  | later {ds part rest other : Str} {n : Nat} : Numeral ds n → byteLen part = n →
      (∀ c, (part ++ rest).head? = some c → ¬ Digit c) → Component rest other →
      Component (ds ++ part ++ rest) other

theorem isDigit_iff {c : Char} : isDigit c = true ↔ Digit c := by
  unfold isDigit Digit
  simp only [Bool.and_eq_true, decide_eq_true_eq]
  exact Iff.rfl

theorem decimal_append (s : Str) (c : Char) : decimal (s ++ [c]) = 10 * decimal s + (c.toNat - 48) := by
  unfold decimal
  rw [List.foldl_append]
  rfl

theorem numeral_of_digits : ∀ (k : Nat) (ds : Str), ds.length = k + 1 → (∀ c ∈ ds, isDigit c = true) →
    Numeral ds (decimal ds) := by
  intro k
  induction k with
  | zero =>
    intro ds hl h
    match ds, hl with
    | [c], _ =>
      have hc : isDigit c = true := h c (by simp)
      have : decimal [c] = c.toNat - 48 := by simp [decimal]
      rw [this]
      exact .one (isDigit_iff.mp hc)
  | succ k ih =>
    intro ds hl h
    have hne : ds ≠ [] := by intro e; rw [e] at hl; simp at hl
    have hds := List.dropLast_concat_getLast hne
    rw [← hds] at h hl ⊢
    rw [decimal_append]
    refine .more (ih ds.dropLast ?_ (fun c hc => h c (by simp [hc]))) (isDigit_iff.mp (h _ (by simp)))
    simpa using hl

theorem numeral_spec {ds : Str} {n : Nat} (h : Numeral ds n) :
    ds ≠ [] ∧ (∀ c ∈ ds, isDigit c = true) ∧ decimal ds = n := by
  induction h with
  | one hc => exact ⟨by simp, by simpa using isDigit_iff.mpr hc, by simp [decimal]⟩
  | more _ hc ih =>
    refine ⟨by simp, ?_, by rw [decimal_append, ih.2.2]⟩
    intro c h
    simp only [List.mem_append, List.mem_singleton] at h
    rcases h with h | rfl
    · exact ih.2.1 c h
    · exact isDigit_iff.mpr hc

theorem not_isDigit {c : Char} (h : isDigit c = false) : ¬ Digit c := by
  rw [← isDigit_iff, h]; simp

theorem component_numeral {outer part rest : Str} (h : component outer = .ok (part, rest)) :
    ∃ ds n, outer = ds ++ part ++ rest ∧ Numeral ds n ∧ byteLen part = n ∧
      (∀ c, (part ++ rest).head? = some c → ¬ Digit c) := by
  obtain ⟨ds, e, hn, hd, hv, hh⟩ := component_ok h
  have hl : 0 < ds.length := List.length_pos_iff.mpr hn
  exact ⟨ds, _, e, numeral_of_digits (ds.length - 1) ds (by omega) hd, hv.symm, fun c hc => not_isDigit (hh c hc)⟩

/-- Reading the names of a symbol comes to an end if the symbol is not in legacy mangling or every component of it
has an even number of dollar signs.

What is missing: see `C28_not_terminating`. -/
theorem C28_symbols_partial (symbol : Str)
    (h : ∀ data, symbol = str! "_ZN" ++ data ++ str! "E" → ∀ part, Component data part → part.count '$' % 2 = 0) :
    ∃ r, Gives symbol r := by
  have key : ∃ n, (toks Iter.next n (Iter.new symbol)).2 ≠ .more := by
    unfold Iter.new
    split
    · exact ⟨_, Iter.v0_ends _⟩
    · split
      · rename_i rest hr
        refine ⟨_, Iter.legacy_ends (fun outer => ∀ part, Component outer part → part.count '$' % 2 = 0) ?_ rest ?_⟩
        · intro outer part rest hj hc
          obtain ⟨ds, n, rfl, h1, h2, h3⟩ := component_numeral hc
          exact ⟨hj _ (.here h1 h2 h3), fun p hp => hj _ (.later h1 h2 h3 hp)⟩
        · apply h
          simp only [Option.bind_eq_some_iff] at hr
          obtain ⟨x, h1, h2⟩ := hr
          unfold stripLast at h2
          split at h2
          · rename_i hl
            cases h2
            have : symbol = str! "_ZN" ++ x := by
              match symbol, h1 with
              | a :: b :: c :: s, h1 =>
                simp only [stripText] at h1
                split at h1
                · split at h1
                  · split at h1
                    · rename_i e1 e2 e3
                      cases h1; rw [← e1, ← e2, ← e3]; rfl
                    · cases h1
                  · cases h1
                · cases h1
              | [a, b], h1 => simp [stripText] at h1
              | [a], h1 => simp [stripText] at h1
              | [], h1 => simp [stripText] at h1
            rw [this, List.append_assoc]
            congr 1
            have hne : x ≠ [] := by intro e; rw [e] at hl; simp at hl
            have hx := List.dropLast_concat_getLast hne
            rw [List.getLast?_eq_some_getLast hne, Option.some.injEq] at hl
            rw [hl] at hx
            exact hx.symm
          · cases h2
      · exact ⟨1, by simp [toks, Iter.next]⟩
  obtain ⟨n, hn⟩ := key
  exact namesOf_ends Iter.next (Iter.new symbol) n (Iter.end_of hn)

/-- The components of a text are found from its beginning. -/
theorem Component.inv {outer p : Str} (h : Component outer p) (hl : byteLen outer < 2 ^ 64) :
    p = [] ∨ ∃ part rest, component outer = .ok (part, rest) ∧ (p = part ∨ Component rest p) := by
  have bytes : ∀ a b : Str, byteLen (a ++ b) = byteLen a + byteLen b := by
    intro a b
    induction a with
    | nil => simp [byteLen]
    | cons x a ih => simp only [List.cons_append, byteLen, ih]; omega
  have key : ∀ {ds part rest : Str} {n : Nat}, Numeral ds n → byteLen part = n →
      (∀ c, (part ++ rest).head? = some c → ¬ Digit c) → byteLen (ds ++ part ++ rest) < 2 ^ 64 →
      part ++ rest ≠ [] → component (ds ++ part ++ rest) = .ok (part, rest) := by
    intro ds part rest n h1 h2 h3 h4 h5
    obtain ⟨g1, g2, g3⟩ := numeral_spec h1
    unfold component
    rw [List.append_assoc, digits_exact ds _ g2 (by
      intro d hd
      have := h3 d hd
      rw [← isDigit_iff] at this
      simpa using this)]
    simp only [bytes] at h4
    simp only [g3]
    rw [if_neg h5, if_neg g1, if_neg (by omega), if_neg (by rw [bytes]; omega), ← h2, splitBytes_exact]
  cases h with
  | @here ds part rest n h1 h2 h3 =>
    by_cases h5 : p ++ rest = []
    · left; simp only [List.append_eq_nil_iff] at h5; exact h5.1
    · exact Or.inr ⟨_, _, key h1 h2 h3 hl h5, Or.inl rfl⟩
  | @later ds part rest other n h1 h2 h3 h4 =>
    by_cases h5 : part ++ rest = []
    · simp only [List.append_eq_nil_iff] at h5
      rw [h5.2] at h4
      generalize e : ([] : Str) = x at h4
      cases h4 with
      | here g1 _ _ =>
        have e' := congrArg List.length e
        have hpos := List.length_pos_iff.mpr (numeral_spec g1).1
        simp only [List.length_nil, List.length_append] at e'
        omega
      | later g1 _ _ _ =>
        have e' := congrArg List.length e
        have hpos := List.length_pos_iff.mpr (numeral_spec g1).1
        simp only [List.length_nil, List.length_append] at e'
        omega
    · exact Or.inr ⟨_, _, key h1 h2 h3 hl h5, Or.inr h4⟩

/-- `<a>::foo` -/
example : ∃ r, Gives (str! "_ZN10_$LT$a$GT$3fooE") r := by
  refine C28_symbols_partial _ ?_
  intro data hd part hp
  have e : data = str! "10_$LT$a$GT$3foo" := by
    have := congrArg (fun l => (l.drop 3).dropLast) hd
    simpa using this.symm
  subst e
  rcases hp.inv (by decide) with rfl | ⟨q, rest, hc, h⟩
  · rfl
  · rw [show component (str! "10_$LT$a$GT$3foo") = .ok (str! "_$LT$a$GT$", str! "3foo") by decide +kernel] at hc
    cases hc
    rcases h with rfl | hp
    · decide
    · rcases hp.inv (by decide) with rfl | ⟨q, rest, hc, h⟩
      · rfl
      · rw [show component (str! "3foo") = .ok (str! "foo", []) by decide +kernel] at hc
        cases hc
        rcases h with rfl | hp
        · decide
        · rcases hp.inv (by decide) with rfl | ⟨q, rest, hc, h⟩
          · rfl
          · rw [show component [] = .no by rfl] at hc
            cases hc

/-- Reading the names of a debug name always comes to an end, without a panic. -/
theorem C28_debug_names (namespace_ : List Str) (name : Str) : ∃ r, DebugGives namespace_ name r ∧ r ≠ .panic := by
  have hf := Plain.ends { namespace_ := namespace_, data := name }
  obtain ⟨r, n, hn⟩ := namesOf_ends Plain.next _ _ (Or.inl hf)
  refine ⟨r, ⟨n, hn⟩, ?_⟩
  rintro rfl
  have := hn (n + (namespace_.length + name.length + 1)) (by omega)
  unfold namesOf at this
  rw [Nat.add_comm n, toks_mono Plain.next _ _ (by rw [hf]; simp), hf] at this
  exact collect_no_panic (by simp) _ _ _ _ this

example : ∃ r, DebugGives [str! "std"] (str! "<a as b<{>>::é") r ∧ r ≠ .panic := C28_debug_names _ _

/-! ## C29: no panic -/

/-- What users rely on: no symbol makes the demangler panic. -/
def C29_Claim : Prop := ∀ symbol n, symbolNames n symbol ≠ some .panic

/-- A component whose stated length ends inside a character. -/
theorem C29_panics : ¬ C29_Claim := by
  intro h
  exact h (str! "_ZN1éE") 5 (by decide +kernel)

/-- The same in v0 mangling. -/
theorem C29_panics_v0 : symbolNames 5 (str! "_Ré") = some .panic := by decide +kernel

theorem stripText_suffix : ∀ {p s r : Str}, stripText p s = some r → r <:+ s
  | [], s, r, h => by cases h; exact List.suffix_rfl
  | _ :: _, [], r, h => by simp [stripText] at h
  | p :: ps, c :: s, r, h => by
    rw [stripText] at h
    split at h
    · exact (stripText_suffix h).trans (List.suffix_cons _ _)
    · cases h

theorem iter_ascii {symbol : Str} (ha : ∀ c ∈ symbol, c.toNat < 128) : (Iter.new symbol).Ascii := by
  have ha : Ascii symbol := ha
  unfold Iter.new
  split
  · rename_i h; exact ha.of_suffix (stripText_suffix h)
  · split
    · rename_i h
      simp only [Option.bind_eq_some_iff] at h
      obtain ⟨x, h1, h2⟩ := h
      unfold stripLast at h2
      split at h2
      · cases h2
        have := ha.of_suffix (stripText_suffix h1)
        exact fun c hc => this c ((List.dropLast_sublist x).subset hc)
      · cases h2
    · trivial

theorem toks_ascii {symbol : Str} (ha : ∀ c ∈ symbol, c.toNat < 128) (n : Nat) :
    (toks Iter.next n (Iter.new symbol)).2 ≠ .panic :=
  toks_end Iter.next (fun it => it.Ascii) .panic (Or.inl ⟨rfl, fun _ hs => (Iter.next_ascii hs).1⟩)
    (fun _ t s' hs h => (Iter.next_ascii hs).2 t s' h) n _ (iter_ascii ha)

/-- No symbol of ASCII characters makes the demangler panic.

What is missing: see `C29_panics`. Rust itself only makes ASCII symbols; others come from foreign object files or
`#[export_name]`. -/
theorem C29_ascii_partial (symbol : Str) (ha : ∀ c ∈ symbol, c.toNat < 128) (n : Nat) :
    symbolNames n symbol ≠ some .panic := collect_no_panic (toks_ascii ha n) _ _ _ _

example : symbolNames 20 (str! "_RNvMs_NtCs1_3std2fsNtB4_4File4open") ≠ some .panic :=
  C29_ascii_partial _ (by decide) _

/-! ## C27: legacy mangling -/

/-- What users rely on: the path of a legacy symbol is its only name. (The iterator always ends with an empty
name.) -/
def C27_Claim : Prop := ∀ path symbol, path ≠ [] → (∀ i ∈ path, Ident i ∧ i.length < 2 ^ 64) →
  LegacySymbol path symbol → Gives symbol (.names [path, []])

theorem letter_not_digit {c : Char} (h : Letter c ∨ c = '_') : isDigit c = false := by
  cases hd : isDigit c with
  | false => rfl
  | true =>
    have h2 := isDigit_iff.mp hd
    unfold Letter at h
    unfold Digit at h2
    simp only [Char.le_def] at h h2
    rcases h with (h | h) | rfl
    · have : ('a' : Char).val ≤ '9'.val := UInt32.le_trans h.1 h2.2
      exact absurd this (by decide)
    · have : ('A' : Char).val ≤ '9'.val := UInt32.le_trans h.1 h2.2
      exact absurd this (by decide)
    · exact absurd h2.2 (by decide)

theorem ident_ascii {i : Str} (h : Ident i) : Ascii i := by
  obtain ⟨c, r, rfl, hc, hr⟩ := h
  have hl : ∀ c : Char, Letter c → c.toNat < 128 := by
    intro c h
    unfold Letter at h
    simp only [Char.le_def, UInt32.le_iff_toNat_le] at h
    have h1 : ('z' : Char).val.toNat = 122 := rfl
    have h2 : ('Z' : Char).val.toNat = 90 := rfl
    have h3 : c.toNat = c.val.toNat := rfl
    omega
  have hd : ∀ c : Char, Digit c → c.toNat < 128 := by
    intro c h
    unfold Digit at h
    simp only [Char.le_def, UInt32.le_iff_toNat_le] at h
    have h1 : ('9' : Char).val.toNat = 57 := rfl
    have h3 : c.toNat = c.val.toNat := rfl
    omega
  intro d hd'
  simp only [List.mem_cons] at hd'
  rcases hd' with rfl | hd'
  · rcases hc with h | rfl
    · exact hl _ h
    · decide
  · rcases hr d hd' with h | h | rfl
    · exact hl _ h
    · exact hd _ h
    · decide

theorem ident_bytes {i : Str} (h : Ident i) : byteLen i = i.length := byteLen_ascii (ident_ascii h)

theorem ident_chars {i : Str} (h : Ident i) {c : Char} (hc : c ∈ i) : c ≠ '$' := by
  rintro rfl
  obtain ⟨d, r, rfl, hd, hr⟩ := h
  simp only [List.mem_cons] at hc
  rcases hc with rfl | hc
  · rcases hd with h | h
    · unfold Letter at h; simp only [Char.le_def] at h; exact absurd h (by decide)
    · exact absurd h (by decide)
  · rcases hr _ hc with h | h | h
    · unfold Letter at h; simp only [Char.le_def] at h; exact absurd h (by decide)
    · unfold Digit at h; simp only [Char.le_def] at h; exact absurd h (by decide)
    · exact absurd h (by decide)

theorem ident_not_number {i : Str} (h : Ident i) : isI64 i = false := by
  obtain ⟨c, r, rfl, hc, _⟩ := h
  have hd := letter_not_digit hc
  have hp : c ≠ '+' ∧ c ≠ '-' := by
    constructor
    · rintro rfl
      rcases hc with h | h
      · unfold Letter at h; simp only [Char.le_def] at h; exact absurd h (by decide)
      · exact absurd h (by decide)
    · rintro rfl
      rcases hc with h | h
      · unfold Letter at h; simp only [Char.le_def] at h; exact absurd h (by decide)
      · exact absurd h (by decide)
  unfold isI64
  split
  · rename_i x hx; cases hx; exact absurd rfl hp.1
  · rename_i x hx; cases hx; exact absurd rfl hp.2
  · simp [hd]

/-- One component of a legacy symbol. -/
theorem component_exact {ds i rest : Str} (hn : Numeral ds (byteLen i)) (hi : i ≠ [])
    (hd : ∀ c, i.head? = some c → isDigit c = false) (hlen : byteLen i < 2 ^ 64) :
    component (ds ++ i ++ rest) = .ok (i, rest) := by
  obtain ⟨h1, h2, h3⟩ := numeral_spec hn
  obtain ⟨c, r, rfl⟩ := List.exists_cons_of_ne_nil hi
  unfold component
  rw [List.append_assoc, digits_exact ds _ h2 (by intro d hd'; exact hd d (by simpa using hd'))]
  simp only [h3]
  rw [if_neg (by simp), if_neg h1, if_neg (by omega), if_neg]
  · rw [splitBytes_exact]
  · have : ∀ a b : Str, byteLen (a ++ b) = byteLen a + byteLen b := by
      intro a b
      induction a with
      | nil => simp [byteLen]
      | cons x a ih => simp only [List.cons_append, byteLen, ih]; omega
    rw [this]
    omega

theorem next_legacy {ds i rest : Str} (hn : Numeral ds (byteLen i)) (hi : i ≠ [])
    (hd : ∀ c, i.head? = some c → isDigit c = false ∧ c ≠ '_') (hlen : byteLen i < 2 ^ 64) (h4 : '$' ∉ i) :
    Iter.next (.legacy { outer := ds ++ i ++ rest }) =
      .tok (.text i (i.length + rest.length)) (.legacy { outer := rest }) := by
  have hc := component_exact (rest := rest) hn hi (fun c hc => (hd c hc).1) hlen
  rw [Iter.next, legacyNext]
  simp only [reduceCtorEq, if_false, hc]
  obtain ⟨c, r, rfl⟩ := List.exists_cons_of_ne_nil hi
  split
  · rename_i e; cases e; exact absurd rfl (hd _ rfl).2
  · rw [if_neg h4]; rfl

/-- Texts that are read as parts of a name. -/
structure Readable (i : Str) : Prop where
  notMut : i ≠ str! "mut"
  notNumber : isI64 i = false

/-- A text becomes a part of the name. -/
theorem iterate_part {e : End} {i : Str} {pos : Nat} {rest : List Tok} {st : State} {af : Option (Str × Nat)}
    (hr : Readable i) (hsp : rest.head? ≠ some (.char ' ')) (hh : ¬ (isHash i ∧ rest = []))
    (haf : af ≠ some (i, pos)) (hst : st = .inactive ∨ st = .outputting) :
    iterate e { it := .text i pos :: rest, state := st, asFinal := af } =
      .emit (.part i) { it := rest, state := .outputting, asFinal := af } := by
  unfold iterate onText
  simp only []
  rw [if_neg hr.notMut, if_neg (by simp), if_neg (by simp [hr.notNumber]), if_neg (fun h => hsp h.2), if_neg haf,
    if_neg hh]
  rcases hst with rfl | rfl <;> rfl

/-- Tokens that are texts, with their texts. -/
def Texts (l : List Tok) (path : List Str) : Prop := ∃ ps : List Nat, l = List.zipWith Tok.text path ps ∧
  ps.length = path.length

theorem Texts.nil : Texts [] [] := ⟨[], rfl, rfl⟩

theorem Texts.cons {l : List Tok} {path : List Str} (i : Str) (p : Nat) (h : Texts l path) :
    Texts (.text i p :: l) (i :: path) := by
  obtain ⟨ps, h1, h2⟩ := h
  exact ⟨p :: ps, by rw [h1]; rfl, by simp [h2]⟩

/-- Reading texts. -/
theorem collect_texts {e : End} {rest : List Tok} (hsp : rest.head? ≠ some (.char ' ')) :
    ∀ (path : List Str) (l : List Tok), Texts l path →
    (∀ i ∈ path, Readable i ∧ ¬ (isHash i ∧ rest = [])) → path ≠ [] →
    ∀ (n : Nat) (st : State) (current : List Str) (done : List (List Str)), (st = .inactive ∨ st = .outputting) →
      collect e (n + path.length) { it := l ++ rest, state := st } current done =
        collect e n { it := rest, state := .outputting } (current ++ path) done := by
  intro path
  induction path with
  | nil => intro _ _ _ h; exact absurd rfl h
  | cons i path ih =>
    intro l hl hp _ n st current done hst
    obtain ⟨ps, rfl, hps⟩ := hl
    match ps, hps with
    | p :: ps, hps =>
      simp only [List.length_cons, Nat.add_right_cancel_iff] at hps
      have hstep : iterate e { it := .text i p :: (List.zipWith Tok.text path ps ++ rest), state := st } =
          .emit (.part i) { it := List.zipWith Tok.text path ps ++ rest, state := .outputting } := by
        apply iterate_part (hp i (by simp)).1 _ _ (by simp) hst
        · match path, ps, hps with
          | [], [], _ => exact hsp
          | a :: path, q :: ps, _ => simp
        · intro hh
          match path, ps, hps with
          | [], [], _ => exact (hp i (by simp)).2 hh
          | a :: path, q :: ps, _ => simp at hh
      rw [show n + (i :: path).length = (n + path.length) + 1 by simp; omega, List.zipWith_cons_cons,
        List.cons_append, collect, hstep]
      simp only []
      cases hpath : path with
      | nil =>
        subst hpath
        have : ps = [] := by simpa using hps
        subst this
        simp
      | cons a path' =>
        rw [← hpath]
        rw [ih _ ⟨ps, rfl, hps⟩ (fun j hj => hp j (by simp [hj])) (by rw [hpath]; simp) n .outputting _ _ (Or.inr rfl)]
        simp

theorem collect_final (current : List Str) (done : List (List Str)) (n : Nat) :
    collect .fin (n + 2) { it := [], state := .outputting } current done = some (.names (done ++ [current] ++ [[]])) :=
  rfl

/-- A readable identifier in legacy mangling. -/
structure LegacyIdent (i : Str) : Prop where
  ident : Ident i
  notMut : i ≠ str! "mut"
  noUnderscore : i.head? ≠ some '_'
  short : i.length < 2 ^ 64

theorem toks_components {path : List Str} {s : Str} (h : Components path s) (hp : ∀ i ∈ path, LegacyIdent i) (rest : Str) :
    ∃ l, Texts l path ∧ ∀ n, toks Iter.next (n + path.length) (.legacy { outer := s ++ rest }) =
      (l ++ (toks Iter.next n (.legacy { outer := rest })).1, (toks Iter.next n (.legacy { outer := rest })).2) := by
  induction h with
  | nil => exact ⟨[], .nil, fun n => by simp⟩
  | @cons i path ds s hn _ ih =>
    obtain ⟨l, h1, h2⟩ := ih (fun j hj => hp j (by simp [hj]))
    have hi := hp i (by simp)
    have hb := ident_bytes hi.ident
    refine ⟨.text i (i.length + (s ++ rest).length) :: l, .cons _ _ h1, fun n => ?_⟩
    have := next_legacy (rest := s ++ rest) (hb ▸ hn) (by obtain ⟨c, r, rfl, _⟩ := hi.ident; simp)
      (by
        obtain ⟨c, r, rfl, hc, _⟩ := hi.ident
        intro d hd
        simp only [List.head?_cons, Option.some.injEq] at hd
        subst hd
        exact ⟨letter_not_digit hc, fun e => hi.noUnderscore (by rw [e]; rfl)⟩)
      (by rw [hb]; exact hi.short) (fun hc => ident_chars hi.ident hc rfl)
    rw [show n + (i :: path).length = (n + path.length) + 1 by simp; omega, toks]
    rw [show ds ++ i ++ s ++ rest = ds ++ i ++ (s ++ rest) by simp, this]
    simp only [h2 n]
    rfl

theorem hex_spec {c : Char} (h : Hex c) : (hexDigit c).isSome = true ∧ c.toNat < 128 := by
  unfold Hex Digit at h
  simp only [Char.le_def, UInt32.le_iff_toNat_le] at h
  have h1 : ('0' : Char).val.toNat = 48 := rfl
  have h2 : ('9' : Char).val.toNat = 57 := rfl
  have h3 : ('a' : Char).val.toNat = 97 := rfl
  have h4 : ('f' : Char).val.toNat = 102 := rfl
  have h5 : c.toNat = c.val.toNat := rfl
  refine ⟨?_, by omega⟩
  unfold hexDigit
  split
  · rfl
  · rename_i hd
    rcases h with h | h
    · exact absurd (isDigit_iff.mpr (show Digit c by
        unfold Digit; simp only [Char.le_def, UInt32.le_iff_toNat_le]; exact h)) hd
    · rw [if_pos (by
        have h6 : ('a' : Char).toNat = 97 := rfl
        have h7 : ('f' : Char).toNat = 102 := rfl
        omega)]
      rfl

theorem hex_of {c : Char} (h : (hexDigit c).isSome = true) : Hex c ∨ ('A' ≤ c ∧ c ≤ 'F') := by
  unfold hexDigit at h
  split at h
  · rename_i hd
    exact Or.inl (Or.inl (isDigit_iff.mp hd))
  · split at h
    · rename_i _ hc
      exact Or.inl (Or.inr (by simp only [Char.le_def, UInt32.le_iff_toNat_le]; exact hc))
    · split at h
      · rename_i _ _ hc
        exact Or.inr (by simp only [Char.le_def, UInt32.le_iff_toNat_le]; exact hc)
      · cases h

theorem isHash_false {i : Str} (hi : Ident i) (h : ¬ HashLike i) : isHash i = false := by
  cases hh : isHash i with
  | false => rfl
  | true =>
    exfalso
    unfold isHash at hh
    simp only [Bool.and_eq_true, decide_eq_true_eq, beq_iff_eq, List.all_eq_true] at hh
    obtain ⟨⟨h1, h2⟩, h3⟩ := hh
    obtain ⟨c, r, rfl, _⟩ := id hi
    rw [ident_bytes hi] at h1
    simp only [List.head?_cons, Option.some.injEq] at h2
    subst h2
    exact h ⟨r, rfl, by simpa using h1, fun d hd => hex_of (h3 d hd)⟩

theorem not_hashLike {i : Str} (h : i.length ≠ 17) : ¬ HashLike i := by
  rintro ⟨r, rfl, hr, _⟩
  simp [hr] at h

/-- A path of identifiers that neither begin with an underscore nor are `mut` is recovered exactly from its symbol in
legacy mangling, without the hash.

What is missing: see `C27_underscore` and `C27_mut`. -/
theorem C27_legacy_path_partial (path : List Str) (symbol : Str) (hne : path ≠ [])
    (hp : ∀ i ∈ path, LegacyIdent i) (hs : LegacySymbol path symbol) : Gives symbol (.names [path, []]) := by
  obtain ⟨s, hash, hc, hl, hhex, rfl⟩ := hs
  have hnew : Iter.new (str! "_ZN" ++ s ++ str! "17h" ++ hash ++ str! "E") =
      .legacy { outer := s ++ (str! "17" ++ ('h' :: hash) ++ []) } := by
    have e : str! "_ZN" ++ s ++ str! "17h" ++ hash ++ str! "E" =
        '_' :: 'Z' :: 'N' :: ((s ++ (str! "17" ++ ('h' :: hash) ++ [])) ++ ['E']) := by simp
    rw [e]
    unfold Iter.new
    simp only [stripText, if_true, Option.bind_some, stripLast]
    rw [if_neg (by decide), List.getLast?_concat, if_pos rfl, List.dropLast_concat]
  have hasc : Ascii ('h' :: hash) := by
    intro c hc
    simp only [List.mem_cons] at hc
    rcases hc with rfl | hc
    · decide
    · exact (hex_spec (hhex c hc)).2
  have hbytes : byteLen ('h' :: hash) = 17 := by rw [byteLen_ascii hasc]; simp [hl]
  have hdollar : '$' ∉ 'h' :: hash := by
    intro hm
    simp only [List.mem_cons] at hm
    rcases hm with hm | hm
    · exact absurd hm (by decide)
    · have := hhex _ hm
      unfold Hex Digit at this
      simp only [Char.le_def] at this
      exact absurd this (by decide)
  have h17 : Numeral (str! "17") 17 := by
    have h1 : Numeral ['1'] 1 := .one (by unfold Digit; simp only [Char.le_def]; decide)
    exact .more (c := '7') (s := ['1']) h1 (by unfold Digit; simp only [Char.le_def]; decide)
  have hnext := next_legacy (rest := []) (i := 'h' :: hash) (ds := str! "17") (by rw [hbytes]; exact h17) (by simp)
    (by intro c hc; simp only [List.head?_cons, Option.some.injEq] at hc; subst hc; exact ⟨rfl, by decide⟩)
    (by rw [hbytes]; decide) hdollar
  obtain ⟨l, hl1, hl2⟩ := toks_components hc hp (str! "17" ++ ('h' :: hash) ++ [])
  have ht := hl2 2
  rw [toks, hnext] at ht
  simp only [] at ht
  rw [show toks Iter.next 1 (.legacy { outer := [] }) = ([], .fin) by rfl] at ht
  unfold Gives symbolNames
  rw [hnew]
  refine namesOf_of Iter.next _ _ _ (3 + path.length) (.names [path, []]) ht ?_
  rw [collect_texts (by simp) path l hl1 _ hne 3 .inactive [] [] (Or.inl rfl)]
  · rw [collect]
    have hhash : isHash ('h' :: hash) = true := by
      unfold isHash
      rw [hbytes]
      simp only [decide_true, List.head?_cons, beq_self_eq_true, Bool.true_and, List.tail_cons, List.all_eq_true]
      exact fun c hc => (hex_spec (hhex c hc)).1
    have : ∀ pos, iterate .fin { it := [.text ('h' :: hash) pos], state := .outputting } =
        .cont { it := [], state := .outputting } := by
      intro pos
      unfold iterate onText
      simp only []
      have hI : isI64 ('h' :: hash) = false := by
        simp [isI64, show isDigit 'h' = false by rfl]
      rw [if_neg (by simp), if_neg (by simp), if_neg (by simp [hI]), if_neg (by simp), if_neg (by simp),
        if_pos ⟨hhash, trivial⟩]
    rw [this]
    rfl
  · intro i hi
    refine ⟨⟨(hp i hi).notMut, ident_not_number (hp i hi).ident⟩, ?_⟩
    rintro ⟨_, h⟩
    cases h

theorem digit_of {c : Char} (h : isDigit c = true) : Digit c := isDigit_iff.mp h

/-- `std::fs::open` -/
example : Gives (str! "_ZN3std2fs4open17h0123456789abcdefE") (.names [[str! "std", str! "fs", str! "open"], []]) := by
  have one : ∀ c : Char, isDigit c = true → Numeral [c] (c.toNat - 48) := fun c h => .one (digit_of h)
  have lt : ∀ c : Char, ('a'.val ≤ c.val ∧ c.val ≤ 'z'.val) → Letter c := fun c h => Or.inl h
  refine C27_legacy_path_partial _ _ (by simp) ?_
    ⟨str! "3" ++ str! "std" ++ (str! "2" ++ str! "fs" ++ (str! "4" ++ str! "open" ++ [])), str! "0123456789abcdef",
      .cons (one '3' rfl) (.cons (one '2' rfl) (.cons (one '4' rfl) .nil)), rfl, ?_, rfl⟩
  · intro i hi
    simp only [List.mem_cons, List.not_mem_nil, or_false] at hi
    rcases hi with rfl | rfl | rfl
    · exact ⟨⟨_, _, rfl, Or.inl (lt _ (by decide)), by
        intro d hd; simp at hd; rcases hd with rfl | rfl <;> exact Or.inl (lt _ (by decide))⟩,
        by decide, by decide, by decide⟩
    · exact ⟨⟨_, _, rfl, Or.inl (lt _ (by decide)), by
        intro d hd; simp at hd; rcases hd with rfl; exact Or.inl (lt _ (by decide))⟩,
        by decide, by decide, by decide⟩
    · exact ⟨⟨_, _, rfl, Or.inl (lt _ (by decide)), by
        intro d hd; simp at hd; rcases hd with rfl | rfl | rfl <;> exact Or.inl (lt _ (by decide))⟩,
        by decide, by decide, by decide⟩
  · intro c hc
    simp at hc
    unfold Hex Digit
    simp only [Char.le_def]
    rcases hc with rfl | rfl | rfl | rfl | rfl | rfl | rfl | rfl | rfl | rfl | rfl | rfl | rfl | rfl | rfl | rfl <;> decide

theorem legacy_example (i ds : Str) (hi : Numeral ds i.length) :
    LegacySymbol [i] (str! "_ZN" ++ (ds ++ i ++ []) ++ str! "17h" ++ str! "0123456789abcdef" ++ str! "E") := by
  refine ⟨ds ++ i ++ [], str! "0123456789abcdef", .cons hi .nil, rfl, ?_, rfl⟩
  intro c hc
  simp at hc
  unfold Hex Digit
  simp only [Char.le_def]
  rcases hc with rfl | rfl | rfl | rfl | rfl | rfl | rfl | rfl | rfl | rfl | rfl | rfl | rfl | rfl | rfl | rfl <;> decide

theorem numeral_three : Numeral (str! "3") 3 := .one (c := '3') (digit_of rfl)

theorem ident_lower {i : Str} (hne : i ≠ []) (h : ∀ c ∈ i, ('a'.val ≤ c.val ∧ c.val ≤ 'z'.val) ∨ c = '_') : Ident i := by
  obtain ⟨c, r, rfl⟩ := List.exists_cons_of_ne_nil hne
  refine ⟨c, r, rfl, ?_, ?_⟩
  · rcases h c (by simp) with h | h
    · exact Or.inl (Or.inl h)
    · exact Or.inr h
  · intro d hd
    rcases h d (by simp [hd]) with h | h
    · exact Or.inl (Or.inl h)
    · exact Or.inr (Or.inr h)

/-- The first character of an identifier that begins with an underscore is lost: `_fs` is read as `fs`. -/
theorem C27_underscore : ¬ C27_Claim := by
  intro h
  have h1 := h [str! "_fs"] _ (by simp) (by
    intro i hi
    simp only [List.mem_cons, List.not_mem_nil, or_false] at hi
    subst hi
    exact ⟨ident_lower (by simp) (by decide), by decide⟩) (legacy_example (str! "_fs") (str! "3") numeral_three)
  have h2 : Gives (str! "_ZN" ++ (str! "3" ++ str! "_fs" ++ []) ++ str! "17h" ++ str! "0123456789abcdef" ++ str! "E")
    (.names [[str! "fs"], []]) := .of (n := 9) (by decide +kernel) (by decide +kernel)
  exact absurd (h1.unique h2) (by decide)

/-- The path component `mut` (a raw identifier) is left out. -/
theorem C27_mut : LegacySymbol [str! "mut"] (str! "_ZN3mut17h0123456789abcdefE") ∧
    Gives (str! "_ZN3mut17h0123456789abcdefE") (.names [[]]) :=
  ⟨legacy_example (str! "mut") (str! "3") numeral_three, .of (n := 9) (by decide +kernel) (by decide +kernel)⟩

end Cackle.Names
