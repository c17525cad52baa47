import Verif.Props.Demangle

/-!
# C74, C75: names of symbols in v0 mangling
-/

namespace Cackle.Names
open Cackle Demangle

/-! ## Steps of the iterator -/

/-- `v0Next` with enough fuel. -/
def nx (data : Str) : Next Str := v0Next (data.length + 1) data

theorem nx_again {tag : Char} {rest s : Str} (h : v0Step tag rest = .again s) : nx (tag :: rest) = nx s := by
  have hl : s.length ≤ rest.length := by
    have := (v0Step_spec tag rest).2
    rw [h] at this
    exact this
  unfold nx
  rw [List.length_cons, v0Next, h]
  simp only []
  obtain ⟨k, hk⟩ : ∃ k, rest.length + 1 = s.length + 1 + k := ⟨rest.length - s.length, by omega⟩
  rw [hk, v0Next_more _ _ _ (by omega)]

theorem nx_tok {tag : Char} {rest s : Str} {t : Tok} (h : v0Step tag rest = .tok t s) :
    nx (tag :: rest) = .tok t s := by
  unfold nx
  rw [List.length_cons, v0Next, h]

theorem findSplit_exact {c : Char} : ∀ {a : Str} (b : Str), c ∉ a → findSplit c (a ++ c :: b) = some (a, b)
  | [], b, _ => by simp [findSplit]
  | d :: a, b, h => by
    simp only [List.mem_cons, not_or] at h
    rw [List.cons_append, findSplit, if_neg (fun e => h.1 e.symm), findSplit_exact b h.2]
    rfl

/-- Identifiers that the v0 theorems are about. -/
structure V0Readable (i : Str) : Prop where
  ident : Ident i
  notMut : i ≠ str! "mut"
  notHash : ¬ HashLike i
  short : i.length < 2 ^ 64

theorem byteLen_append (a b : Str) : byteLen (a ++ b) = byteLen a + byteLen b := by
  induction a with
  | nil => simp [byteLen]
  | cons x a ih => simp only [List.cons_append, byteLen, ih]; omega

theorem numeral_head {ds : Str} {n : Nat} (h : Numeral ds n) : ∃ c r, ds = c :: r ∧ isDigit c = true := by
  obtain ⟨h1, h2, _⟩ := numeral_spec h
  obtain ⟨c, r, rfl⟩ := List.exists_cons_of_ne_nil h1
  exact ⟨c, r, rfl, h2 c (by simp)⟩

theorem digit_ne {c : Char} (h : isDigit c = true) {d : Char} (hd : isDigit d = false) : c ≠ d := by
  rintro rfl
  rw [h] at hd
  cases hd

/-- What `Ident` and the encoding guarantee, with an arbitrary text after it. -/
theorem parse_exact {i ds sep k : Str} (hi : Ident i) (hshort : i.length < 2 ^ 64) (hn : Numeral ds i.length)
    (hsep : sep = [] ∧ i.head? ≠ some '_' ∨ sep = ['_'] ∧ i.head? = some '_') :
    parseUndisambiguated (ds ++ (sep ++ (i ++ k))) = .ok (i, k) := by
  obtain ⟨h1, h2, h3⟩ := numeral_spec hn
  obtain ⟨c, r, hcr, hc⟩ := numeral_head hn
  have hb := ident_bytes hi
  have hu : stripOne 'u' (ds ++ (sep ++ (i ++ k))) = ds ++ (sep ++ (i ++ k)) := by
    rw [hcr, List.cons_append, stripOne, if_neg (digit_ne hc rfl)]
  have hhead : ∀ d, (sep ++ (i ++ k)).head? = some d → isDigit d = false := by
    obtain ⟨a, t, rfl, ha, _⟩ := hi
    rcases hsep with ⟨rfl, _⟩ | ⟨rfl, _⟩
    · intro d hd
      simp only [List.nil_append, List.cons_append, List.head?_cons, Option.some.injEq] at hd
      subst hd
      exact letter_not_digit ha
    · intro d hd
      simp only [List.cons_append, List.head?_cons, Option.some.injEq] at hd
      subst hd
      rfl
  have hstrip : stripOne '_' (sep ++ (i ++ k)) = i ++ k := by
    obtain ⟨a, t, rfl, _, _⟩ := hi
    rcases hsep with ⟨rfl, h⟩ | ⟨rfl, _⟩
    · rw [List.nil_append, List.cons_append, stripOne, if_neg]
      rintro rfl
      exact h rfl
    · rw [List.cons_append, stripOne, if_pos rfl]; rfl
  unfold parseUndisambiguated parseDecimal
  rw [hu]
  simp only [digits_exact ds _ h2 hhead, h3]
  rw [if_neg (by omega), if_neg h1]
  simp only [hstrip]
  rw [if_pos (by rw [byteLen_append]; omega), ← hb, splitBytes_exact]

theorem parseIdentifier_exact {i d e k : Str} (hi : Ident i) (hshort : i.length < 2 ^ 64) (hd : Disambiguator d)
    (he : V0Ident i e) : parseIdentifier (d ++ (e ++ k)) = .ok (i, k) := by
  have key : parseUndisambiguated (e ++ k) = .ok (i, k) ∧ ∃ c r, e = c :: r ∧ isDigit c = true := by
    cases he with
    | @plain ds hn hh =>
      obtain ⟨c, r, e1, hc⟩ := numeral_head hn
      refine ⟨?_, c, r ++ i, by rw [e1]; rfl, hc⟩
      have := parse_exact (k := k) hi hshort hn (Or.inl ⟨rfl, hh⟩)
      simpa using this
    | @separated ds hn hh =>
      obtain ⟨c, r, e1, hc⟩ := numeral_head hn
      refine ⟨?_, c, r ++ '_' :: i, by rw [e1]; rfl, hc⟩
      have := parse_exact (k := k) hi hshort hn (Or.inr ⟨rfl, hh⟩)
      simpa using this
  obtain ⟨key, c, r, rfl, hc⟩ := key
  unfold parseIdentifier
  cases hd with
  | none =>
    have : parseDisambiguator ([] ++ (c :: r ++ k)) = some (c :: r ++ k) := by
      rw [List.nil_append, List.cons_append]
      unfold parseDisambiguator
      split
      · rename_i h; cases h; exact absurd hc (by decide)
      · rfl
    rw [this]
    exact key
  | @some b hb =>
    have : parseDisambiguator ('s' :: b ++ ['_'] ++ (c :: r ++ k)) = some (c :: r ++ k) := by
      have e1 : 's' :: b ++ ['_'] ++ (c :: r ++ k) = 's' :: (b ++ '_' :: (c :: r ++ k)) := by simp
      rw [e1]
      unfold parseDisambiguator
      simp only [findSplit_exact _ hb, Option.map_some]
    rw [this]
    exact key

theorem digit_cases {c : Char} (h : isDigit c = true) : c = '0' ∨ c = '1' ∨ c = '2' ∨ c = '3' ∨ c = '4' ∨
    c = '5' ∨ c = '6' ∨ c = '7' ∨ c = '8' ∨ c = '9' := by
  have hd := isDigit_iff.mp h
  unfold Digit at hd
  simp only [Char.le_def, UInt32.le_iff_toNat_le] at hd
  have h1 : ('0' : Char).val.toNat = 48 := rfl
  have h2 : ('9' : Char).val.toNat = 57 := rfl
  have key : ∀ d : Char, c.val.toNat = d.val.toNat → c = d := fun d h => Char.ext (UInt32.toNat_inj.mp h)
  have : c.val.toNat = 48 ∨ c.val.toNat = 49 ∨ c.val.toNat = 50 ∨ c.val.toNat = 51 ∨ c.val.toNat = 52 ∨
    c.val.toNat = 53 ∨ c.val.toNat = 54 ∨ c.val.toNat = 55 ∨ c.val.toNat = 56 ∨ c.val.toNat = 57 := by omega
  rcases this with h | h | h | h | h | h | h | h | h | h
  · exact Or.inl (key '0' h)
  · exact Or.inr (Or.inl (key '1' h))
  · exact Or.inr (Or.inr (Or.inl (key '2' h)))
  · exact Or.inr (Or.inr (Or.inr (Or.inl (key '3' h))))
  · exact Or.inr (Or.inr (Or.inr (Or.inr (Or.inl (key '4' h)))))
  · exact Or.inr (Or.inr (Or.inr (Or.inr (Or.inr (Or.inl (key '5' h))))))
  · exact Or.inr (Or.inr (Or.inr (Or.inr (Or.inr (Or.inr (Or.inl (key '6' h)))))))
  · exact Or.inr (Or.inr (Or.inr (Or.inr (Or.inr (Or.inr (Or.inr (Or.inl (key '7' h))))))))
  · exact Or.inr (Or.inr (Or.inr (Or.inr (Or.inr (Or.inr (Or.inr (Or.inr (Or.inl (key '8' h)))))))))
  · exact Or.inr (Or.inr (Or.inr (Or.inr (Or.inr (Or.inr (Or.inr (Or.inr (Or.inr (key '9' h)))))))))

theorem step_digit {c : Char} (h : isDigit c = true) (rest : Str) :
    v0Step c rest = identStep (c :: rest) .done := by
  rcases digit_cases h with rfl | rfl | rfl | rfl | rfl | rfl | rfl | rfl | rfl | rfl <;> rfl

theorem step_s (rest : Str) : v0Step 's' rest = identStep ('s' :: rest) .done := rfl
theorem step_C (rest : Str) : v0Step 'C' rest = identStep rest .done := rfl
theorem step_N (rest : Str) : v0Step 'N' rest = nestedStep rest := rfl

/-- An identifier inside a path. -/
theorem nx_ident {i d e k : Str} (hi : V0Readable i) (hd : Disambiguator d) (he : V0Ident i e) :
    nx (d ++ (e ++ k)) = .tok (.text i (i.length + k.length)) k := by
  have hp := parseIdentifier_exact (k := k) hi.ident hi.short hd he
  have hid : identStep (d ++ (e ++ k)) .done = .tok (.text i (i.length + k.length)) k := by
    unfold identStep; rw [hp]
  cases hd with
  | none =>
    have : ∃ c r, e = c :: r ∧ isDigit c = true := by
      cases he with
      | @plain ds hn hh =>
        obtain ⟨c, r, e1, hc⟩ := numeral_head hn
        exact ⟨c, r ++ i, by rw [e1]; rfl, hc⟩
      | @separated ds hn hh =>
        obtain ⟨c, r, e1, hc⟩ := numeral_head hn
        exact ⟨c, r ++ '_' :: i, by rw [e1]; rfl, hc⟩
    obtain ⟨c, r, rfl, hc⟩ := this
    refine nx_tok ?_
    rw [step_digit hc]
    exact hid
  | some hb =>
    refine nx_tok ?_
    rw [step_s]
    exact hid

/-- The crate at the beginning of a path. -/
theorem nx_crate {i d e k : Str} (hi : V0Readable i) (hd : Disambiguator d) (he : V0Ident i e) :
    nx ('C' :: (d ++ (e ++ k))) = .tok (.text i (i.length + k.length)) k := by
  refine nx_tok ?_
  rw [step_C]
  unfold identStep
  rw [parseIdentifier_exact (k := k) hi.ident hi.short hd he]

theorem nx_nested {ns : Char} (h : ns = 't' ∨ ns = 'v') (rest : Str) : nx ('N' :: ns :: rest) = nx rest := by
  refine nx_again ?_
  rcases h with rfl | rfl <;> rfl

/-- The tokens of a v0 symbol. -/
def v0Toks (n : Nat) (data : Str) : List Tok × End := toks Iter.next n (.v0 data)

theorem v0Toks_tok {data s : Str} {t : Tok} (h : nx data = .tok t s) (n : Nat) :
    v0Toks (n + 1) data = (t :: (v0Toks n s).1, (v0Toks n s).2) := by
  unfold v0Toks
  rw [toks, Iter.next, show v0Next (data.length + 1) data = .tok t s from h]
  rfl

theorem v0Toks_eq {data s : Str} (h : nx data = nx s) (n : Nat) : v0Toks (n + 1) data = v0Toks (n + 1) s := by
  unfold v0Toks
  rw [toks, toks, Iter.next, Iter.next, show v0Next (data.length + 1) data = v0Next (s.length + 1) s from h]

/-- A path is read as the texts of its identifiers, whatever follows. -/
theorem v0Toks_path {p : List Str} {s : Str} (h : V0Path p s) : p ≠ [] ∧ ((∀ i ∈ p, V0Readable i) → ∀ k,
    ∃ l, Texts l p ∧ ∀ n, v0Toks (n + p.length) (s ++ k) = (l ++ (v0Toks n k).1, (v0Toks n k).2)) := by
  induction h with
  | @crate i d e hd he =>
    refine ⟨by simp, fun hp k => ⟨[.text i (i.length + k.length)], .cons _ _ .nil, fun n => ?_⟩⟩
    have := nx_crate (k := k) (hp i (by simp)) hd he
    rw [show 'C' :: (d ++ e) ++ k = 'C' :: (d ++ (e ++ k)) by simp]
    exact v0Toks_tok this n
  | @nested p i s d e ns hns _ hd he ih =>
    refine ⟨by simp, fun hp k => ?_⟩
    obtain ⟨l, hl, ht⟩ := ih.2 (fun j hj => hp j (by simp [hj])) (d ++ (e ++ k))
    refine ⟨l ++ [.text i (i.length + k.length)], ?_, fun n => ?_⟩
    · obtain ⟨ps, h1, h2⟩ := hl
      refine ⟨ps ++ [i.length + k.length], ?_, by simp [h2]⟩
      rw [h1, List.zipWith_append h2.symm]
      rfl
    · have hpos : 0 < p.length := List.length_pos_iff.mpr ih.1
      rw [show 'N' :: ns :: (s ++ d ++ e) ++ k = 'N' :: ns :: (s ++ (d ++ (e ++ k))) by simp]
      rw [show n + (p ++ [i]).length = (n + p.length) + 1 by simp; omega]
      rw [v0Toks_eq (nx_nested hns _)]
      rw [show n + p.length + 1 = (n + 1) + p.length by omega, ht (n + 1),
        v0Toks_tok (nx_ident (hp i (by simp)) hd he) n]
      simp

/-! ## C74: plain paths -/

/-- What users rely on: the path of a v0 symbol is its only name. -/
def C74_Claim : Prop := ∀ path s, V0Path path s → (∀ i ∈ path, Ident i ∧ i ≠ str! "mut" ∧ i.length < 2 ^ 64) →
  Gives (str! "_R" ++ s) (.names [path, []])

theorem new_v0 (s : Str) : Iter.new (str! "_R" ++ s) = .v0 s := by
  unfold Iter.new
  simp [stripText]

/-- A path of identifiers is recovered exactly from its v0 symbol, if no identifier looks like the hash of a legacy
symbol.

What is missing: see `C74_hash`. -/
theorem C74_v0_path_partial (path : List Str) (s : Str) (h : V0Path path s) (hp : ∀ i ∈ path, V0Readable i) :
    Gives (str! "_R" ++ s) (.names [path, []]) := by
  obtain ⟨hne, hl⟩ := v0Toks_path h
  obtain ⟨l, hl, ht⟩ := hl hp []
  have ht := ht 1
  rw [List.append_nil, show v0Toks 1 [] = ([], .fin) by rfl] at ht
  unfold Gives symbolNames
  rw [new_v0]
  refine namesOf_of Iter.next _ _ _ (2 + path.length) _ ht ?_
  rw [collect_texts (by simp) path l hl _ hne 2 .inactive [] [] (Or.inl rfl)]
  · rfl
  · intro i hi
    refine ⟨⟨(hp i hi).notMut, ident_not_number (hp i hi).ident⟩, ?_⟩
    rw [isHash_false (hp i hi).ident (hp i hi).notHash]
    simp

theorem numeral_digit {c : Char} (h : isDigit c = true) {n : Nat} (hn : c.toNat - 48 = n) : Numeral [c] n :=
  hn ▸ .one (digit_of h)

/-- `std::_fs::open` -/
example : Gives (str! "_RNvNtCs1_3std3__fs4open") (.names [[str! "std", str! "_fs", str! "open"], []]) := by
  have h : V0Path ([str! "std"] ++ [str! "_fs"] ++ [str! "open"])
      ('N' :: 'v' :: (('N' :: 't' :: ('C' :: (('s' :: str! "1" ++ ['_']) ++ (str! "3" ++ str! "std")) ++ [] ++
        (str! "3" ++ '_' :: str! "_fs"))) ++ [] ++ (str! "4" ++ str! "open"))) :=
    .nested (Or.inr rfl) (.nested (Or.inl rfl) (.crate (.some (by decide))
      (.plain (numeral_digit rfl rfl) (by decide))) .none (.separated (numeral_digit rfl rfl) (by decide))) .none
      (.plain (numeral_digit rfl rfl) (by decide))
  refine C74_v0_path_partial _ _ h ?_
  intro i hi
  simp only [List.cons_append, List.nil_append, List.mem_cons, List.not_mem_nil, or_false] at hi
  rcases hi with rfl | rfl | rfl <;>
    exact ⟨ident_lower (by simp) (by decide), by decide, not_hashLike (by decide), by decide⟩

/-- A function whose name looks like the hash of a legacy symbol is left out: `a::h0123456789abcdef` is read as
`a`. -/
theorem C74_hash : ¬ C74_Claim := by
  intro h
  have n17 : Numeral (str! "17") 17 := .more (c := '7') (s := ['1']) (n := 1) (numeral_digit rfl rfl) (digit_of rfl)
  have hp : V0Path ([str! "a"] ++ [str! "h0123456789abcdef"])
      ('N' :: 'v' :: (('C' :: ([] ++ (str! "1" ++ str! "a"))) ++ [] ++ (str! "17" ++ str! "h0123456789abcdef"))) :=
    .nested (Or.inr rfl) (.crate .none (.plain (numeral_digit rfl rfl) (by decide))) .none (.plain n17 (by decide))
  have h1 := h _ _ hp (by
    intro i hi
    simp only [List.cons_append, List.nil_append, List.mem_cons, List.not_mem_nil, or_false] at hi
    rcases hi with rfl | rfl
    · exact ⟨ident_lower (by simp) (by decide), by decide, by decide⟩
    · refine ⟨⟨'h', str! "0123456789abcdef", rfl, Or.inl (Or.inl (by decide)), ?_⟩, by decide, by decide⟩
      intro d hd
      simp at hd
      unfold Letter Digit
      simp only [Char.le_def]
      rcases hd with rfl | rfl | rfl | rfl | rfl | rfl | rfl | rfl | rfl | rfl | rfl | rfl | rfl | rfl | rfl | rfl <;>
        decide)
  have h2 : Gives (str! "_RNvC1a17h0123456789abcdef") (.names [[str! "a"], []]) :=
    .of (n := 9) (by decide +kernel) (by decide +kernel)
  exact absurd (h1.unique h2) (by decide)

/-! ## C75: other v0 symbols -/

/-- What can stand before the path of an item: it is nested in something else, generic arguments follow it, a shim
is made for it, it is where a trait is implemented, or a type whose implementation of a trait is used. -/
inductive V0Head : Str → Prop
  | nil : V0Head []
  | nested {ns : Char} {h : Str} : ns = 't' ∨ ns = 'v' → V0Head h → V0Head ('N' :: ns :: h)
  | shim {h : Str} : V0Head h → V0Head ('N' :: 'S' :: h)
  | generic {h : Str} : V0Head h → V0Head ('I' :: h)
  | traitImpl {h d : Str} : Disambiguator d → V0Head h → V0Head ('X' :: (d ++ h))
  | qualified {h : Str} : V0Head h → V0Head ('Y' :: h)

/-- What users rely on: each path that a v0 symbol is about is the beginning of one of its names, so that a use of an
API in it is found. Here for functions with generic arguments. -/
def C75_Claim : Prop := ∀ path s args a l, V0Path path s → V0Path args a → (∀ i ∈ path ++ args, V0Readable i) →
  Gives (str! "_RI" ++ s ++ a ++ str! "E") (.names l) →
    (∃ name ∈ l, path <+: name) ∧ ∃ name ∈ l, args <+: name

/-- Generic arguments are glued to the path before them: `core::ptr::drop_in_place::<std::fs::File>` has the only
name `core::ptr::drop_in_place::std::fs::File`, so the use of `std::fs` is not seen. -/
theorem C75_generic_args : ¬ C75_Claim := by
  intro h
  have p1 : V0Path ([str! "core"] ++ [str! "ptr"])
      ('N' :: 'v' :: (('C' :: ([] ++ (str! "4" ++ str! "core"))) ++ [] ++ (str! "3" ++ str! "ptr"))) :=
    .nested (Or.inr rfl) (.crate .none (.plain (numeral_digit rfl rfl) (by decide))) .none
      (.plain (numeral_digit rfl rfl) (by decide))
  have p2 : V0Path ([str! "std"] ++ [str! "fs"])
      ('N' :: 't' :: (('C' :: ([] ++ (str! "3" ++ str! "std"))) ++ [] ++ (str! "2" ++ str! "fs"))) :=
    .nested (Or.inl rfl) (.crate .none (.plain (numeral_digit rfl rfl) (by decide))) .none
      (.plain (numeral_digit rfl rfl) (by decide))
  have h2 : Gives (str! "_RINvC4core3ptrNtC3std2fsE") (.names [[str! "core", str! "ptr", str! "std", str! "fs"], []]) :=
    .of (n := 12) (by decide +kernel) (by decide +kernel)
  have := (h _ _ _ _ _ p1 p2 (by
    intro i hi
    simp only [List.cons_append, List.nil_append, List.mem_cons, List.not_mem_nil, or_false] at hi
    rcases hi with rfl | rfl | rfl | rfl <;>
      exact ⟨ident_lower (by simp) (by decide), by decide, not_hashLike (by decide), by decide⟩) h2).2
  obtain ⟨name, hm, hp⟩ := this
  simp only [List.mem_cons, List.not_mem_nil, or_false] at hm
  rcases hm with rfl | rfl
  · revert hp; decide
  · revert hp; decide

/-- A closure (here in `krate::foo`) has no names at all. -/
theorem C75_closure : Gives (str! "_RNCNvCs1_5krate3foo0") (.names [[]]) :=
  .of (n := 5) (by decide +kernel) (by decide +kernel)

/-- A function in an inherent implementation with a disambiguator (here `std::fs::File::open`) has no names at
all. -/
theorem C75_inherent_impl : Gives (str! "_RNvMs_NtCs1_3std2fsNtB4_4File4open") (.names [[]]) :=
  .of (n := 5) (by decide +kernel) (by decide +kernel)

/-- A function in an inherent implementation in the root of a crate loses the name of the crate (here
`std::File::open`). -/
theorem C75_inherent_impl_root : Gives (str! "_RNvMCs1_3stdNtB2_4File4open") (.names [[str! "File", str! "open"], []]) :=
  .of (n := 9) (by decide +kernel) (by decide +kernel)

/-- Neither a space nor an unsupported escape. -/
def Fine : Tok → Prop
  | .char c => c ≠ ' '
  | .unsupported _ => False
  | .text _ _ => True

theorem v0Step_fine (tag : Char) (rest : Str) : ∀ t s, v0Step tag rest = .tok t s → Fine t := by
  have id : ∀ data e, (∀ t s, e = .tok t s → Fine t) → ∀ t s, identStep data e = .tok t s → Fine t := by
    intro data e he t s h
    unfold identStep at h
    cases hp : parseIdentifier data with
    | ok r => rw [hp] at h; cases h; trivial
    | no => rw [hp] at h; exact he t s h
    | _ => rw [hp] at h; cases h
  have ag : ∀ x : Str, ∀ t s, V0Step.again x = .tok t s → Fine t := by intro x t s h; cases h
  have dn : ∀ t s, V0Step.done = .tok t s → Fine t := by intro t s h; cases h
  have one : ∀ x y, Fine x → ∀ t s, V0Step.tok x y = .tok t s → Fine t := by intro x y hx t s h; cases h; exact hx
  have split : ∀ {c : Prop} [Decidable c] {a b : V0Step}, (∀ t s, a = .tok t s → Fine t) →
      (∀ t s, b = .tok t s → Fine t) → ∀ t s, (if c then a else b) = .tok t s → Fine t := by
    intro c _ a b ha hb t s h
    by_cases hc : c
    · rw [if_pos hc] at h; exact ha t s h
    · rw [if_neg hc] at h; exact hb t s h
  unfold v0Step
  refine split (by intro t s h; cases h) ?_
  refine split (id _ _ dn) ?_
  refine split ?_ ?_
  · unfold nestedStep
    cases rest with
    | nil => exact ag _
    | cons next rest' => exact split (ag _) (split (ag _) (id _ _ (ag _)))
  refine split (ag _) ?_
  refine split ?_ ?_
  · unfold implStep
    cases skipType (2 * rest.length + 1) rest with
    | ok new => exact ag _
    | no => exact ag _
    | _ => intro t s h; cases h
  refine split (ag _) (split (ag _) (split (ag _) ?_))
  refine split (one _ _ (by simp [Fine])) (split (one _ _ (by simp [Fine])) (split (one _ _ (by simp [Fine]))
    (split (one _ _ (by simp [Fine])) (split (one _ _ (by simp [Fine])) (split (ag _) (split (one _ _ (by simp [Fine])) ?_))))))
  exact split (one _ _ trivial) (split (one _ _ trivial) (split (one _ _ trivial) (split (one _ _ (by simp [Fine]))
    (split (id _ _ dn) (ag _)))))

theorem v0Next_fine : ∀ (fuel : Nat) (data : Str), ∀ t s, v0Next fuel data = .tok t s → Fine t := by
  intro fuel
  induction fuel with
  | zero => intro data t s h; simp [v0Next] at h
  | succ fuel ih =>
    intro data t s h
    cases data with
    | nil => simp [v0Next] at h
    | cons tag rest =>
      rw [v0Next] at h
      cases hs : v0Step tag rest with
      | tok t' s' => rw [hs] at h; cases h; exact v0Step_fine tag rest _ _ hs
      | again s' => rw [hs] at h; exact ih s' t s h
      | _ => rw [hs] at h; cases h

theorem v0Toks_fine : ∀ (n : Nat) (data : Str), ∀ t ∈ (v0Toks n data).1, Fine t := by
  intro n
  induction n with
  | zero => intro data t h; simp [v0Toks, toks] at h
  | succ n ih =>
    intro data t h
    unfold v0Toks at h
    rw [toks, Iter.next] at h
    cases hn : v0Next (data.length + 1) data with
    | tok t' s' =>
      rw [hn] at h
      simp only [Next.map, List.mem_cons] at h
      rcases h with rfl | h
      · exact v0Next_fine _ _ _ _ hn
      · exact ih s' t h
    | _ => rw [hn] at h; simp [Next.map] at h

/-- Angle brackets. -/
def Opens (l : List Tok) : Prop := ∀ t ∈ l, t = Tok.char '<'

/-- The path of an item is read after what stands before it. -/
theorem v0Toks_head {h : Str} (hh : V0Head h) {p : List Str} {s : Str} (hs : V0Path p s)
    (hp : ∀ i ∈ p, V0Readable i) (k : Str) : ∃ o l, Opens o ∧ Texts l p ∧
      ∀ n, v0Toks (n + p.length + o.length) (h ++ (s ++ k)) = (o ++ (l ++ (v0Toks n k).1), (v0Toks n k).2) := by
  have hpos : 0 < p.length := List.length_pos_iff.mpr (v0Toks_path hs).1
  have again : ∀ {x y : Str} {o l : List Tok}, nx x = nx y →
      (∀ n, v0Toks (n + p.length + o.length) y = (o ++ (l ++ (v0Toks n k).1), (v0Toks n k).2)) →
      ∀ n, v0Toks (n + p.length + o.length) x = (o ++ (l ++ (v0Toks n k).1), (v0Toks n k).2) := by
    intro x y o l hxy hy n
    obtain ⟨m, hm⟩ : ∃ m, n + p.length + o.length = m + 1 := ⟨n + p.length + o.length - 1, by omega⟩
    rw [hm, v0Toks_eq hxy, ← hm, hy n]
  induction hh with
  | nil =>
    obtain ⟨l, h1, h2⟩ := (v0Toks_path hs).2 hp k
    exact ⟨[], l, by intro t ht; simp at ht, h1, fun n => by simpa using h2 n⟩
  | nested hns _ ih =>
    obtain ⟨o, l, h1, h2, h3⟩ := ih
    exact ⟨o, l, h1, h2, again (nx_nested hns _) h3⟩
  | shim _ ih =>
    obtain ⟨o, l, h1, h2, h3⟩ := ih
    exact ⟨o, l, h1, h2, again ((nx_again rfl).trans (nx_again rfl)) h3⟩
  | generic _ ih =>
    obtain ⟨o, l, h1, h2, h3⟩ := ih
    refine ⟨.char '<' :: o, l, ?_, h2, fun n => ?_⟩
    · intro t ht
      simp only [List.mem_cons] at ht
      rcases ht with rfl | ht
      · rfl
      · exact h1 t ht
    · rw [show n + p.length + (Tok.char '<' :: o).length = (n + p.length + o.length) + 1 by simp; omega,
        List.cons_append, v0Toks_tok (nx_tok rfl), h3 n]
      rfl
  | @traitImpl h d hd hh ih =>
    obtain ⟨o, l, h1, h2, h3⟩ := ih
    refine ⟨o, l, h1, h2, again (nx_again ?_) h3⟩
    have : parseDisambiguator (d ++ h ++ (s ++ k)) = some (h ++ (s ++ k)) := by
      cases hd with
      | none =>
        have hstart : ∃ c r, h ++ (s ++ k) = c :: r ∧ c ≠ 's' := by
          cases hh with
          | nil =>
            cases hs with
            | crate _ _ => exact ⟨'C', _, rfl, by decide⟩
            | nested _ _ _ _ => exact ⟨'N', _, rfl, by decide⟩
          | nested _ _ => exact ⟨'N', _, rfl, by decide⟩
          | shim _ => exact ⟨'N', _, rfl, by decide⟩
          | generic _ => exact ⟨'I', _, rfl, by decide⟩
          | traitImpl _ _ => exact ⟨'X', _, rfl, by decide⟩
          | qualified _ => exact ⟨'Y', _, rfl, by decide⟩
        obtain ⟨c, r, e, hc⟩ := hstart
        rw [List.nil_append, e]
        unfold parseDisambiguator
        split
        · rename_i e2; cases e2; exact absurd rfl hc
        · rfl
      | @some b hb =>
        have e1 : 's' :: b ++ ['_'] ++ h ++ (s ++ k) = 's' :: (b ++ '_' :: (h ++ (s ++ k))) := by simp
        rw [e1]
        unfold parseDisambiguator
        simp only [findSplit_exact _ hb, Option.map_some]
    show V0Step.again ((parseDisambiguator (d ++ h ++ (s ++ k))).getD (d ++ h ++ (s ++ k))) = _
    rw [this]
    rfl
  | qualified _ ih =>
    obtain ⟨o, l, h1, h2, h3⟩ := ih
    exact ⟨o, l, h1, h2, again (nx_again rfl) h3⟩

theorem collect_opens {e : End} {l : List Tok} : ∀ (o : List Tok), Opens o → ∀ (n : Nat),
    collect e (n + o.length) { it := o ++ l } [] [] = collect e n { it := l } [] []
  | [], _, n => rfl
  | t :: o, h, n => by
    have ht := h t (by simp)
    subst ht
    rw [show n + (Tok.char '<' :: o).length = (n + o.length) + 1 by simp; omega, List.cons_append, collect]
    exact collect_opens o (fun t ht => h t (by simp [ht])) n

/-- The first name keeps its beginning. -/
theorem collect_first {e : End} {p : List Str} : ∀ (n : Nat) (q : Pos) (current : List Str) (done : List (List Str)),
    ((∃ t ts, done = (p ++ t) :: ts) ∨ done = [] ∧ ∃ t, current = p ++ t) →
    ∀ l, collect e n q current done = some (.names l) → ∃ t ts, l = (p ++ t) :: ts := by
  have hdrain : ∀ (n : Nat) (q : Pos) l, drain e n q ≠ some (.names l) := by
    intro n
    induction n with
    | zero => intro q l; simp [drain]
    | succ n ih =>
      intro q l
      rw [drain]
      cases iterate e q with
      | emit t q' =>
        cases t with
        | part s => exact ih q' l
        | _ => simp
      | cont q' => exact ih q' l
      | _ => simp
  intro n
  induction n with
  | zero => intro q c d _ l h; simp [collect] at h
  | succ n ih =>
    intro q c d hcd l h
    have hend : ∃ t ts, d ++ [c] = (p ++ t) :: ts := by
      rcases hcd with ⟨t, ts, rfl⟩ | ⟨rfl, t, rfl⟩
      · exact ⟨t, ts ++ [c], rfl⟩
      · exact ⟨t, [], rfl⟩
    rw [collect] at h
    cases hit : iterate e q with
    | cont q' => rw [hit] at h; exact ih q' c d hcd l h
    | emit t q' =>
      rw [hit] at h
      cases t with
      | part s =>
        refine ih q' _ d ?_ l h
        rcases hcd with h1 | ⟨rfl, t, rfl⟩
        · exact Or.inl h1
        · exact Or.inr ⟨rfl, t ++ [s], by simp⟩
      | endName => exact ih q' [] _ (Or.inl hend) l h
      | error => exact absurd h (hdrain n q' l)
    | stop =>
      rw [hit] at h
      cases h
      exact hend
    | _ => rw [hit] at h; cases h

/-- Whatever follows the path of an item in a v0 symbol, and whatever is stacked before it, the first name of the
symbol begins with that path.

What is missing: the other paths of the symbol (see `C75_generic_args`); symbols of closures and of functions in
inherent implementations (see `C75_closure`, `C75_inherent_impl`, `C75_inherent_impl_root`). -/
theorem C75_own_path_partial (head s rest : Str) (path : List Str) (hh : V0Head head) (hs : V0Path path s)
    (hp : ∀ i ∈ path, V0Readable i) (ha : ∀ c ∈ head ++ (s ++ rest), c.toNat < 128) :
    ∃ tail others, Gives (str! "_R" ++ (head ++ (s ++ rest))) (.names ((path ++ tail) :: others)) := by
  have hterm : ∃ r, Gives (str! "_R" ++ (head ++ (s ++ rest))) r :=
    C28_symbols_partial _ (by
      intro data hd
      have := congrArg (fun l => l.drop 1 |>.head?) hd
      simp at this)
  obtain ⟨r, hr⟩ := hterm
  obtain ⟨o, l, ho, hl, ht⟩ := v0Toks_head hh hs hp rest
  have hne := (v0Toks_path hs).1
  obtain ⟨n₀, hn⟩ := id hr
  have hrun := hn ((n₀ + path.length + o.length)) (by omega)
  unfold symbolNames namesOf at hrun
  rw [new_v0] at hrun
  rw [show toks Iter.next (n₀ + path.length + o.length) (.v0 (head ++ (s ++ rest))) =
    v0Toks (n₀ + path.length + o.length) (head ++ (s ++ rest)) from rfl, ht n₀] at hrun
  simp only [] at hrun
  have hf := v0Toks_fine n₀ rest
  have hsp : (v0Toks n₀ rest).1.head? ≠ some (.char ' ') := by
    intro h
    have := hf _ (List.mem_of_mem_head? h)
    simp [Fine] at this
  rw [collect_opens o ho, collect_texts hsp path l hl (by
    intro i hi
    refine ⟨⟨(hp i hi).notMut, ident_not_number (hp i hi).ident⟩, ?_⟩
    rw [isHash_false (hp i hi).ident (hp i hi).notHash]
    simp) hne n₀ .inactive [] [] (Or.inl rfl)] at hrun
  cases r with
  | names names =>
    obtain ⟨t, ts, rfl⟩ := collect_first (p := path) n₀ _ _ _ (Or.inr ⟨rfl, [], by simp⟩) _ hrun
    exact ⟨t, ts, hr⟩
  | error =>
    exact absurd hrun (collect_no_error n₀ { it := (v0Toks n₀ rest).1, state := .outputting } _ _
      List.suffix_rfl (fun s hm => hf _ hm))
  | panic =>
    exfalso
    refine collect_no_panic ?_ _ _ _ _ hrun
    have := toks_ascii (symbol := str! "_R" ++ (head ++ (s ++ rest))) (by
      intro c hc
      simp only [List.cons_append, List.nil_append, List.mem_cons] at hc
      rcases hc with rfl | rfl | hc
      · decide
      · decide
      · exact ha c hc) (n₀ + path.length + o.length)
    rw [new_v0] at this
    have h2 := ht n₀
    unfold v0Toks at h2 ⊢
    rw [h2] at this
    exact this

/-- `<std::fs as _>` with a trait implementation and generic arguments -/
example : ∃ tail others, Gives (str! "_R" ++ (str! "INvXs4_" ++ (str! "NtC3std2fs" ++ str! "TReENtB5_1TEhE")))
    (.names (([str! "std", str! "fs"] ++ tail) :: others)) := by
  have h1 : V0Head (str! "INvXs4_") :=
    .generic (.nested (Or.inr rfl) (.traitImpl (d := 's' :: str! "4" ++ ['_']) (h := []) (.some (by decide)) .nil))
  have p2 : V0Path ([str! "std"] ++ [str! "fs"])
      ('N' :: 't' :: (('C' :: ([] ++ (str! "3" ++ str! "std"))) ++ [] ++ (str! "2" ++ str! "fs"))) :=
    .nested (Or.inl rfl) (.crate .none (.plain (numeral_digit rfl rfl) (by decide))) .none
      (.plain (numeral_digit rfl rfl) (by decide))
  refine C75_own_path_partial _ _ _ _ h1 p2 ?_ (by decide)
  intro i hi
  simp only [List.cons_append, List.nil_append, List.mem_cons, List.not_mem_nil, or_false] at hi
  rcases hi with rfl | rfl <;>
    exact ⟨ident_lower (by simp) (by decide), by decide, not_hashLike (by decide), by decide⟩

end Cackle.Names
