import Verif.Lemmas.LegacyTypes

/-!
# C137: no path in a legacy symbol is hidden
-/

namespace Cackle.LegacySymbols
open Cackle Demangle Names

/-! ## Specification -/

/-- The hash at the end of a legacy symbol. -/
def Hash (hash : Str) : Prop := hash.length = 16 ∧ ∀ c ∈ hash, Hex c

/-- The symbol of `<T as trait>::rest`; `ps` are the paths in `T`. The last argument of `Numeral` is the length of the
component. `args` are generic arguments of the trait, if it has some. -/
def TraitSymbol (ps : List (List Str)) (trait : List Str) (args : Option (List (List Str))) (rest : List Str)
    (symbol : Str) : Prop :=
  ∃ s a comp ds cs hash, LegacyTy false ps s ∧
    (match args with | none => a = [] | some qs => ∃ t, LegacyTy true qs t ∧ a = str! "$LT$" ++ t ++ str! "$GT$") ∧
    comp = str! "_$LT$" ++ s ++ str! "$u20$as$u20$" ++ dots trait ++ a ++ str! "$GT$" ∧
    Numeral ds comp.length ∧ comp.length < 2 ^ 64 ∧ Components rest cs ∧ Hash hash ∧
    symbol = str! "_ZN" ++ (ds ++ comp ++ cs) ++ str! "17h" ++ hash ++ str! "E"

/-- The symbol of `path::last<args>::rest`. -/
def GenericSymbol (path : List Str) (last : Str) (args : List (List Str)) (rest : List Str) (symbol : Str) : Prop :=
  ∃ t comp ds ps cs hash, LegacyTy true args t ∧ comp = last ++ str! "$LT$" ++ t ++ str! "$GT$" ∧
    Numeral ds comp.length ∧ comp.length < 2 ^ 64 ∧ Components path ps ∧ Components rest cs ∧ Hash hash ∧
    symbol = str! "_ZN" ++ (ps ++ (ds ++ comp ++ cs)) ++ str! "17h" ++ hash ++ str! "E"

/-- What users rely on: each path that a legacy symbol is about is the beginning of one of its names, so that a use of an
API by it is noticed. These are the paths in the type that implements the trait, the trait's function, and the paths in
generic arguments. -/
def C137_Claim : Prop :=
  (∀ ps trait args rest symbol l, trait ≠ [] → rest ≠ [] → (∀ i ∈ trait, TypeIdent i) → (∀ i ∈ rest, LegacyIdent i) →
    TraitSymbol ps trait args rest symbol → Gives symbol (.names l) →
      ∀ p ∈ ps ++ [trait ++ rest] ++ args.getD [], ∃ name ∈ l, p <+: name) ∧
  (∀ path last args rest symbol l, (∀ i ∈ path ++ [last] ++ rest, LegacyIdent i) →
    GenericSymbol path last args rest symbol → Gives symbol (.names l) →
      ∀ p ∈ (path ++ [last] ++ rest) :: args, ∃ name ∈ l, p <+: name)

/-! ## Reading the symbol -/

theorem new_legacy (s hash : Str) : Iter.new (str! "_ZN" ++ s ++ str! "17h" ++ hash ++ str! "E") =
    .legacy { outer := s ++ (str! "17" ++ ('h' :: hash) ++ []) } := by
  have e : str! "_ZN" ++ s ++ str! "17h" ++ hash ++ str! "E" =
      '_' :: 'Z' :: 'N' :: ((s ++ (str! "17" ++ ('h' :: hash) ++ [])) ++ ['E']) := by simp
  rw [e]
  unfold Iter.new
  simp only [stripText, if_true, Option.bind_some, stripLast]
  rw [if_neg (by decide), List.getLast?_concat, if_pos rfl, List.dropLast_concat]

theorem hash_tok {hash : Str} (h : Hash hash) : ∃ pos, ∀ n,
    toks Iter.next (n + 2) (.legacy { outer := str! "17" ++ ('h' :: hash) ++ [] }) = ([.text ('h' :: hash) pos], .fin) := by
  obtain ⟨hl, hhex⟩ := h
  have hasc : Ascii ('h' :: hash) := by
    intro c hc
    simp only [List.mem_cons] at hc
    rcases hc with rfl | hc
    · decide
    · exact (hex_spec (hhex c hc)).2
  have hbytes : byteLen ('h' :: hash) = 17 := by rw [byteLen_ascii hasc]; simp [hl]
  have hdollar : '$' ∉ 'h' :: hash := by
    intro hm
    simp only [List.mem_cons] at hm
    rcases hm with hm | hm
    · exact absurd hm (by decide)
    · have := hhex _ hm
      unfold Hex Digit at this
      simp only [Char.le_def] at this
      exact absurd this (by decide)
  have h17 : Numeral (str! "17") 17 := by
    have h1 : Numeral ['1'] 1 := .one (by unfold Digit; simp only [Char.le_def]; decide)
    exact .more (c := '7') (s := ['1']) h1 (by unfold Digit; simp only [Char.le_def]; decide)
  have hnext := next_legacy (rest := []) (i := 'h' :: hash) (ds := str! "17") (by rw [hbytes]; exact h17) (by simp)
    (by intro c hc; simp only [List.head?_cons, Option.some.injEq] at hc; subst hc; exact ⟨rfl, by decide⟩)
    (by rw [hbytes]; decide) hdollar
  refine ⟨('h' :: hash).length + ([] : Str).length, fun n => ?_⟩
  rw [toks, hnext]
  simp only []
  rw [show toks Iter.next (n + 1) (.legacy { outer := [] }) = ([], .fin) by rfl]

theorem iterate_hash {hash : Str} (h : Hash hash) (pos : Nat) {st : State}
    (af : Option (Str × Nat)) :
    iterate .fin { it := [.text ('h' :: hash) pos], state := st, asFinal := af } =
      .cont { it := [], state := st, asFinal := af } := by
  obtain ⟨hl, hhex⟩ := h
  have hasc : Ascii ('h' :: hash) := by
    intro c hc
    simp only [List.mem_cons] at hc
    rcases hc with rfl | hc
    · decide
    · exact (hex_spec (hhex c hc)).2
  have hbytes : byteLen ('h' :: hash) = 17 := by rw [byteLen_ascii hasc]; simp [hl]
  have hhash : isHash ('h' :: hash) = true := by
    unfold isHash
    rw [hbytes]
    simp only [decide_true, List.head?_cons, beq_self_eq_true, Bool.true_and, List.tail_cons, List.all_eq_true]
    exact fun c hc => (hex_spec (hhex c hc)).1
  unfold iterate onText
  simp only []
  have hI : isI64 ('h' :: hash) = false := by
    simp [isI64, show isDigit 'h' = false by rfl]
  rw [if_neg (by simp), if_neg (by simp), if_neg (by simp [hI]), if_neg (by simp)]
  split
  · rfl
  · rw [if_pos ⟨hhash, trivial⟩]

/-- A component with escapes that begins with an underscore. -/
theorem enter_underscore {ds tail rest : Str} (hn : Numeral ds (byteLen ('_' :: tail))) (ht : tail ≠ [])
    (hlen : byteLen ('_' :: tail) < 2 ^ 64) (n : Nat) :
    toks Iter.next (n + 1) (.legacy { outer := ds ++ '_' :: tail ++ rest }) = inToks (n + 1) rest tail := by
  have hc := component_exact (i := '_' :: tail) (rest := rest) hn (by simp)
    (by intro c hc; simp only [List.head?_cons, Option.some.injEq] at hc; subst hc; rfl) hlen
  have : Iter.next (.legacy { outer := ds ++ '_' :: tail ++ rest }) =
      Iter.next (.legacy { outer := rest, inner := some tail }) := by
    rw [Iter.next, Iter.next, legacyNext]
    simp only [reduceCtorEq, if_false, hc]
    rw [legacyNext, legacyNext]
    simp only [Option.some.injEq, ht, if_false]
  unfold inToks
  rw [toks, toks, this]

/-- A component with escapes that begins with another character. -/
theorem enter_dollar {ds part rest : Str} (hn : Numeral ds (byteLen part)) (hp : part ≠ [])
    (hd : ∀ c, part.head? = some c → isDigit c = false ∧ c ≠ '_') (h4 : '$' ∈ part)
    (hlen : byteLen part < 2 ^ 64) (n : Nat) :
    toks Iter.next (n + 1) (.legacy { outer := ds ++ part ++ rest }) = inToks (n + 1) rest part := by
  have hc := component_exact (rest := rest) hn hp (fun c hc => (hd c hc).1) hlen
  have : Iter.next (.legacy { outer := ds ++ part ++ rest }) =
      Iter.next (.legacy { outer := rest, inner := some part }) := by
    rw [Iter.next, Iter.next, legacyNext]
    simp only [reduceCtorEq, if_false, hc]
    obtain ⟨c, r, rfl⟩ := List.exists_cons_of_ne_nil hp
    split
    · rename_i e; cases e; exact absurd rfl (hd _ rfl).2
    · rw [if_pos h4, legacyNext, legacyNext]
      simp only [Option.some.injEq, hp, if_false]
  unfold inToks
  rw [toks, toks, this]

theorem leave (n : Nat) (outer : Str) : inToks n outer [] = toks Iter.next n (.legacy { outer := outer }) := by
  unfold inToks
  cases n with
  | zero => rfl
  | succ n =>
    have : Iter.next (.legacy { outer := outer, inner := some [] }) = Iter.next (.legacy { outer := outer }) := by
      rw [Iter.next, Iter.next, legacyNext, legacyNext]
      simp
    rw [toks, toks, this]

/-- Components and where they are. -/
theorem components_toks {path : List Str} {s : Str} (h : Components path s) (hp : ∀ i ∈ path, LegacyIdent i) (rest : Str) :
    ∃ ps : List Nat, ps.length = path.length ∧ (∀ p ∈ ps, p ≤ (s ++ rest).length) ∧ ∀ n,
      toks Iter.next (n + path.length) (.legacy { outer := s ++ rest }) =
      (List.zipWith Tok.text path ps ++ (toks Iter.next n (.legacy { outer := rest })).1,
        (toks Iter.next n (.legacy { outer := rest })).2) := by
  induction h with
  | nil => exact ⟨[], rfl, by simp, fun n => by simp⟩
  | @cons i path ds s hn _ ih =>
    obtain ⟨ps, h1, h2, h3⟩ := ih (fun j hj => hp j (by simp [hj]))
    have hi := hp i (by simp)
    have hb := ident_bytes hi.ident
    refine ⟨(i.length + (s ++ rest).length) :: ps, by simp [h1], ?_, fun n => ?_⟩
    · intro p hp'
      simp only [List.mem_cons] at hp'
      rcases hp' with rfl | hp'
      · simp only [List.length_append]; omega
      · have := h2 p hp'
        simp only [List.length_append] at *
        omega
    have := next_legacy (rest := s ++ rest) (hb ▸ hn) (by obtain ⟨c, r, rfl, _⟩ := hi.ident; simp)
      (by
        obtain ⟨c, r, rfl, hc, _⟩ := hi.ident
        intro d hd
        simp only [List.head?_cons, Option.some.injEq] at hd
        subst hd
        exact ⟨letter_not_digit hc, fun e => hi.noUnderscore (by rw [e]; rfl)⟩)
      (by rw [hb]; exact hi.short) (fun hc => ident_chars hi.ident hc rfl)
    rw [show n + (i :: path).length = (n + path.length) + 1 by simp; omega, toks]
    rw [show ds ++ i ++ s ++ rest = ds ++ i ++ (s ++ rest) by simp, this]
    simp only [h3 n]
    rfl

/-- Reading the components after a trait. -/
theorem collect_rest {e : End} {i : Str} {pos : Nat} {af : Option (Str × Nat)} :
    ∀ (path : List Str) (ps : List Nat), ps.length = path.length → (∀ i ∈ path, LegacyIdent i) →
    (∀ p ∈ ps, ∀ m q, af = some (m, q) → p < q) →
    ∀ (n : Nat) (current : List Str) (done : List (List Str)),
      collect e (n + path.length) { it := List.zipWith Tok.text path ps ++ [.text i pos], state := .outputting,
                                     asFinal := af } current done =
        collect e n { it := [.text i pos], state := .outputting, asFinal := af } (current ++ path) done := by
  intro path
  induction path with
  | nil => intro ps _ _ _ n current done; simp
  | cons a path ih =>
    intro ps hps hp hlt n current done
    match ps, hps with
    | q :: ps, hps =>
      simp only [List.length_cons, Nat.add_right_cancel_iff] at hps
      have ha := hp a (by simp)
      have hstep : iterate e { it := .text a q :: (List.zipWith Tok.text path ps ++ [.text i pos]), state := .outputting,
                               asFinal := af } =
          .emit (.part a) { it := List.zipWith Tok.text path ps ++ [.text i pos], state := .outputting, asFinal := af } := by
        apply iterate_part ⟨ha.notMut, ident_not_number ha.ident⟩ _ _ _ (Or.inr rfl)
        · match path, ps, hps with
          | [], [], _ => simp
          | b :: path, r :: ps, _ => simp
        · rintro ⟨_, h⟩; simp at h
        · intro h
          have := hlt q (by simp) a q h
          omega
      rw [show n + (a :: path).length = (n + path.length) + 1 by simp; omega, List.zipWith_cons_cons,
        List.cons_append, collect, hstep]
      simp only []
      rw [ih ps hps (fun j hj => hp j (by simp [hj])) (fun p hp' => hlt p (by simp [hp'])) n]
      simp

theorem ascii_append {a b : Str} (ha : Ascii a) (hb : Ascii b) : Ascii (a ++ b) := by
  intro c hc
  rcases List.mem_append.mp hc with h | h
  · exact ha c h
  · exact hb c h

theorem dots_ascii : ∀ {p : List Str}, (∀ i ∈ p, TypeIdent i) → Ascii (dots p)
  | [], _ => by intro c hc; simp [dots] at hc
  | [i], h => ident_ascii (h i (by simp)).ident
  | i :: j :: p, h => by
    unfold dots
    refine ascii_append (ident_ascii (h i (by simp)).ident) ?_
    have := dots_ascii (p := j :: p) (fun k hk => h k (by simp [hk]))
    intro c hc
    simp only [List.mem_cons] at hc
    rcases hc with rfl | rfl | hc
    · decide
    · decide
    · exact this c hc

theorem ty_ascii {b : Bool} {ps : List (List Str)} {s : Str} (h : LegacyTy b ps s) : Ascii s := by
  have lit : ∀ s : Str, (s.all (fun c => decide (c.toNat < 128))) = true → Ascii s := by
    intro s hs c hc
    simpa using List.all_eq_true.mp hs c hc
  induction h with
  | path _ hp => exact dots_ascii hp
  | generic _ hp _ ih =>
    exact ascii_append (ascii_append (ascii_append (dots_ascii hp) (lit _ rfl)) ih) (lit _ rfl)
  | ref _ ih => exact ascii_append (lit _ rfl) ih
  | refMut _ ih => exact ascii_append (lit _ rfl) ih
  | ptrMut _ ih => exact ascii_append (lit _ rfl) ih
  | unit => exact lit _ rfl
  | tuple _ ih => exact ascii_append (ascii_append (lit _ rfl) ih) (lit _ rfl)
  | slice _ ih => exact ascii_append (ascii_append (lit _ rfl) ih) (lit _ rfl)
  | one _ ih => exact ih
  | more _ _ ih1 ih2 => exact ascii_append (ascii_append ih1 (lit _ rfl)) ih2

/-! ## C137 -/

/-- **C137 (traits without generic arguments).** The symbol of `<T as trait>::rest` has exactly the names of the paths in
`T` and the path `trait::rest`.

Missing: generic arguments of the trait, see `C137_trait_args`. -/
theorem C137_trait_partial (ps : List (List Str)) (trait rest : List Str) (symbol : Str) (hne : trait ≠ [])
    (hrest : rest ≠ []) (ht : ∀ i ∈ trait, TypeIdent i) (hr : ∀ i ∈ rest, LegacyIdent i)
    (h : TraitSymbol ps trait none rest symbol) : Gives symbol (.names (ps ++ [trait ++ rest] ++ [[]])) := by
  obtain ⟨s, a, comp, ds, cs, hash, hty, rfl, rfl, hn, hlen, hcs, hh, rfl⟩ := h
  have lit : ∀ s : Str, (s.all (fun c => decide (c.toNat < 128))) = true → Ascii s := by
    intro s hs c hc
    simpa using List.all_eq_true.mp hs c hc
  have hasc : Ascii (str! "_$LT$" ++ s ++ str! "$u20$as$u20$" ++ dots trait ++ [] ++ str! "$GT$") :=
    ascii_append (ascii_append (ascii_append (ascii_append (ascii_append (lit _ rfl) (ty_ascii hty)) (lit _ rfl))
      (dots_ascii ht)) (lit _ rfl)) (lit _ rfl)
  have hb := byteLen_ascii hasc
  rw [← hb] at hn hlen
  generalize houter : cs ++ (str! "17" ++ ('h' :: hash) ++ []) = outer at *
  have hcomp : str! "_$LT$" ++ s ++ str! "$u20$as$u20$" ++ dots trait ++ [] ++ str! "$GT$" =
      '_' :: (str! "$LT$" ++ (s ++ (str! "$u20$" ++ (str! "as" ++ (str! "$u20$" ++ (dots trait ++ str! "$GT$")))))) := by simp
  have hnew : Iter.new (str! "_ZN" ++ (ds ++ (str! "_$LT$" ++ s ++ str! "$u20$as$u20$" ++ dots trait ++ [] ++ str! "$GT$") ++
      cs) ++ str! "17h" ++ hash ++ str! "E") =
      .legacy { outer := ds ++ '_' :: (str! "$LT$" ++ (s ++ (str! "$u20$" ++ (str! "as" ++ (str! "$u20$" ++
        (dots trait ++ str! "$GT$")))))) ++ outer } := by
    rw [new_legacy, hcomp, ← houter]
    simp
  rw [hcomp] at hn hlen
  -- the tokens of the component
  have SP : ∀ rest outer, Reads (str! "$u20$") rest outer [.char ' '] := Reads.sym (esc := str! "u20") rfl (by decide)
  have LT : ∀ rest outer, Reads (str! "$LT$") rest outer [.char '<'] := Reads.sym (esc := str! "LT") rfl (by decide)
  have GT : ∀ rest outer, Reads (str! "$GT$") rest outer [.char '>'] := Reads.sym (esc := str! "GT") rfl (by decide)
  obtain ⟨lt, htexts, htr⟩ := Reads.path hne (fun i hi => (ht i hi).ident) [] (str! "$GT$" ++ []) outer (by simp)
    (stops_dollar _)
  obtain ⟨l, hl1, hl2⟩ := ty_toks hty ((str! "$u20$" ++ (str! "as" ++ (str! "$u20$" ++ (dots trait ++ str! "$GT$")))) ++ [])
    outer (stops_dollar _)
  have AS := Reads.ident (i := str! "as") (ident_lower (by simp) (by decide)) []
    ((str! "$u20$" ++ (dots trait ++ str! "$GT$")) ++ []) outer (by simp) (stops_dollar _)
  have r := (LT _ outer).append (hl2.append ((SP _ outer).append (AS.append ((SP _ outer).append
    (htr.append (GT [] outer))))))
  -- the components after it
  obtain ⟨m, more, rfl⟩ := List.exists_cons_of_ne_nil hrest
  obtain ⟨hpos, hhash⟩ := hash_tok hh
  generalize hP : ((str! "as").length + ((str! "$u20$" ++ (dots trait ++ str! "$GT$")) ++ []).length + outer.length) = P at *
  cases hcs with
  | @cons _ _ ds' s' hn' hcs' =>
  have hm := hr m (by simp)
  obtain ⟨qs, hq1, hq2, hq3⟩ := components_toks hcs' (fun i hi => hr i (by simp [hi])) (str! "17" ++ ('h' :: hash) ++ [])
  have hmb := ident_bytes hm.ident
  have hmnext := next_legacy (rest := s' ++ (str! "17" ++ ('h' :: hash) ++ [])) (hmb ▸ hn')
    (by obtain ⟨c, r, rfl, _⟩ := hm.ident; simp)
    (by
      obtain ⟨c, r, rfl, hc, _⟩ := hm.ident
      intro d hd
      simp only [List.head?_cons, Option.some.injEq] at hd
      subst hd
      exact ⟨letter_not_digit hc, fun e => hm.noUnderscore (by rw [e]; rfl)⟩)
    (by rw [hmb]; exact hm.short) (fun hc => ident_chars hm.ident hc rfl)
  have houter' : outer = ds' ++ m ++ (s' ++ (str! "17" ++ ('h' :: hash) ++ [])) := by rw [← houter]; simp
  generalize hQ : m.length + (s' ++ (str! "17" ++ ('h' :: hash) ++ [])).length = Q at *
  have houtToks : toks Iter.next (2 + more.length + 1) (.legacy { outer := outer }) =
      (.text m Q :: (List.zipWith Tok.text more qs ++ [.text ('h' :: hash) hpos]), .fin) := by
    rw [toks, houter', hmnext]
    simp only []
    rw [hq3 2, hhash 0]
  have hall := r (2 + more.length + 1)
  rw [leave, houtToks, List.append_nil] at hall
  -- the names
  have hmlen : 0 < m.length := by obtain ⟨c, r, rfl, _⟩ := hm.ident; simp
  unfold Gives symbolNames
  rw [hnew]
  refine namesOf_of Iter.next _ _ _ ((((((((2 + 1) + more.length) + 1) + 1) + lt.length) + 1) + l.length + 1) + 1) _
    ((enter_underscore hn (by simp) hlen (2 + more.length + 1 + (l ++ ([Tok.char ' '] ++ ([Tok.text (str! "as") P] ++
      ([Tok.char ' '] ++ (lt ++ [Tok.char '>']))))).length)).trans hall) ?_
  have e0 : [Tok.char '<'] ++ (l ++ ([Tok.char ' '] ++ ([Tok.text (str! "as") P] ++ ([Tok.char ' '] ++
      (lt ++ [Tok.char '>']))))) ++ (Tok.text m Q :: (List.zipWith Tok.text more qs ++ [.text ('h' :: hash) hpos])) =
      Tok.char '<' :: (l ++ Tok.char ' ' :: (Tok.text (str! "as") P :: Tok.char ' ' :: (lt ++ Tok.char '>' ::
        (Tok.text m Q :: (List.zipWith Tok.text more qs ++ [.text ('h' :: hash) hpos]))))) := by simp
  rw [e0, collect_char _ _ _ _ (by decide), hl1 .fin _ ' ' _ [] (by decide)]
  rw [collect]
  have hAs : ∀ rest', iterate .fin { it := .text (str! "as") P :: .char ' ' :: rest' } =
      .cont { it := rest', state := .asPrefix } := fun _ => rfl
  rw [hAs]
  simp only []
  rw [collect_path (e := .fin) (t := .char '>') true trait lt htexts ht hne _ .asPrefix [] _ (by simp)]
  simp only [if_true, List.nil_append]
  rw [collect]
  have hGt : ∀ rest', iterate .fin { it := .char '>' :: .text m Q :: rest', state := .asPrefix } =
      .emit (.part m) { it := .text m Q :: rest', asFinal := some (m, Q), state := .outputting } := fun _ => rfl
  rw [hGt]
  simp only []
  rw [collect]
  have hSkip : ∀ rest', rest' ≠ [] → rest'.head? ≠ some (.char ' ') →
      iterate .fin { it := .text m Q :: rest', asFinal := some (m, Q), state := .outputting } =
      .cont { it := rest', asFinal := some (m, Q), state := .outputting } := by
    intro rest' _ h2
    unfold iterate onText
    simp only []
    rw [if_neg hm.notMut, if_neg (by simp), if_neg (by simp [ident_not_number hm.ident]), if_neg (fun h => h2 h.2),
      if_pos trivial]
  rw [hSkip _ (by simp) (by
    match more, qs, hq1 with
    | [], [], _ => simp
    | b :: path, r :: ps, _ => simp)]
  simp only []
  rw [collect_rest more qs hq1 (fun i hi => hr i (by simp [hi])) (by
    intro p hp m' q' e
    cases e
    have := hq2 p hp
    omega)]
  rw [collect, iterate_hash hh hpos]
  simp [collect, iterate]

/-- **C137 (generic functions).** The symbol of `path::last<args>` has exactly the name `path::last` and those of the paths
in the arguments.

Missing: what comes after generic arguments, see `C137_generic_method`. -/
theorem C137_generic_partial (path : List Str) (last : Str) (args : List (List Str)) (symbol : Str)
    (hp : ∀ i ∈ path ++ [last], LegacyIdent i) (h : GenericSymbol path last args [] symbol) :
    Gives symbol (.names ((path ++ [last]) :: args ++ [[]])) := by
  obtain ⟨t, comp, ds, ps, cs, hash, hty, rfl, hn, hlen, hps, hcs, hh, rfl⟩ := h
  cases hcs
  have hlast := hp last (by simp)
  have lit : ∀ s : Str, (s.all (fun c => decide (c.toNat < 128))) = true → Ascii s := by
    intro s hs c hc
    simpa using List.all_eq_true.mp hs c hc
  have hasc : Ascii (last ++ str! "$LT$" ++ t ++ str! "$GT$") :=
    ascii_append (ascii_append (ascii_append (ident_ascii hlast.ident) (lit _ rfl)) (ty_ascii hty)) (lit _ rfl)
  have hb := byteLen_ascii hasc
  rw [← hb] at hn hlen
  have hcomp : last ++ str! "$LT$" ++ t ++ str! "$GT$" = last ++ (str! "$LT$" ++ (t ++ str! "$GT$")) := by simp
  rw [hcomp] at hn hlen
  generalize houter : str! "17" ++ ('h' :: hash) ++ [] = outer at *
  have hnew : Iter.new (str! "_ZN" ++ (ps ++ (ds ++ (last ++ str! "$LT$" ++ t ++ str! "$GT$") ++ [])) ++ str! "17h" ++
      hash ++ str! "E") = .legacy { outer := ps ++ (ds ++ (last ++ (str! "$LT$" ++ (t ++ str! "$GT$"))) ++ outer) } := by
    rw [new_legacy, hcomp, ← houter]
    simp
  obtain ⟨hpos, hhash⟩ := hash_tok hh
  rw [houter] at hhash
  obtain ⟨qs, hq1, _, hq3⟩ := components_toks hps (fun i hi => hp i (by simp [hi]))
    (ds ++ (last ++ (str! "$LT$" ++ (t ++ str! "$GT$"))) ++ outer)
  have LT : ∀ rest outer, Reads (str! "$LT$") rest outer [.char '<'] := Reads.sym (esc := str! "LT") rfl (by decide)
  have GT : ∀ rest outer, Reads (str! "$GT$") rest outer [.char '>'] := Reads.sym (esc := str! "GT") rfl (by decide)
  obtain ⟨l, hl1, hl2⟩ := ty_toks hty (str! "$GT$" ++ []) outer (stops_dollar _)
  have LA := Reads.ident hlast.ident [] ((str! "$LT$" ++ (t ++ str! "$GT$")) ++ []) outer (by simp) (stops_dollar _)
  have r := LA.append ((LT _ outer).append (hl2.append (GT [] outer)))
  generalize last.length + ((str! "$LT$" ++ (t ++ str! "$GT$")) ++ []).length + outer.length = P at *
  have hin := r 2
  rw [leave, hhash 0, List.append_nil] at hin
  have hent := enter_dollar (rest := outer) hn (by obtain ⟨c, r, rfl, _⟩ := hlast.ident; simp)
    (by
      obtain ⟨c, r, rfl, hc, _⟩ := hlast.ident
      intro d hd
      simp only [List.cons_append, List.head?_cons, Option.some.injEq] at hd
      subst hd
      exact ⟨letter_not_digit hc, fun e => hlast.noUnderscore (by rw [e]; rfl)⟩) (by simp) hlen
    (2 + ([Tok.char '<'] ++ (l ++ [Tok.char '>'])).length)
  have hall := hq3 (2 + ([Tok.char '<'] ++ (l ++ [Tok.char '>'])).length + 1)
  rw [hent.trans hin] at hall
  unfold Gives symbolNames
  rw [hnew]
  refine namesOf_of Iter.next _ _ _ (((2 + l.length + 1) + 1) + (path ++ [last]).length) _ hall ?_
  have e0 : List.zipWith Tok.text path qs ++ ([Tok.text last P] ++ ([Tok.char '<'] ++ (l ++ [Tok.char '>'])) ++
      [Tok.text ('h' :: hash) hpos]) = (List.zipWith Tok.text path qs ++ [Tok.text last P]) ++ (Tok.char '<' ::
        (l ++ Tok.char '>' :: [Tok.text ('h' :: hash) hpos])) := by simp
  have htexts : Texts (List.zipWith Tok.text path qs ++ [Tok.text last P]) (path ++ [last]) := by
    refine ⟨qs ++ [P], ?_, by simp [hq1]⟩
    rw [List.zipWith_append hq1.symm]
    rfl
  rw [e0, collect_texts (by simp) _ _ htexts (fun i hi => ⟨⟨(hp i hi).notMut, ident_not_number (hp i hi).ident⟩, by simp⟩)
    (by simp) _ .inactive [] [] (Or.inl rfl), collect_char_out _ _ _ _ _ (by decide), hl1 .fin _ '>' _ _ (by decide)]
  rw [collect, iterate_hash hh hpos]
  simp [collect, iterate]

/-! ## Examples and disagreements -/

theorem hash_demo : Hash (str! "0123456789abcdef") := by
  refine ⟨rfl, ?_⟩
  intro c hc
  simp at hc
  unfold Hex Digit
  simp only [Char.le_def]
  rcases hc with rfl | rfl | rfl | rfl | rfl | rfl | rfl | rfl | rfl | rfl | rfl | rfl | rfl | rfl | rfl | rfl <;> decide

theorem numeral_of_two {a b : Char} (ha : isDigit a = true) (hb : isDigit b = true) :
    Numeral [a, b] (10 * (a.toNat - 48) + (b.toNat - 48)) :=
  .more (s := [a]) (.one (digit_of ha)) (digit_of hb)

theorem ident_letters {i : Str} (hne : i ≠ [])
    (h : ∀ c ∈ i, ('a'.val ≤ c.val ∧ c.val ≤ 'z'.val) ∨ ('A'.val ≤ c.val ∧ c.val ≤ 'Z'.val) ∨ c = '_') : Ident i := by
  obtain ⟨c, r, rfl⟩ := List.exists_cons_of_ne_nil hne
  refine ⟨c, r, rfl, ?_, ?_⟩
  · rcases h c (by simp) with h | h | h
    · exact Or.inl (Or.inl h)
    · exact Or.inl (Or.inr h)
    · exact Or.inr h
  · intro d hd
    rcases h d (by simp [hd]) with h | h | h
    · exact Or.inl (Or.inl h)
    · exact Or.inl (Or.inr h)
    · exact Or.inr (Or.inr h)

/-- Decidable conditions for identifiers. -/
theorem typeIdents {p : List Str} (h : p.all (fun i => !i.isEmpty && i.all (fun c => decide (('a'.val ≤ c.val ∧ c.val ≤ 'z'.val) ∨
    ('A'.val ≤ c.val ∧ c.val ≤ 'Z'.val) ∨ c = '_')) && decide (i ≠ str! "mut") && decide (i ≠ str! "as")) = true) :
    ∀ i ∈ p, TypeIdent i := by
  intro i hi
  have := List.all_eq_true.mp h i hi
  simp only [Bool.and_eq_true, decide_eq_true_eq, List.all_eq_true] at this
  obtain ⟨⟨⟨h1, h2⟩, h3⟩, h4⟩ := this
  exact ⟨ident_letters (by intro e; subst e; exact absurd h1 (by decide)) h2, h3, h4⟩

theorem legacyIdents {p : List Str} (h : p.all (fun i => !i.isEmpty && i.all (fun c => decide (('a'.val ≤ c.val ∧ c.val ≤ 'z'.val) ∨
    ('A'.val ≤ c.val ∧ c.val ≤ 'Z'.val) ∨ c = '_')) && decide (i ≠ str! "mut") && decide (i.head? ≠ some '_') &&
    decide (i.length < 2 ^ 64)) = true) : ∀ i ∈ p, LegacyIdent i := by
  intro i hi
  have := List.all_eq_true.mp h i hi
  simp only [Bool.and_eq_true, decide_eq_true_eq, List.all_eq_true] at this
  obtain ⟨⟨⟨⟨h1, h2⟩, h3⟩, h4⟩, h5⟩ := this
  exact ⟨ident_letters (by intro e; subst e; exact absurd h1 (by decide)) h2, h3, h4, h5⟩

/-- Non-vacuity: `<alloc::vec::Vec<&mut std::fs::File> as core::fmt::Debug>::fmt`. -/
example : Gives (str! "_ZN85_$LT$alloc..vec..Vec$LT$$RF$mut$u20$std..fs..File$GT$$u20$as$u20$core..fmt..Debug$GT$3fmt17h0123456789abcdefE")
    (.names [[str! "alloc", str! "vec", str! "Vec"], [str! "std", str! "fs", str! "File"],
      [str! "core", str! "fmt", str! "Debug", str! "fmt"], []]) :=
  C137_trait_partial [[str! "alloc", str! "vec", str! "Vec"], [str! "std", str! "fs", str! "File"]]
    [str! "core", str! "fmt", str! "Debug"] [str! "fmt"] _ (by decide) (by decide) (typeIdents (by decide))
    (legacyIdents (by decide))
    ⟨_, [], _, str! "85", str! "3fmt", str! "0123456789abcdef",
      .generic (by decide) (typeIdents (by decide)) (.one (.refMut (.path (by decide) (typeIdents (by decide))))), rfl, rfl,
      numeral_of_two (a := '8') (b := '5') rfl rfl, by decide, .cons (ds := str! "3") numeral_three .nil, hash_demo, rfl⟩

/-- Non-vacuity: `core::ptr::drop_in_place<std::fs::File>`. -/
example : Gives (str! "_ZN4core3ptr34drop_in_place$LT$std..fs..File$GT$17h0123456789abcdefE")
    (.names [[str! "core", str! "ptr", str! "drop_in_place"], [str! "std", str! "fs", str! "File"], []]) :=
  C137_generic_partial [str! "core", str! "ptr"] (str! "drop_in_place") [[str! "std", str! "fs", str! "File"]] _
    (legacyIdents (by decide))
    ⟨str! "std..fs..File", _, str! "34", str! "4core3ptr", [], str! "0123456789abcdef",
      .one (.path (by decide) (typeIdents (by decide))), rfl, numeral_of_two (a := '3') (b := '4') rfl rfl, by decide,
      .cons (i := str! "core") (ds := str! "4") (.one (c := '4') (digit_of rfl)) (.cons (i := str! "ptr") (ds := str! "3")
        numeral_three .nil), .nil, hash_demo, rfl⟩

/-- **C137, disagreement.** The first generic argument of a trait is glued to the path of the trait's function:
`<a::T as core::convert::From<std::fs::File>>::from` has the names `a::T` and
`core::convert::From::from::std::fs::File`, so the use of `std::fs` is not seen. -/
theorem C137_trait_args : ¬ C137_Claim := by
  intro h
  have h1 : Gives (str! "_ZN65_$LT$a..T$u20$as$u20$core..convert..From$LT$std..fs..File$GT$$GT$4from17h0123456789abcdefE")
      (.names [[str! "a", str! "T"], [str! "core", str! "convert", str! "From", str! "from", str! "std", str! "fs", str! "File"],
        []]) := .of (n := 40) (by decide +kernel) (by decide +kernel)
  have h2 := h.1 [[str! "a", str! "T"]] [str! "core", str! "convert", str! "From"] (some [[str! "std", str! "fs", str! "File"]])
    [str! "from"] _ _ (by decide) (by decide) (typeIdents (by decide)) (legacyIdents (by decide))
    ⟨_, _, _, str! "65", str! "4from", str! "0123456789abcdef", .path (by decide) (typeIdents (by decide)),
      ⟨_, .one (.path (by decide) (typeIdents (by decide))), rfl⟩, rfl, numeral_of_two (a := '6') (b := '5') rfl rfl, by decide,
      .cons (i := str! "from") (ds := str! "4") (.one (c := '4') (digit_of rfl)) .nil, hash_demo, rfl⟩ h1
    [str! "std", str! "fs", str! "File"] (by decide)
  revert h2
  decide

/-- **C137, disagreement.** A function of a generic type is not connected to the type: `std::thread::JoinHandle<T>::join` has
the names `std::thread::JoinHandle`, `T` and `join`, so that an API `std::thread::JoinHandle::join` is not recognised. -/
theorem C137_generic_method : ¬ C137_Claim := by
  intro h
  have h1 : Gives (str! "_ZN3std6thread19JoinHandle$LT$T$GT$4join17h0123456789abcdefE")
      (.names [[str! "std", str! "thread", str! "JoinHandle"], [str! "T"], [str! "join"], []]) :=
    .of (n := 40) (by decide +kernel) (by decide +kernel)
  have h2 := h.2 [str! "std", str! "thread"] (str! "JoinHandle") [[str! "T"]] [str! "join"] _ _ (legacyIdents (by decide))
    ⟨_, _, str! "19", str! "3std6thread", str! "4join", str! "0123456789abcdef",
      .one (.path (by decide) (typeIdents (by decide))), rfl, numeral_of_two (a := '1') (b := '9') rfl rfl, by decide,
      .cons (i := str! "std") (ds := str! "3") numeral_three (.cons (i := str! "thread") (ds := str! "6")
        (.one (c := '6') (digit_of rfl)) .nil),
      .cons (i := str! "join") (ds := str! "4") (.one (c := '4') (digit_of rfl)) .nil, hash_demo, rfl⟩ h1
    [str! "std", str! "thread", str! "JoinHandle", str! "join"] (by decide)
  revert h2
  decide

/-- **C27, disagreement.** An identifier with letters outside of ASCII is cut off at the first such letter: the symbol of
`krate::größe` has the names `krate::gr` and `e`. -/
theorem C27_unicode : Gives (str! "_ZN5krate13gr$uf6$$udf$e17h0123456789abcdefE")
    (.names [[str! "krate", str! "gr"], [str! "e"], []]) := .of (n := 40) (by decide +kernel) (by decide +kernel)

end Cackle.LegacySymbols
