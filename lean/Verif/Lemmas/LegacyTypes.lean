import Verif.Props.Demangle
import Verif.Props.DemangleV0

/-!
# Types in legacy symbols
-/

namespace Cackle.LegacySymbols
open Cackle Demangle Names

/-! ## Specification of types in legacy mangling -/

/-- The text of a path within a component: the identifiers are separated by two dots. -/
def dots : List Str → Str
  | [] => []
  | [i] => i
  | i :: j :: p => i ++ '.' :: '.' :: dots (j :: p)

/-- An identifier in a type. -/
structure TypeIdent (i : Str) : Prop where
  ident : Ident i
  notMut : i ≠ str! "mut"
  notAs : i ≠ str! "as"

/-- A type in legacy mangling (or a list of types, if the first argument is `true`) with the paths that occur in it. -/
inductive LegacyTy : Bool → List (List Str) → Str → Prop
  | path {p : List Str} : p ≠ [] → (∀ i ∈ p, TypeIdent i) → LegacyTy false [p] (dots p)
  | generic {p : List Str} {ps : List (List Str)} {s : Str} : p ≠ [] → (∀ i ∈ p, TypeIdent i) → LegacyTy true ps s →
      LegacyTy false (p :: ps) (dots p ++ str! "$LT$" ++ s ++ str! "$GT$")
  | ref {ps : List (List Str)} {s : Str} : LegacyTy false ps s → LegacyTy false ps (str! "$RF$" ++ s)
  | refMut {ps : List (List Str)} {s : Str} : LegacyTy false ps s → LegacyTy false ps (str! "$RF$mut$u20$" ++ s)
  | ptrMut {ps : List (List Str)} {s : Str} : LegacyTy false ps s → LegacyTy false ps (str! "$BP$mut$u20$" ++ s)
  | unit : LegacyTy false [] (str! "$LP$$RP$")
  | tuple {ps : List (List Str)} {s : Str} : LegacyTy true ps s → LegacyTy false ps (str! "$LP$" ++ s ++ str! "$RP$")
  | slice {ps : List (List Str)} {s : Str} : LegacyTy false ps s → LegacyTy false ps (str! "$u5b$" ++ s ++ str! "$u5d$")
  | one {ps : List (List Str)} {s : Str} : LegacyTy false ps s → LegacyTy true ps s
  | more {ps qs : List (List Str)} {s t : Str} : LegacyTy false ps s → LegacyTy true qs t →
      LegacyTy true (ps ++ qs) (s ++ str! "$C$" ++ t)

/-! ## Tokens -/

/-- The tokens of a legacy symbol from a position within a component on. -/
def inToks (n : Nat) (outer data : Str) : List Tok × End :=
  toks Iter.next n (.legacy { outer := outer, inner := some data })

/-- Where an identifier ends. -/
def Stops (rest : Str) : Prop := ∀ c, rest.head? = some c → c = '.' ∨ c = '$'

/-- The fragment `s` is read as the tokens `l`. -/
def Reads (s : Str) (rest outer : Str) (l : List Tok) : Prop :=
  ∀ n, inToks (n + l.length) outer (s ++ rest) = (l ++ (inToks n outer rest).1, (inToks n outer rest).2)

theorem Reads.append {s t rest outer : Str} {l m : List Tok} (h1 : Reads s (t ++ rest) outer l)
    (h2 : Reads t rest outer m) : Reads (s ++ t) rest outer (l ++ m) := by
  intro n
  have a := h1 (n + m.length)
  rw [h2 n] at a
  rw [List.append_assoc, List.length_append, show n + (l.length + m.length) = n + m.length + l.length by omega, a]
  simp

theorem inToks_step {n : Nat} {outer data : Str} (hd : data ≠ []) :
    inToks (n + 1) outer data = ((innerNext data outer.length).1 :: (inToks n outer (innerNext data outer.length).2).1,
      (inToks n outer (innerNext data outer.length).2).2) := by
  unfold inToks
  rw [toks, Iter.next, legacyNext]
  simp only [Option.some.injEq, hd, if_false]
  rfl

theorem dropDots_other {c : Char} {s : Str} (h : c ≠ '.') : dropDots (c :: s) = c :: s := by
  unfold dropDots
  split
  · rename_i e; cases e; exact absurd rfl h
  · rfl

theorem Reads.sym {esc : Str} {ch : Char} (h : symbol esc = some ch) (hd : '$' ∉ esc) (rest outer : Str) :
    Reads ('$' :: esc ++ ['$']) rest outer [.char ch] := by
  intro n
  have e : '$' :: esc ++ ['$'] ++ rest = '$' :: (esc ++ '$' :: rest) := by simp
  rw [e, List.length_singleton, inToks_step (by simp)]
  have : innerNext ('$' :: (esc ++ '$' :: rest)) outer.length = (.char ch, rest) := by
    unfold innerNext
    rw [dropDots_other (by decide)]
    simp only [findSplit_exact rest hd, h]
  rw [this]
  rfl

theorem chunk_exact : ∀ {i : Str} {rest : Str}, (∀ c ∈ i, c ≠ '.' ∧ c ≠ '$') → Stops rest → chunk (i ++ rest) = (i, rest)
  | [], [], _, _ => rfl
  | [], c :: rest, _, h => by
    have := h c rfl
    simp only [List.nil_append, chunk]
    rw [if_pos this]
  | d :: i, rest, hi, h => by
    have h1 := hi d (by simp)
    have h2 := chunk_exact (i := i) (fun c hc => hi c (by simp [hc])) h
    simp only [List.cons_append, chunk]
    rw [if_neg (fun h => h.elim h1.1 h1.2), h2]

theorem dropDots_dots : ∀ (ds : Str) (s : Str), (∀ c ∈ ds, c = '.') → dropDots (ds ++ s) = dropDots s
  | [], _, _ => rfl
  | d :: ds, s, h => by
    have := h d (by simp)
    subst this
    simp only [List.cons_append]
    rw [dropDots, dropDots_dots ds s (fun c hc => h c (by simp [hc]))]

theorem ident_inner {i : Str} (h : Ident i) : i ≠ [] ∧ ∀ c ∈ i, c ≠ '.' ∧ c ≠ '$' := by
  have h2 : ∀ c, Letter c ∨ Digit c ∨ c = '_' → c ≠ '.' ∧ c ≠ '$' := by
    intro c hc
    constructor
    · rintro rfl
      unfold Letter Digit at hc
      simp only [Char.le_def] at hc
      exact absurd hc (by decide)
    · rintro rfl
      unfold Letter Digit at hc
      simp only [Char.le_def] at hc
      exact absurd hc (by decide)
  obtain ⟨c, r, rfl, hc, hr⟩ := h
  refine ⟨by simp, ?_⟩
  intro d hd
  simp only [List.mem_cons] at hd
  rcases hd with rfl | hd
  · exact h2 _ (hc.elim .inl (fun h => .inr (.inr h)))
  · exact h2 _ (hr d hd)

/-- An identifier, after dots. -/
theorem Reads.ident {i : Str} (hi : Ident i) (ds rest outer : Str) (hds : ∀ c ∈ ds, c = '.') (hs : Stops rest) :
    Reads (ds ++ i) rest outer [.text i (i.length + rest.length + outer.length)] := by
  intro n
  obtain ⟨hne, hc⟩ := ident_inner hi
  rw [List.length_singleton, inToks_step (by simp [hne])]
  have : innerNext (ds ++ i ++ rest) outer.length = (.text i (i.length + rest.length + outer.length), rest) := by
    unfold innerNext
    rw [List.append_assoc, dropDots_dots _ _ hds]
    obtain ⟨c, r, rfl⟩ := List.exists_cons_of_ne_nil hne
    have h1 := hc c (by simp)
    have e : dropDots ((c :: r) ++ rest) = (c :: r) ++ rest := dropDots_other h1.1
    rw [e]
    dsimp only
    rw [chunk_exact hc hs]
    split
    · rename_i e
      exact absurd (List.cons.inj e).1 h1.2
    · rw [List.length_append]
  rw [this]
  rfl

theorem stops_dots (s : Str) : Stops ('.' :: s) := fun _ h => Or.inl (Option.some.inj h).symm
theorem stops_dollar (s : Str) : Stops ('$' :: s) := fun _ h => Or.inr (Option.some.inj h).symm

/-- A path. -/
theorem Reads.path : ∀ {p : List Str}, p ≠ [] → (∀ i ∈ p, Ident i) → ∀ (ds rest outer : Str), (∀ c ∈ ds, c = '.') →
    Stops rest → ∃ l, Texts l p ∧ Reads (ds ++ dots p) rest outer l
  | [], h, _ => absurd rfl h
  | [i], _, hp => fun ds rest outer hds hs =>
    ⟨_, .cons i _ .nil, Reads.ident (hp i (by simp)) ds rest outer hds hs⟩
  | i :: j :: p, _, hp => fun ds rest outer hds hs => by
    obtain ⟨l, h1, h2⟩ := Reads.path (p := j :: p) (by simp) (fun k hk => hp k (by simp [hk])) (str! "..") rest outer
      (by decide) hs
    have h3 := Reads.ident (hp i (by simp)) ds (str! ".." ++ dots (j :: p) ++ rest) outer hds (stops_dots _)
    have h4 := h3.append h2
    refine ⟨_, .cons i (i.length + (str! ".." ++ dots (j :: p) ++ rest).length + outer.length) h1, ?_⟩
    have e : ds ++ i ++ (str! ".." ++ dots (j :: p)) = ds ++ dots (i :: j :: p) := by simp [dots]
    rw [e] at h4
    exact h4

/-! ## Names of tokens -/

/-- The tokens of a type: when they are followed by a character, the paths become names. -/
def TypeToks (ps : List (List Str)) (l : List Tok) : Prop :=
  ∀ (e : End) (n : Nat) (c : Char) (rest : List Tok) (done : List (List Str)), braceChange c = 0 →
    collect e (n + l.length + 1) { it := l ++ .char c :: rest } [] done =
      collect e n { it := rest } [] (done ++ ps)

theorem iterate_char_inactive (e : End) {c : Char} (rest : List Tok) (hc : braceChange c = 0) :
    iterate e { it := .char c :: rest } = .cont { it := rest } := by
  unfold iterate onChar
  simp only [charState, hc, Int.add_zero]

theorem collect_char (e : End) (n : Nat) {c : Char} (rest : List Tok) (done : List (List Str)) (hc : braceChange c = 0) :
    collect e (n + 1) { it := .char c :: rest } [] done = collect e n { it := rest } [] done := by
  rw [collect, iterate_char_inactive e rest hc]

theorem collect_char_out (e : End) (n : Nat) {c : Char} (rest : List Tok) (current : List Str) (done : List (List Str))
    (hc : braceChange c = 0) :
    collect e (n + 1) { it := .char c :: rest, state := .outputting } current done =
      collect e n { it := rest } [] (done ++ [current]) := by
  have : iterate e { it := .char c :: rest, state := .outputting } = .emit .endName { it := rest } := by
    unfold iterate onChar
    simp only [charState, hc, Int.add_zero]
  rw [collect, this]

/-- A text that is no keyword becomes a part of the name. -/
theorem iterate_part' {e : End} {i : Str} {pos : Nat} {rest : List Tok} {st : State} {af : Option (Str × Nat)}
    (hr : Readable i) (has : i ≠ str! "as") (hh : rest ≠ [])
    (haf : af ≠ some (i, pos)) (hst : st = .inactive ∨ st = .outputting ∨ st = .asPrefix) :
    iterate e { it := .text i pos :: rest, state := st, asFinal := af } =
      .emit (.part i) { it := rest, state := if st matches .asPrefix then .asPrefix else .outputting, asFinal := af } := by
  unfold iterate onText
  simp only []
  rw [if_neg hr.notMut, if_neg (by simp), if_neg (by simp [hr.notNumber]), if_neg (fun h => has h.1), if_neg haf,
    if_neg (fun h => hh h.2)]
  rcases hst with rfl | rfl | rfl <;> rfl

theorem TypeIdent.readable {i : Str} (h : TypeIdent i) : Readable i := ⟨h.notMut, ident_not_number h.ident⟩

/-- Reading a path that a character follows. -/
theorem collect_path {e : End} {t : Tok} {rest : List Tok} (pre : Bool) :
    ∀ (p : List Str) (l : List Tok), Texts l p → (∀ i ∈ p, TypeIdent i) → p ≠ [] →
    ∀ (n : Nat) (st : State) (current : List Str) (done : List (List Str)),
      (if pre then st = .asPrefix else st = .inactive ∨ st = .outputting) →
      collect e (n + l.length) { it := l ++ t :: rest, state := st } current done =
        collect e n { it := t :: rest, state := if pre then .asPrefix else .outputting } (current ++ p) done := by
  intro p
  induction p with
  | nil => intro _ _ _ h; exact absurd rfl h
  | cons i p ih =>
    intro l hl hp _ n st current done hst
    obtain ⟨ps, rfl, hps⟩ := hl
    match ps, hps with
    | q :: ps, hps =>
      simp only [List.length_cons, Nat.add_right_cancel_iff] at hps
      have hi := hp i (by simp)
      have hstep : iterate e { it := .text i q :: (List.zipWith Tok.text p ps ++ t :: rest), state := st } =
          .emit (.part i) { it := List.zipWith Tok.text p ps ++ t :: rest,
                            state := if pre then .asPrefix else .outputting } := by
        rw [iterate_part' hi.readable hi.notAs (by simp) (by simp)]
        · cases pre with
          | true => simp only [if_true] at hst; subst hst; rfl
          | false =>
            simp only [Bool.false_eq_true, if_false] at hst
            rcases hst with rfl | rfl <;> rfl
        · cases pre with
          | true => simp only [if_true] at hst; exact .inr (.inr hst)
          | false =>
            simp only [Bool.false_eq_true, if_false] at hst
            rcases hst with rfl | rfl
            · exact .inl rfl
            · exact .inr (.inl rfl)
      have hlen : (List.zipWith Tok.text (i :: p) (q :: ps)).length = (List.zipWith Tok.text p ps).length + 1 := by simp
      rw [hlen, ← Nat.add_assoc, List.zipWith_cons_cons, List.cons_append, collect, hstep]
      simp only []
      cases hpath : p with
      | nil =>
        subst hpath
        have : ps = [] := by simpa using hps
        subst this
        simp
      | cons a p' =>
        rw [← hpath]
        rw [ih _ ⟨ps, rfl, hps⟩ (fun j hj => hp j (by simp [hj])) (by rw [hpath]; simp) n _ _ _ (by cases pre <;> simp)]
        simp

theorem TypeToks.path {p : List Str} {l : List Tok} (hl : Texts l p) (hp : ∀ i ∈ p, TypeIdent i) (hne : p ≠ []) :
    TypeToks [p] l := by
  intro e n c rest done hc
  rw [show n + l.length + 1 = (n + 1) + l.length by omega,
    collect_path (e := e) (t := .char c) (rest := rest) false p l hl hp hne (n + 1) .inactive [] done (by simp)]
  simp only [List.nil_append, Bool.false_eq_true, if_false]
  exact collect_char_out e n rest p done hc

theorem collect_mut (e : End) (n pos : Nat) (rest : List Tok) (done : List (List Str)) :
    collect e (n + 1) { it := .text (str! "mut") pos :: rest } [] done = collect e n { it := rest } [] done := by
  rw [collect]
  rfl

/-- The characters that begin a type. -/
theorem TypeToks.before {ps : List (List Str)} {l : List Tok} (h : TypeToks ps l) {c : Char} (hc : braceChange c = 0) :
    TypeToks ps (.char c :: l) := by
  intro e n d rest done hd
  rw [List.length_cons, List.cons_append, ← Nat.add_assoc, show n + l.length + 1 + 1 = (n + l.length + 1) + 1 by rfl,
    collect_char e _ _ _ hc, h e n d rest done hd]

theorem TypeToks.after {ps : List (List Str)} {l : List Tok} (h : TypeToks ps l) {c : Char} (hc : braceChange c = 0) :
    TypeToks ps (l ++ [.char c]) := by
  intro e n d rest done hd
  rw [List.length_append, List.length_singleton, List.append_assoc, List.singleton_append,
    show n + (l.length + 1) + 1 = (n + 1) + l.length + 1 by omega, h e (n + 1) c _ done hc, collect_char e _ _ _ hd]

theorem TypeToks.mut {ps : List (List Str)} {l : List Tok} (h : TypeToks ps l) {pos : Nat} :
    TypeToks ps (.text (str! "mut") pos :: .char ' ' :: l) := by
  intro e n d rest done hd
  have h2 := h.before (c := ' ') (by decide)
  rw [List.length_cons, List.cons_append, ← Nat.add_assoc,
    show n + (Tok.char ' ' :: l).length + 1 + 1 = (n + (Tok.char ' ' :: l).length + 1) + 1 by rfl, collect_mut]
  exact h2 e n d rest done hd

theorem TypeToks.two {ps qs : List (List Str)} {l m : List Tok} (h1 : TypeToks ps l) (h2 : TypeToks qs m) {c : Char}
    (hc : braceChange c = 0) : TypeToks (ps ++ qs) (l ++ .char c :: m) := by
  intro e n d rest done hd
  rw [List.length_append, List.length_cons, List.append_assoc, List.cons_append,
    show n + (l.length + (m.length + 1)) + 1 = (n + m.length + 1) + l.length + 1 by omega,
    h1 e _ c _ done hc, h2 e n d rest _ hd, List.append_assoc]

theorem TypeToks.nil : TypeToks [] [] := by
  intro e n d rest done hd
  rw [List.length_nil, List.nil_append, Nat.add_zero, collect_char e _ _ _ hd, List.append_nil]

/-- The tokens of a type and what they mean. -/
theorem ty_toks {b : Bool} {ps : List (List Str)} {s : Str} (h : LegacyTy b ps s) :
    ∀ rest outer, Stops rest → ∃ l, TypeToks ps l ∧ Reads s rest outer l := by
  have LT : ∀ rest outer, Reads (str! "$LT$") rest outer [.char '<'] := Reads.sym (esc := str! "LT") rfl (by decide)
  have GT : ∀ rest outer, Reads (str! "$GT$") rest outer [.char '>'] := Reads.sym (esc := str! "GT") rfl (by decide)
  have LP : ∀ rest outer, Reads (str! "$LP$") rest outer [.char '('] := Reads.sym (esc := str! "LP") rfl (by decide)
  have RP : ∀ rest outer, Reads (str! "$RP$") rest outer [.char ')'] := Reads.sym (esc := str! "RP") rfl (by decide)
  have RF : ∀ rest outer, Reads (str! "$RF$") rest outer [.char '&'] := Reads.sym (esc := str! "RF") rfl (by decide)
  have BP : ∀ rest outer, Reads (str! "$BP$") rest outer [.char '*'] := Reads.sym (esc := str! "BP") rfl (by decide)
  have CO : ∀ rest outer, Reads (str! "$C$") rest outer [.char ','] := Reads.sym (esc := str! "C") rfl (by decide)
  have SP : ∀ rest outer, Reads (str! "$u20$") rest outer [.char ' '] := Reads.sym (esc := str! "u20") rfl (by decide)
  have LB : ∀ rest outer, Reads (str! "$u5b$") rest outer [.char '['] := Reads.sym (esc := str! "u5b") rfl (by decide)
  have RB : ∀ rest outer, Reads (str! "$u5d$") rest outer [.char ']'] := Reads.sym (esc := str! "u5d") rfl (by decide)
  have MU : ∀ rest outer, Reads (str! "mut") ('$' :: rest) outer
      [.text (str! "mut") (3 + ('$' :: rest).length + outer.length)] := fun rest outer =>
    Reads.ident (i := str! "mut") (ident_lower (by simp) (by decide)) [] ('$' :: rest) outer (by simp) (stops_dollar _)
  induction h with
  | path hne hp =>
    intro rest outer hs
    obtain ⟨l, h1, h2⟩ := Reads.path hne (fun i hi => (hp i hi).ident) [] rest outer (by simp) hs
    exact ⟨l, .path h1 hp hne, h2⟩
  | @generic p ps s hne hp _ ih =>
    intro rest outer hs
    obtain ⟨l, h1, h2⟩ := Reads.path hne (fun i hi => (hp i hi).ident) []
      ((str! "$LT$" ++ (s ++ str! "$GT$")) ++ rest) outer (by simp) (stops_dollar _)
    obtain ⟨m, h3, h4⟩ := ih (str! "$GT$" ++ rest) outer (stops_dollar _)
    refine ⟨l ++ Tok.char '<' :: (m ++ [Tok.char '>']),
      TypeToks.two (ps := [p]) (.path h1 hp hne) (h3.after (c := '>') (by decide)) (c := '<') (by decide), ?_⟩
    have r := h2.append ((LT _ outer).append (h4.append (GT rest outer)) (rest := rest))
    simpa using r
  | @ref ps s _ ih =>
    intro rest outer hs
    obtain ⟨l, h1, h2⟩ := ih rest outer hs
    exact ⟨_, h1.before (c := '&') (by decide), (RF _ outer).append h2⟩
  | @refMut ps s _ ih =>
    intro rest outer hs
    obtain ⟨l, h1, h2⟩ := ih rest outer hs
    have r := (RF _ outer).append ((MU ((str! "u20$" ++ s) ++ rest) outer).append
      ((SP (s ++ rest) outer).append h2) (t := str! "$u20$" ++ s) (rest := rest)) (rest := rest)
    exact ⟨_, TypeToks.before (c := '&') (TypeToks.mut h1) rfl, r⟩
  | @ptrMut ps s _ ih =>
    intro rest outer hs
    obtain ⟨l, h1, h2⟩ := ih rest outer hs
    have r := (BP _ outer).append ((MU ((str! "u20$" ++ s) ++ rest) outer).append
      ((SP (s ++ rest) outer).append h2) (t := str! "$u20$" ++ s) (rest := rest)) (rest := rest)
    exact ⟨_, TypeToks.before (c := '*') (TypeToks.mut h1) rfl, r⟩
  | unit =>
    intro rest outer hs
    exact ⟨_, (TypeToks.nil.before (c := ')') (by decide)).before (c := '(') (by decide), (LP _ outer).append (RP _ outer)⟩
  | @tuple ps s _ ih =>
    intro rest outer hs
    obtain ⟨l, h1, h2⟩ := ih (str! "$RP$" ++ rest) outer (stops_dollar _)
    refine ⟨_, (h1.after (c := ')') (by decide)).before (c := '(') (by decide), ?_⟩
    have r := (LP _ outer).append (h2.append (RP rest outer)) (rest := rest)
    simpa using r
  | @slice ps s _ ih =>
    intro rest outer hs
    obtain ⟨l, h1, h2⟩ := ih (str! "$u5d$" ++ rest) outer (stops_dollar _)
    refine ⟨_, (h1.after (c := ']') (by decide)).before (c := '[') (by decide), ?_⟩
    have r := (LB _ outer).append (h2.append (RB rest outer)) (rest := rest)
    simpa using r
  | @one ps s _ ih => exact ih
  | @more ps qs s t _ _ ih1 ih2 =>
    intro rest outer hs
    obtain ⟨l, h1, h2⟩ := ih1 (str! "$C$" ++ (t ++ rest)) outer (stops_dollar _)
    obtain ⟨m, h3, h4⟩ := ih2 rest outer hs
    refine ⟨_, h1.two h3 (c := ',') (by decide), ?_⟩
    have r := h2.append ((CO _ outer).append h4) (rest := rest)
    simpa using r

end Cackle.LegacySymbols
