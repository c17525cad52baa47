import Verif.Props.Demangle
import Verif.Lemmas.DebugNames

/-!
# C76: names of functions and types in debug information
-/

namespace Cackle.Names
open Cackle Demangle

/-! ## Specification -/

/-- A part of a path: an identifier that is not a keyword and does not look like the hash of a legacy symbol. -/
structure Segment (i : Str) : Prop where
  ident : Ident i
  notMut : i ≠ str! "mut"
  notAs : i ≠ str! "as"
  notHash : ¬ HashLike i

/-- A path as it is written. -/
def written : List Str → Str
  | [] => []
  | [a] => a
  | a :: b :: r => a ++ str! "::" ++ written (b :: r)

/-- A non-empty path. -/
def PathOf (p : List Str) : Prop := p ≠ [] ∧ ∀ i ∈ p, Segment i

/-- A word inside braces, such as `closure#0`. -/
def BraceWord (w : Str) : Prop := w ≠ [] ∧ ∀ c ∈ w, Letter c ∨ Digit c ∨ c = '_' ∨ c = '#'

/-- Names of functions and types with the paths that they consist of. The Boolean is `true` if something of the form
`<… as …>` is allowed in them. With `strict`, the generic arguments of a trait do not contain anything of that form
and do not begin with a path. -/
inductive Expr (strict : Prop) : Bool → Str → List (List Str) → Prop
  | path {b : Bool} {p : List Str} : PathOf p → Expr strict b (written p) [p]
  | generic {b : Bool} {p : List Str} {a : Str} {ns : List (List Str)} : PathOf p → Expr strict b a ns →
      Expr strict b (written p ++ ('<' :: (a ++ str! ">"))) (p :: ns)
  | assoc {b : Bool} {p q : List Str} {a : Str} {ns : List (List Str)} : PathOf p → PathOf q → Expr strict b a ns →
      Expr strict b (written p ++ ('<' :: (a ++ (str! ">::" ++ written q)))) (p :: ns ++ [q])
  | braces {b : Bool} {p : List Str} {w : Str} : PathOf p → BraceWord w →
      Expr strict b (written p ++ (str! "::{" ++ (w ++ str! "}"))) [p]
  | ref {b : Bool} {t : Str} {ns : List (List Str)} : Expr strict b t ns → Expr strict b ('&' :: t) ns
  | refMut {b : Bool} {t : Str} {ns : List (List Str)} : Expr strict b t ns → Expr strict b (str! "&mut " ++ t) ns
  | unit {b : Bool} : Expr strict b (str! "()") []
  | tuple {b : Bool} {t : Str} {ns : List (List Str)} : Expr strict b t ns →
      Expr strict b ('(' :: (t ++ str! ")")) ns
  | slice {b : Bool} {t : Str} {ns : List (List Str)} : Expr strict b t ns →
      Expr strict b ('[' :: (t ++ str! "]")) ns
  | array {b : Bool} {t ds : Str} {n : Nat} {ns : List (List Str)} : Expr strict b t ns → Numeral ds n → n < 2 ^ 63 →
      Expr strict b ('[' :: (t ++ (str! "; " ++ (ds ++ str! "]")))) ns
  | list {b : Bool} {t u : Str} {ns ms : List (List Str)} : Expr strict b t ns → Expr strict b u ms →
      Expr strict b (t ++ (str! ", " ++ u)) (ns ++ ms)
  | method {b : Bool} {t f : Str} {q : List Str} {ns : List (List Str)} : Expr strict b t ns → PathOf q → Segment f →
      Expr strict true ('<' :: (t ++ (str! " as " ++ (written q ++ (str! ">::" ++ f))))) (ns ++ [q ++ [f]])
  | methodArgs {b b' : Bool} {t f a : Str} {q : List Str} {ns ms : List (List Str)} : Expr strict b t ns → PathOf q →
      Segment f → Expr strict b' a ms →
      (strict → b' = false ∧ ∃ c r, a = c :: r ∧ (c = '&' ∨ c = '(' ∨ c = '[')) →
      Expr strict true
        ('<' :: (t ++ (str! " as " ++ (written q ++ ('<' :: (a ++ (str! ">>::" ++ f)))))))
        (ns ++ [q ++ [f]] ++ ms)

/-- What users rely on: each path in the name of a function or type is one of the names read from it. -/
def C76_Claim : Prop := ∀ b t ns l, Expr False b t ns → DebugGives [] t (.names l) → ∀ p ∈ ns, p ∈ l

/-! ## Characters -/

theorem word_noSep {c : Char} (h : Letter c ∨ Digit c ∨ c = '_' ∨ c = '#') : isSeparator c = false := by
  cases hs : isSeparator c with
  | false => rfl
  | true =>
    exfalso
    unfold isSeparator at hs
    simp only [Bool.or_eq_true, decide_eq_true_eq] at hs
    have big : ¬ 128 ≤ c.toNat := by
      have hv : c.toNat = c.val.toNat := rfl
      have h1 : ('z' : Char).val.toNat = 122 := rfl
      have h2 : ('Z' : Char).val.toNat = 90 := rfl
      have h3 : ('9' : Char).val.toNat = 57 := rfl
      unfold Letter Digit at h
      simp only [Char.le_def, UInt32.le_iff_toNat_le] at h
      rcases h with (h | h) | h | rfl | rfl
      · omega
      · omega
      · omega
      · decide
      · decide
    rcases hs with hs | hs
    · exact big hs
    · unfold Letter Digit at h
      simp only [Char.le_def] at h
      simp only [List.mem_cons, List.not_mem_nil, or_false] at hs
      rcases hs with rfl | rfl | rfl | rfl | rfl | rfl | rfl | rfl | rfl | rfl | rfl | rfl | rfl | rfl <;>
        revert h <;> decide

theorem Segment.isPart {i : Str} (h : Segment i) : IsPart i where
  ne := by obtain ⟨c, r, rfl, _⟩ := h.ident; simp
  noSep := by
    obtain ⟨c, r, rfl, h1, h2⟩ := h.ident
    intro d hd
    simp only [List.mem_cons] at hd
    rcases hd with rfl | hd
    · exact word_noSep (by rcases h1 with h1 | h1 <;> simp [h1])
    · exact word_noSep (by rcases h2 d hd with h | h | h <;> simp [h])
  notMut := h.notMut
  notAs := h.notAs
  notNumber := ident_not_number h.ident
  notHash := isHash_false h.ident h.notHash

theorem numeral_isI64 {ds : Str} {n : Nat} (h : Numeral ds n) (hn : n < 2 ^ 63) :
    ds ≠ [] ∧ (∀ c ∈ ds, isSeparator c = false) ∧ isI64 ds = true ∧ ds ≠ str! "as" := by
  obtain ⟨h1, h2, h3⟩ := numeral_spec h
  refine ⟨h1, fun c hc => word_noSep (Or.inr (Or.inl (isDigit_iff.mp (h2 c hc)))), ?_, ?_⟩
  · obtain ⟨c, r, rfl⟩ := List.exists_cons_of_ne_nil h1
    have hc := h2 c (by simp)
    unfold isI64
    split
    · rename_i e; cases e; exact absurd hc (by decide)
    · rename_i e; cases e; exact absurd hc (by decide)
    · simp only [List.isEmpty_cons, Bool.not_false, Bool.true_and, Bool.and_eq_true, List.all_eq_true,
        decide_eq_true_eq, h3]
      exact ⟨h2, by simpa using hn⟩
  · rintro rfl
    exact absurd (h2 'a' (by simp)) (by decide)

/-! ## Reading -/

/-- The text remembered from an earlier `as` is not among the texts with these positions. -/
def Away (af : Option (Str × Nat)) (lo hi : Nat) : Prop := ∀ s q, af = some (s, q) → q ≤ lo ∨ hi < q

theorem Away.ne {af : Option (Str × Nat)} {lo hi : Nat} (h : Away af lo hi) {w : Str} {n : Nat} (h1 : lo < n)
    (h2 : n ≤ hi) : af ≠ some (w, n) := by
  intro e
  rcases h w n e with h | h <;> omega

theorem Away.sub {af : Option (Str × Nat)} {lo hi lo' hi' : Nat} (h : Away af lo hi) (h1 : lo ≤ lo') (h2 : hi' ≤ hi) :
    Away af lo' hi' := by
  intro s q e
  rcases h s q e with h | h
  · exact Or.inl (by omega)
  · exact Or.inr (by omega)

/-- What is remembered after reading something that leaves `n` characters. -/
def Later (b : Bool) (af af' : Option (Str × Nat)) (n : Nat) : Prop :=
  af' = af ∨ b = true ∧ ∃ s q, af' = some (s, q) ∧ n < q

theorem Later.refl (b : Bool) (af : Option (Str × Nat)) (n : Nat) : Later b af af n := Or.inl rfl

theorem Later.away {b : Bool} {af af' : Option (Str × Nat)} {n lo hi : Nat} (h : Later b af af' n)
    (ha : Away af lo hi) (hn : n ≤ hi) : Away af' lo n := by
  rcases h with rfl | ⟨_, s, q, rfl, hq⟩
  · exact ha.sub (Nat.le_refl _) hn
  · intro s' q' e
    cases e
    exact Or.inr hq

theorem Later.mono {b : Bool} {af af' : Option (Str × Nat)} {n m : Nat} (h : Later b af af' n) (hm : m ≤ n) :
    Later b af af' m := by
  rcases h with rfl | ⟨hb, s, q, rfl, hq⟩
  · exact Or.inl rfl
  · exact Or.inr ⟨hb, s, q, rfl, by omega⟩

theorem Later.trans {b : Bool} {af af' af'' : Option (Str × Nat)} {n m : Nat} (h : Later b af af' n)
    (h' : Later b af' af'' m) (hm : m ≤ n) : Later b af af'' m := by
  rcases h' with rfl | h'
  · exact h.mono hm
  · exact Or.inr h'

/-- After an expression: either its last name is complete, or it is still being read. -/
def Ends (b : Bool) (af : Option (Str × Nat)) (p : Pos) (done ns : List (List Str)) (k : Str) : Prop :=
  ∃ af', Later b af af' k.length ∧
    (Leads p [] done (At .inactive af' k) [] (done ++ ns) ∨
      ∃ init last, ns = init ++ [last] ∧ Leads p [] done (At .outputting af' k) last (done ++ init))

theorem Ends.flush {b : Bool} {af : Option (Str × Nat)} {p : Pos} {done ns : List (List Str)} {c : Char} {k : Str}
    (h : Ends b af p done ns (c :: k)) (hc : Plainly c) :
    ∃ af', Later b af af' (k.length + 1) ∧ Leads p [] done (At .inactive af' k) [] (done ++ ns) := by
  obtain ⟨af', hl, h | ⟨init, last, rfl, h⟩⟩ := h
  · exact ⟨af', hl, h.trans (leads_char_inactive hc _ _ _ _)⟩
  · refine ⟨af', hl, ?_⟩
    have := h.trans (leads_char_outputting hc _ _ _ _)
    rwa [List.append_assoc] at this

theorem Ends.before {b : Bool} {af : Option (Str × Nat)} {p p' : Pos} {done ns : List (List Str)} {k : Str}
    (hp : Leads p [] done p' [] done) (h : Ends b af p' done ns k) : Ends b af p done ns k := by
  obtain ⟨af', hl, h | ⟨init, last, e, h⟩⟩ := h
  · exact ⟨af', hl, Or.inl (hp.trans h)⟩
  · exact ⟨af', hl, Or.inr ⟨init, last, e, hp.trans h⟩⟩

theorem At_colons (st : State) (af : Option (Str × Nat)) (s : Str) : At st af (':' :: ':' :: s) = At st af s := by
  unfold At
  rw [dk_colon, dk_colon]

/-- A path is read in one of the states in which parts are output. -/
theorem leads_path {af : Option (Str × Nat)} {k : Str} (hk : Boundary k) (done : List (List Str)) :
    ∀ (p : List Str), p ≠ [] → (∀ i ∈ p, Segment i) → ∀ (st : State), (∀ d r, st ≠ .asSkip d r) → ∀ (cur : List Str),
      Away af k.length (written p ++ k).length →
      Leads (At st af (written p ++ k)) cur done (At (afterPart st) af k) (cur ++ p) done
  | [], h, _, _, _, _, _ => absurd rfl h
  | [a], _, hp, st, hst, cur, haf => by
    have ha := (hp a (by simp)).isPart
    have hlen : 0 < a.length := List.length_pos_iff.mpr ha.ne
    rw [written] at haf ⊢
    exact leads_part ha hk st hst af (haf.ne (by omega) (by simp)) cur done
  | a :: b :: r, _, hp, st, hst, cur, haf => by
    have ha := (hp a (by simp)).isPart
    have hlen : 0 < a.length := List.length_pos_iff.mpr ha.ne
    have e : written (a :: b :: r) ++ k = a ++ (':' :: ':' :: (written (b :: r) ++ k)) := by
      rw [written]; simp
    rw [e] at haf ⊢
    have h1 := leads_part ha (boundary_cons (c := ':') (by decide) (':' :: (written (b :: r) ++ k))) st hst af
      (haf.ne (by simp; omega) (by simp)) cur done
    have hst' : ∀ d r, afterPart st ≠ .asSkip d r := by
      intro d r e
      cases st with
      | asSkip d' r' => exact hst d' r' rfl
      | _ => cases e
    have h2 := leads_path (af := af) hk done (b :: r) (by simp) (fun i hi => hp i (by simp [List.mem_cons.mp hi]))
      (afterPart st) hst' (cur ++ [a]) (haf.sub (Nat.le_refl _) (by simp; omega))
    rw [At_colons] at h1
    have h3 := h1.trans h2
    have e2 : afterPart (afterPart st) = afterPart st := by cases st <;> rfl
    rw [e2] at h3
    simpa using h3

theorem plainly_of {c : Char} (h : c ∈ ['<', '>', '[', ']', '(', ')', ';', '&', '*', ',', ' ']) : Plainly c := by
  unfold Plainly
  simp only [List.mem_cons, List.not_mem_nil, or_false] at h
  rcases h with rfl | rfl | rfl | rfl | rfl | rfl | rfl | rfl | rfl | rfl | rfl <;> decide

theorem inactive_ok : ∀ d r, State.inactive ≠ .asSkip d r := by intro d r h; cases h
theorem outputting_ok : ∀ d r, State.outputting ≠ .asSkip d r := by intro d r h; cases h
theorem asPrefix_ok : ∀ d r, State.asPrefix ≠ .asSkip d r := by intro d r h; cases h

theorem skip_path {af : Option (Str × Nat)} {k : Str} (hk : Boundary k) (depth : Int) (ret : List Tok) (cur : List Str)
    (done : List (List Str)) : ∀ (p : List Str), p ≠ [] → (∀ i ∈ p, Segment i) →
      Leads (At (.asSkip depth ret) af (written p ++ k)) cur done (At (.asSkip depth ret) af k) cur done
  | [], h, _ => absurd rfl h
  | [a], _, hp => by
    have ha := (hp a (by simp)).isPart
    rw [written]
    exact leads_text_skip ha.ne ha.noSep ha.notAs hk depth ret af cur done
  | a :: b :: r, _, hp => by
    have ha := (hp a (by simp)).isPart
    have e : written (a :: b :: r) ++ k = a ++ (':' :: ':' :: (written (b :: r) ++ k)) := by
      rw [written]; simp
    rw [e]
    have h1 := leads_text_skip ha.ne ha.noSep ha.notAs (boundary_cons (c := ':') (by decide)
      (':' :: (written (b :: r) ++ k))) depth ret af cur done
    rw [At_colons] at h1
    exact h1.trans (skip_path hk depth ret cur done (b :: r) (by simp) (fun i hi => hp i (by simp [List.mem_cons.mp hi])))

theorem skip_char {c : Char} (hc : c ∈ ['[', ']', '(', ')', ';', '&', '*', ',', ' ']) (af : Option (Str × Nat)) (s : Str)
    (cur : List Str) (d : List (List Str)) {depth : Int} (hd : 0 < depth) (r : List Tok) :
    Leads (At (.asSkip depth r) af (c :: s)) cur d (At (.asSkip depth r) af s) cur d := by
  have hg : gtChange c = 0 := by
    simp only [List.mem_cons, List.not_mem_nil, or_false] at hc
    rcases hc with rfl | rfl | rfl | rfl | rfl | rfl | rfl | rfl | rfl <;> rfl
  have hp : Plainly c := plainly_of (by
    simp only [List.mem_cons, List.not_mem_nil, or_false] at hc ⊢
    rcases hc with h | h | h | h | h | h | h | h | h <;> simp [h])
  have := leads_char_skip hp af s cur d depth r (by rw [hg]; omega)
  rwa [hg, Int.add_zero] at this

theorem skip_open (af : Option (Str × Nat)) (s : Str) (cur : List Str) (d : List (List Str)) {depth : Int}
    (hd : 0 < depth) (r : List Tok) :
    Leads (At (.asSkip depth r) af ('<' :: s)) cur d (At (.asSkip (depth + 1) r) af s) cur d :=
  leads_char_skip (plainly_of (by simp)) af s cur d depth r (by rw [show gtChange '<' = 1 by rfl]; omega)

theorem skip_close (af : Option (Str × Nat)) (s : Str) (cur : List Str) (d : List (List Str)) {depth : Int}
    (hd : 0 < depth) (r : List Tok) :
    Leads (At (.asSkip (depth + 1) r) af ('>' :: s)) cur d (At (.asSkip depth r) af s) cur d := by
  have := leads_char_skip (c := '>') (plainly_of (by simp)) af s cur d (depth + 1) r
    (by rw [show gtChange '>' = -1 by rfl]; omega)
  rwa [show gtChange '>' = -1 by rfl, show depth + 1 + -1 = depth by omega] at this

theorem mut_noSep : ∀ c ∈ str! "mut", isSeparator c = false := by decide

/-- Something without `as` is skipped in the arguments of a trait. -/
theorem skip_expr {strict : Prop} {b : Bool} {a : Str} {ms : List (List Str)} (h : Expr strict b a ms) (hb : b = false)
    (ret : List Tok) (af : Option (Str × Nat)) (cur : List Str) (done : List (List Str)) :
    ∀ (k : Str), Boundary k → ∀ (depth : Int), 0 < depth →
      Leads (At (.asSkip depth ret) af (a ++ k)) cur done (At (.asSkip depth ret) af k) cur done := by
  induction h with
  | path hp => intro k hk depth _; exact skip_path hk _ _ _ _ _ hp.1 hp.2
  | @generic b p a ns hp _ ih =>
    intro k hk depth hd
    have e : written p ++ ('<' :: (a ++ str! ">")) ++ k = written p ++ ('<' :: (a ++ ('>' :: k))) := by simp
    rw [e]
    exact (skip_path (boundary_cons (by decide) _) _ _ _ _ _ hp.1 hp.2).trans ((skip_open _ _ _ _ hd _).trans
      ((ih hb _ (boundary_cons (by decide) _) _ (by omega)).trans (skip_close _ _ _ _ hd _)))
  | @assoc b p q a ns hp hq _ ih =>
    intro k hk depth hd
    have e : written p ++ ('<' :: (a ++ (str! ">::" ++ written q))) ++ k =
        written p ++ ('<' :: (a ++ ('>' :: ':' :: ':' :: (written q ++ k)))) := by simp
    rw [e]
    have h1 := skip_close af (':' :: ':' :: (written q ++ k)) cur done hd ret
    rw [At_colons] at h1
    exact (skip_path (boundary_cons (by decide) _) _ _ _ _ _ hp.1 hp.2).trans ((skip_open _ _ _ _ hd _).trans
      ((ih hb _ (boundary_cons (by decide) _) _ (by omega)).trans (h1.trans (skip_path hk _ _ _ _ _ hq.1 hq.2))))
  | @braces b p w hp hw =>
    intro k hk depth hd
    have e : written p ++ (str! "::{" ++ (w ++ str! "}")) ++ k = written p ++ (':' :: ':' :: '{' :: (w ++ ('}' :: k))) := by
      simp
    rw [e]
    have h1 := skip_path (af := af) (boundary_cons (c := ':') (by decide) (':' :: '{' :: (w ++ ('}' :: k)))) depth ret cur
      done _ hp.1 hp.2
    rw [At_colons] at h1
    exact h1.trans (leads_braces_skip hw.1 (fun c hc => word_noSep (hw.2 c hc)) _ _ (by omega) _ _ _)
  | ref _ ih =>
    intro k hk depth hd
    exact (skip_char (by simp) _ _ _ _ hd _).trans (ih hb _ hk _ hd)
  | @refMut b t ns _ ih =>
    intro k hk depth hd
    have e : str! "&mut " ++ t ++ k = '&' :: (str! "mut" ++ (' ' :: (t ++ k))) := by simp
    rw [e]
    exact (skip_char (by simp) _ _ _ _ hd _).trans ((leads_ignored (by simp) mut_noSep (Or.inl rfl)
      (boundary_cons (by decide) _) _ _ _ _).trans ((skip_char (by simp) _ _ _ _ hd _).trans (ih hb _ hk _ hd)))
  | unit =>
    intro k hk depth hd
    exact (skip_char (by simp) _ _ _ _ hd _).trans (skip_char (by simp) _ _ _ _ hd _)
  | @tuple b t ns _ ih =>
    intro k hk depth hd
    have e : '(' :: (t ++ str! ")") ++ k = '(' :: (t ++ (')' :: k)) := by simp
    rw [e]
    exact (skip_char (by simp) _ _ _ _ hd _).trans ((ih hb _ (boundary_cons (by decide) _) _ hd).trans
      (skip_char (by simp) _ _ _ _ hd _))
  | @slice b t ns _ ih =>
    intro k hk depth hd
    have e : '[' :: (t ++ str! "]") ++ k = '[' :: (t ++ (']' :: k)) := by simp
    rw [e]
    exact (skip_char (by simp) _ _ _ _ hd _).trans ((ih hb _ (boundary_cons (by decide) _) _ hd).trans
      (skip_char (by simp) _ _ _ _ hd _))
  | @array b t ds n ns _ hn hlt ih =>
    intro k hk depth hd
    obtain ⟨n1, n2, n3, n4⟩ := numeral_isI64 hn hlt
    have e : '[' :: (t ++ (str! "; " ++ (ds ++ str! "]"))) ++ k = '[' :: (t ++ (';' :: ' ' :: (ds ++ (']' :: k)))) := by
      simp
    rw [e]
    exact (skip_char (by simp) _ _ _ _ hd _).trans ((ih hb _ (boundary_cons (by decide) _) _ hd).trans
      ((skip_char (by simp) _ _ _ _ hd _).trans ((skip_char (by simp) _ _ _ _ hd _).trans
      ((leads_text_skip n1 n2 n4 (boundary_cons (by decide) _) _ _ _ _ _).trans (skip_char (by simp) _ _ _ _ hd _)))))
  | @list b t u ns ms _ _ ih1 ih2 =>
    intro k hk depth hd
    have e : t ++ (str! ", " ++ u) ++ k = t ++ (',' :: ' ' :: (u ++ k)) := by simp
    rw [e]
    exact (ih1 hb _ (boundary_cons (by decide) _) _ hd).trans ((skip_char (by simp) _ _ _ _ hd _).trans
      ((skip_char (by simp) _ _ _ _ hd _).trans (ih2 hb _ hk _ hd)))
  | method => cases hb
  | methodArgs => cases hb

theorem Later.up {b : Bool} {af af' : Option (Str × Nat)} {n : Nat} (h : Later b af af' n) : Later true af af' n := by
  rcases h with h | ⟨_, h⟩
  · exact Or.inl h
  · exact Or.inr ⟨rfl, h⟩

theorem iterate_char_inactive {c : Char} (hc : Plainly c) (af : Option (Str × Nat)) (s : Str) :
    iterate .fin (At .inactive af (c :: s)) = .cont (At .inactive af s) := by
  unfold At iterate
  simp only [dk_char hc.1 hc.2.1]
  unfold onChar
  simp [charState, braceChange_plainly hc]

/-- `<T as Trait` up to the end of the path of the trait. -/
theorem read_trait {b : Bool} {t : Str} {ns : List (List Str)}
    (ih : ∀ (k : Str) (af : Option (Str × Nat)) (done : List (List Str)), Boundary k →
      Away af k.length (t ++ k).length → Ends b af (At .inactive af (t ++ k)) done ns k)
    {q : List Str} (hq : PathOf q) {k : Str} (hk : Boundary k) {af : Option (Str × Nat)} {lo : Nat}
    (done : List (List Str)) (hlo : lo ≤ k.length)
    (haf : Away af lo ('<' :: (t ++ (str! " as " ++ (written q ++ k)))).length) :
    ∃ af', Leads (At .inactive af ('<' :: (t ++ (str! " as " ++ (written q ++ k))))) [] done
      (At .asPrefix af' k) q (done ++ ns) := by
  have h0 := leads_char_inactive (c := '<') (plainly_of (by simp)) af (t ++ (str! " as " ++ (written q ++ k))) [] done
  have h1 := ih (' ' :: (str! "as " ++ (written q ++ k))) af done (boundary_cons (by decide) _)
    (haf.sub (by simp; omega) (by simp))
  obtain ⟨af1, hl, h2⟩ := h1.flush (plainly_of (by simp))
  have haf1 : Away af1 lo ((str! "as " ++ (written q ++ k)).length + 1) := hl.away haf (by simp; omega)
  have h3 := leads_as (written q ++ k) af1 [] (done ++ ns)
  have h4 := leads_path (af := af1) hk (done ++ ns) q hq.1 hq.2 .asPrefix asPrefix_ok []
    (haf1.sub hlo (by simp; omega))
  exact ⟨af1, h0.trans (h2.trans (h3.trans h4))⟩

/-- Reading an expression gives its names. -/
theorem read_expr {b : Bool} {t : Str} {ns : List (List Str)} (h : Expr True b t ns) :
    ∀ (k : Str) (af : Option (Str × Nat)) (done : List (List Str)), Boundary k → Away af k.length (t ++ k).length →
      Ends b af (At .inactive af (t ++ k)) done ns k := by
  induction h with
  | @path b p hp =>
    intro k af done hk haf
    have := leads_path hk done p hp.1 hp.2 .inactive inactive_ok [] haf
    exact ⟨af, .refl _ _ _, Or.inr ⟨[], p, rfl, by simpa [afterPart] using this⟩⟩
  | @generic b p a ns hp _ ih =>
    intro k af done hk haf
    have e : written p ++ ('<' :: (a ++ str! ">")) ++ k = written p ++ ('<' :: (a ++ ('>' :: k))) := by simp
    rw [e] at haf ⊢
    have h1 := leads_path (af := af) (boundary_cons (c := '<') (by decide) (a ++ ('>' :: k))) done p hp.1 hp.2 .inactive
      inactive_ok [] (haf.sub (by simp; omega) (Nat.le_refl _))
    have h2 := leads_char_outputting (c := '<') (plainly_of (by simp)) af (a ++ ('>' :: k)) ([] ++ p) done
    obtain ⟨af', hl, h3⟩ := (ih ('>' :: k) af (done ++ [p]) (boundary_cons (by decide) _)
      (haf.sub (by simp) (by simp; omega))).flush (plainly_of (by simp))
    refine ⟨af', hl.mono (by omega), Or.inl ?_⟩
    have := h1.trans (h2.trans h3)
    simpa using this
  | @assoc b p q a ns hp hq _ ih =>
    intro k af done hk haf
    have e : written p ++ ('<' :: (a ++ (str! ">::" ++ written q))) ++ k =
        written p ++ ('<' :: (a ++ ('>' :: ':' :: ':' :: (written q ++ k)))) := by simp
    rw [e] at haf ⊢
    have h1 := leads_path (af := af) (boundary_cons (c := '<') (by decide) (a ++ ('>' :: ':' :: ':' :: (written q ++ k))))
      done p hp.1 hp.2 .inactive inactive_ok [] (haf.sub (by simp; omega) (Nat.le_refl _))
    have h2 := leads_char_outputting (c := '<') (plainly_of (by simp)) af (a ++ ('>' :: ':' :: ':' :: (written q ++ k)))
      ([] ++ p) done
    obtain ⟨af', hl, h3⟩ := (ih ('>' :: ':' :: ':' :: (written q ++ k)) af (done ++ [p]) (boundary_cons (by decide) _)
      (haf.sub (by simp; omega) (by simp; omega))).flush (plainly_of (by simp))
    rw [At_colons] at h3
    have haf' : Away af' k.length ((written q ++ k).length + 3) := by
      have := hl.away haf (by simp; omega)
      exact this.sub (Nat.le_refl _) (by simp)
    have h4 := leads_path (af := af') hk (done ++ [p] ++ ns) q hq.1 hq.2 .inactive inactive_ok []
      (haf'.sub (Nat.le_refl _) (by omega))
    refine ⟨af', hl.mono (by simp; omega), Or.inr ⟨p :: ns, q, rfl, ?_⟩⟩
    have := h1.trans (h2.trans (h3.trans h4))
    simpa [afterPart] using this
  | @braces b p w hp hw =>
    intro k af done hk haf
    have e : written p ++ (str! "::{" ++ (w ++ str! "}")) ++ k = written p ++ (':' :: ':' :: '{' :: (w ++ ('}' :: k))) := by
      simp
    rw [e] at haf ⊢
    have h1 := leads_path (af := af) (boundary_cons (c := ':') (by decide) (':' :: '{' :: (w ++ ('}' :: k)))) done p hp.1
      hp.2 .inactive inactive_ok [] (haf.sub (by simp; omega) (Nat.le_refl _))
    rw [At_colons] at h1
    have h2 := leads_braces (k := k) hw.1 (fun c hc => word_noSep (hw.2 c hc)) af ([] ++ p) done
    exact ⟨af, .refl _ _ _, Or.inl (by simpa using h1.trans h2)⟩
  | @ref b t ns _ ih =>
    intro k af done hk haf
    exact (ih k af done hk (haf.sub (Nat.le_refl _) (by simp))).before
      (leads_char_inactive (plainly_of (by simp)) _ _ _ _)
  | @refMut b t ns _ ih =>
    intro k af done hk haf
    have e : str! "&mut " ++ t ++ k = '&' :: (str! "mut" ++ (' ' :: (t ++ k))) := by simp
    rw [e] at haf ⊢
    refine (ih k af done hk (haf.sub (Nat.le_refl _) (by simp; omega))).before ?_
    exact (leads_char_inactive (plainly_of (by simp)) _ _ _ _).trans ((leads_ignored (by simp) mut_noSep (Or.inl rfl)
      (boundary_cons (by decide) _) _ _ _ _).trans (leads_char_inactive (plainly_of (by simp)) _ _ _ _))
  | unit =>
    intro k af done hk haf
    refine ⟨af, .refl _ _ _, Or.inl ?_⟩
    rw [List.append_nil]
    exact (leads_char_inactive (plainly_of (by simp)) _ _ _ _).trans (leads_char_inactive (plainly_of (by simp)) _ _ _ _)
  | @tuple b t ns _ ih =>
    intro k af done hk haf
    have e : '(' :: (t ++ str! ")") ++ k = '(' :: (t ++ (')' :: k)) := by simp
    rw [e] at haf ⊢
    obtain ⟨af', hl, h3⟩ := (ih (')' :: k) af done (boundary_cons (by decide) _)
      (haf.sub (by simp) (by simp))).flush (plainly_of (by simp))
    exact ⟨af', hl.mono (by omega), Or.inl ((leads_char_inactive (plainly_of (by simp)) _ _ _ _).trans h3)⟩
  | @slice b t ns _ ih =>
    intro k af done hk haf
    have e : '[' :: (t ++ str! "]") ++ k = '[' :: (t ++ (']' :: k)) := by simp
    rw [e] at haf ⊢
    obtain ⟨af', hl, h3⟩ := (ih (']' :: k) af done (boundary_cons (by decide) _)
      (haf.sub (by simp) (by simp))).flush (plainly_of (by simp))
    exact ⟨af', hl.mono (by omega), Or.inl ((leads_char_inactive (plainly_of (by simp)) _ _ _ _).trans h3)⟩
  | @array b t ds n ns _ hn hlt ih =>
    intro k af done hk haf
    obtain ⟨n1, n2, n3, n4⟩ := numeral_isI64 hn hlt
    have e : '[' :: (t ++ (str! "; " ++ (ds ++ str! "]"))) ++ k = '[' :: (t ++ (';' :: ' ' :: (ds ++ (']' :: k)))) := by
      simp
    rw [e] at haf ⊢
    obtain ⟨af', hl, h3⟩ := (ih (';' :: ' ' :: (ds ++ (']' :: k))) af done (boundary_cons (by decide) _)
      (haf.sub (by simp; omega) (by simp))).flush (plainly_of (by simp))
    refine ⟨af', hl.mono (by simp; omega), Or.inl ((leads_char_inactive (plainly_of (by simp)) _ _ _ _).trans (h3.trans ?_))⟩
    exact (leads_char_inactive (plainly_of (by simp)) _ _ _ _).trans ((leads_ignored n1 n2 (Or.inr n3)
      (boundary_cons (by decide) _) _ _ _ _).trans (leads_char_inactive (plainly_of (by simp)) _ _ _ _))
  | @list b t u ns ms _ _ ih1 ih2 =>
    intro k af done hk haf
    have e : t ++ (str! ", " ++ u) ++ k = t ++ (',' :: ' ' :: (u ++ k)) := by simp
    rw [e] at haf ⊢
    obtain ⟨af', hl, h3⟩ := (ih1 (',' :: ' ' :: (u ++ k)) af done (boundary_cons (by decide) _)
      (haf.sub (by simp; omega) (Nat.le_refl _))).flush (plainly_of (by simp))
    have haf' : Away af' k.length (u ++ k).length :=
      (hl.away haf (by simp)).sub (Nat.le_refl _) (by simp; omega)
    obtain ⟨af'', hl', h4⟩ := ih2 k af' (done ++ ns) hk haf'
    have h5 := h3.trans (leads_char_inactive (c := ' ') (plainly_of (by simp)) _ _ _ _)
    refine ⟨af'', hl.trans hl' (by simp; omega), ?_⟩
    rcases h4 with h4 | ⟨init, last, rfl, h4⟩
    · exact Or.inl (by simpa using h5.trans h4)
    · exact Or.inr ⟨ns ++ init, last, by simp, by simpa using h5.trans h4⟩
  | @method b t f q ns _ hq hf ih =>
    intro k af done hk haf
    have e : '<' :: (t ++ (str! " as " ++ (written q ++ (str! ">::" ++ f)))) ++ k =
        '<' :: (t ++ (str! " as " ++ (written q ++ ('>' :: ':' :: ':' :: (f ++ k))))) := by simp
    rw [e] at haf ⊢
    obtain ⟨af', h1⟩ := read_trait ih hq (boundary_cons (c := '>') (by decide) (':' :: ':' :: (f ++ k))) (lo := k.length) done
      (by simp; omega) haf
    have h2 := leads_trait_end hf.isPart hk af' q (done ++ ns)
    refine ⟨_, Or.inr ⟨rfl, f, f.length + k.length, rfl, ?_⟩, Or.inr ⟨ns, q ++ [f], rfl, h1.trans h2⟩⟩
    have := List.length_pos_iff.mpr hf.isPart.ne
    omega
  | @methodArgs b b' t f a q ns ms _ hq hf ha hstrict ih iha =>
    intro k af done hk haf
    obtain ⟨rfl, c, r, hcr, hc⟩ := hstrict trivial
    have e : '<' :: (t ++ (str! " as " ++ (written q ++ ('<' :: (a ++ (str! ">>::" ++ f)))))) ++ k =
        '<' :: (t ++ (str! " as " ++ (written q ++ ('<' :: (a ++ ('>' :: '>' :: ':' :: ':' :: (f ++ k))))))) := by simp
    rw [e] at haf ⊢
    have hcp : Plainly c := plainly_of (by rcases hc with rfl | rfl | rfl <;> simp)
    obtain ⟨af', h1⟩ := read_trait ih hq (boundary_cons (c := '<') (by decide)
      (a ++ ('>' :: '>' :: ':' :: ':' :: (f ++ k)))) (lo := k.length) done (by simp; omega) haf
    have h2 := leads_trait_args (a ++ ('>' :: '>' :: ':' :: ':' :: (f ++ k))) af' q (done ++ ns)
    have h3 := skip_expr ha rfl (dk (a ++ ('>' :: '>' :: ':' :: ':' :: (f ++ k)))) af' q (done ++ ns)
      ('>' :: '>' :: ':' :: ':' :: (f ++ k)) (boundary_cons (by decide) _) 2 (by decide)
    have h4 := leads_trait_args_end hf.isPart hk af' q (done ++ ns) (a ++ ('>' :: '>' :: ':' :: ':' :: (f ++ k)))
    have hlen := List.length_pos_iff.mpr hf.isPart.ne
    obtain ⟨af2, hl, h5⟩ := (iha ('>' :: '>' :: ':' :: ':' :: (f ++ k)) (some (f, f.length + k.length))
      (done ++ ns ++ [q ++ [f]]) (boundary_cons (by decide) _) (by
        intro s n e
        cases e
        exact Or.inl (by simp; omega))).flush (plainly_of (by simp))
    obtain rfl : af2 = some (f, f.length + k.length) := by
      rcases hl with h | ⟨h, _⟩
      · exact h
      · cases h
    have h6 : Leads (At .outputting (some (f, f.length + k.length)) (a ++ ('>' :: '>' :: ':' :: ':' :: (f ++ k))))
        (q ++ [f]) (done ++ ns) (At .inactive (some (f, f.length + k.length)) (f ++ k)) []
        (done ++ ns ++ [q ++ [f]] ++ ms) := by
      rw [hcr, List.cons_append] at h5 ⊢
      refine leads_split hcp ?_
      obtain ⟨m, hm⟩ := h5
      refine ⟨m, fun n => ?_⟩
      rw [show n + (m + 1) = (n + 1) + m by omega, hm, collect, iterate_char_inactive (plainly_of (by simp)), At_colons]
    have h7 := leads_final hf.isPart hk .inactive [] (done ++ ns ++ [q ++ [f]] ++ ms)
    refine ⟨_, Or.inr ⟨rfl, f, f.length + k.length, rfl, by omega⟩, Or.inl ?_⟩
    have := h1.trans (h2.trans (h3.trans (h4.trans (h6.trans h7))))
    simpa using this

/-! ## C76 -/

theorem DebugGives.of_leads {ns : List Str} {t : Str} {p : Pos} {cur : List Str} {done : List (List Str)} {r : Result}
    (hns : toks Plain.next (t.length + 1 + ns.length) { namespace_ := ns, data := t } = (p.it, .fin))
    (hp : p.state = .inactive ∧ p.braceDepth = 0 ∧ p.asFinal = none)
    {p' : Pos} (h : Leads p [] [] p' cur done) (hr : ∃ m, collect .fin m p' cur done = some r) :
    DebugGives ns t r := by
  obtain ⟨m, hm⟩ := hr
  obtain ⟨m', hm'⟩ := h
  refine namesOf_of Plain.next _ _ _ (m + m') _ hns ?_
  obtain ⟨h1, h2, h3⟩ := hp
  have : p = { it := p.it } := by
    cases p; simp only [Pos.mk.injEq]; exact ⟨trivial, h1, h2, h3⟩
  rw [← this, hm', hm]

/-- Exactly the paths of a name are read from it, each as a name of its own.

What is missing: generic arguments of the trait in `<… as …>` that begin with a path or contain something of that form
themselves, see `C76_trait_args` and `C76_nested`. -/
theorem C76_names_partial (b : Bool) (t : Str) (ns : List (List Str)) (h : Expr True b t ns) :
    DebugGives [] t (.names (ns ++ [[]])) := by
  obtain ⟨af, _, h'⟩ := read_expr h [] none [] (by intro c hc; cases hc) (by intro s q e; cases e)
  rw [List.append_nil] at h'
  have hns : toks Plain.next (t.length + 1 + ([] : List Str).length) { namespace_ := [], data := t } = ((At .inactive none t).it, .fin) :=
    toks_plain t _ (by simp)
  rcases h' with h' | ⟨init, last, rfl, h'⟩
  · exact DebugGives.of_leads hns ⟨rfl, rfl, rfl⟩ h' ⟨1, rfl⟩
  · exact DebugGives.of_leads hns ⟨rfl, rfl, rfl⟩ h' ⟨2, rfl⟩

/-- A part of a namespace: an identifier as in paths, or something in braces such as `{impl#3}`. -/
def SpacePart (i : Str) : Prop := Segment i ∨ ∃ w, BraceWord w ∧ i = '{' :: (w ++ str! "}")

theorem SpacePart.facts {i : Str} (h : SpacePart i) :
    i ≠ str! "mut" ∧ i ≠ str! "as" ∧ isI64 i = false ∧ isHash i = false := by
  rcases h with h | ⟨w, _, rfl⟩
  · exact ⟨h.notMut, h.notAs, h.isPart.notNumber, h.isPart.notHash⟩
  · refine ⟨by simp, by simp, ?_, ?_⟩
    · unfold isI64
      simp [show isDigit '{' = false by decide]
    · unfold isHash
      simp

/-- The namespace is read as the beginning of the first name. -/
theorem leads_space (t : Str) (done : List (List Str)) : ∀ (space : List Str), (∀ i ∈ space, SpacePart i) →
    ∃ l, toks Plain.next (t.length + 1 + space.length) { namespace_ := space, data := t } = (l, .fin) ∧
      ∀ (st : State), (∀ d r, st ≠ .asSkip d r) → ∀ cur,
        Leads { it := l, state := st } cur done (At (if space = [] then st else afterPart st) none t) (cur ++ space) done
  | [], _ => ⟨dk t, toks_plain t _ (by simp), fun st _ cur => by
    rw [if_pos rfl, List.append_nil]
    exact Leads.refl (At st none t) cur done⟩
  | a :: r, h => by
    obtain ⟨l, hl, ih⟩ := leads_space t done r (fun i hi => h i (by simp [hi]))
    refine ⟨.text a (t.length + r.length + 1) :: l, ?_, fun st hst cur => ?_⟩
    · rw [List.length_cons, ← Nat.add_assoc, toks, Plain.next]
      simp only [hl]
    · obtain ⟨h1, h2, h3, h4⟩ := (h a (by simp)).facts
      have hst' : ∀ d r, afterPart st ≠ .asSkip d r := by
        intro d r e
        cases st with
        | asSkip d' r' => exact hst d' r' rfl
        | _ => cases e
      have e2 : afterPart (afterPart st) = afterPart st := by cases st <;> rfl
      have step : Leads { it := .text a (t.length + r.length + 1) :: l, state := st } cur done
          { it := l, state := afterPart st } (cur ++ [a]) done := by
        refine .part ?_
        unfold iterate
        simp only []
        unfold onText
        simp only []
        rw [if_neg h1, if_neg (by simp), if_neg (by simp [h3]), if_neg (fun h => h2 h.1), if_neg (by simp),
          if_neg (by simp [h4])]
        cases st with
        | asSkip d r => exact absurd rfl (hst d r)
        | _ => rfl
      have := step.trans (ih (afterPart st) hst' (cur ++ [a]))
      rw [e2] at this
      simpa using this

/-- In a namespace, the first path of a name is read relative to the namespace; the paths in generic arguments stand
for themselves. -/
theorem C76_namespace_partial (b : Bool) (space p : List Str) (a : Str) (ns : List (List Str))
    (hs : ∀ i ∈ space, SpacePart i) (hp : PathOf p) (h : Expr True b a ns) :
    DebugGives space (written p) (.names [space ++ p, []]) ∧
      DebugGives space (written p ++ ('<' :: (a ++ str! ">"))) (.names ((space ++ p) :: ns ++ [[]])) := by
  have key : ∀ k, Boundary k → ∃ l,
      toks Plain.next ((written p ++ k).length + 1 + space.length) { namespace_ := space, data := written p ++ k } =
        (l, .fin) ∧ Leads { it := l } [] [] (At .outputting none k) (space ++ p) [] := by
    intro k hk
    obtain ⟨l, hl, hlead⟩ := leads_space (written p ++ k) [] space hs
    refine ⟨l, hl, ?_⟩
    have h1 := hlead .inactive inactive_ok []
    have hst : ∀ d r, (if space = [] then State.inactive else afterPart .inactive) ≠ .asSkip d r := by
      intro d r
      split
      · exact inactive_ok d r
      · exact outputting_ok d r
    have h2 := leads_path (af := none) hk [] p hp.1 hp.2 _ hst ([] ++ space) (by intro s q e; cases e)
    have e : afterPart (if space = [] then State.inactive else afterPart .inactive) = .outputting := by
      split <;> rfl
    rw [e] at h2
    simpa using h1.trans h2
  constructor
  · obtain ⟨l, hl, h1⟩ := key [] (by intro c hc; cases hc)
    rw [List.append_nil] at hl
    exact DebugGives.of_leads (p := { it := l }) hl ⟨rfl, rfl, rfl⟩ h1 ⟨2, rfl⟩
  · obtain ⟨l, hl, h1⟩ := key ('<' :: (a ++ str! ">")) (boundary_cons (by decide) _)
    have h2 := h1.trans (leads_char_outputting (c := '<') (plainly_of (by simp)) none (a ++ str! ">") (space ++ p) [])
    obtain ⟨af', _, h3⟩ := (read_expr h ['>'] none [space ++ p] (boundary_cons (by decide) _)
      (by intro s q e; cases e)).flush (plainly_of (by simp))
    exact DebugGives.of_leads (p := { it := l }) hl ⟨rfl, rfl, rfl⟩ (h2.trans h3) ⟨1, by simp [collect, iterate, At, dk_nil]⟩

/-! ## Examples -/

theorem segment_lower {i : Str} (hne : i ≠ []) (h : ∀ c ∈ i, ('a'.val ≤ c.val ∧ c.val ≤ 'z'.val) ∨ c = '_')
    (h1 : i ≠ str! "mut") (h2 : i ≠ str! "as") (h3 : i.length ≠ 17) : Segment i :=
  ⟨ident_lower hne h, h1, h2, not_hashLike h3⟩

/-- `std::fs` -/
theorem std_fs : PathOf [str! "std", str! "fs"] := by
  refine ⟨by simp, ?_⟩
  intro i hi
  simp only [List.mem_cons, List.not_mem_nil, or_false] at hi
  rcases hi with rfl | rfl <;> exact segment_lower (by simp) (by decide) (by decide) (by decide) (by decide)

/-- `a::b` -/
theorem a_b : PathOf [str! "a", str! "b"] := by
  refine ⟨by simp, ?_⟩
  intro i hi
  simp only [List.mem_cons, List.not_mem_nil, or_false] at hi
  rcases hi with rfl | rfl <;> exact segment_lower (by simp) (by decide) (by decide) (by decide) (by decide)

theorem seg_f : Segment (str! "f") := segment_lower (by simp) (by decide) (by decide) (by decide) (by decide)

/-- `(std::fs<[a::b; 7]>, <&mut std::fs as a::b<&std::fs>>::f)` -/
example : DebugGives [] (str! "(std::fs<[a::b; 7]>, <&mut std::fs as a::b<&std::fs>>::f)")
    (.names [[str! "std", str! "fs"], [str! "a", str! "b"], [str! "std", str! "fs"],
      [str! "a", str! "b", str! "f"], [str! "std", str! "fs"], []]) := by
  have seven : Numeral (str! "7") 7 := .one (c := '7') (digit_of rfl)
  have h : Expr True true ('(' :: ((written [str! "std", str! "fs"] ++ ('<' :: (('[' :: (written [str! "a", str! "b"] ++
      (str! "; " ++ (str! "7" ++ str! "]")))) ++ str! ">")) ++ (str! ", " ++
      ('<' :: ((str! "&mut " ++ written [str! "std", str! "fs"]) ++ (str! " as " ++ (written [str! "a", str! "b"] ++
        ('<' :: (('&' :: written [str! "std", str! "fs"]) ++ (str! ">>::" ++ str! "f"))))))))) ++ str! ")"))
      (([str! "std", str! "fs"] :: [[str! "a", str! "b"]]) ++
        ([[str! "std", str! "fs"]] ++ [[str! "a", str! "b"] ++ [str! "f"]] ++ [[str! "std", str! "fs"]])) :=
    .tuple (.list (.generic std_fs (.array (.path a_b) seven (by decide)))
      (.methodArgs (b := false) (b' := false) (.refMut (.path std_fs)) a_b seg_f (.ref (.path std_fs))
        (fun _ => ⟨rfl, '&', _, rfl, Or.inl rfl⟩)))
  exact C76_names_partial _ _ _ h

/-- `f<std::fs>` in `a::{impl#0}` -/
example : DebugGives [str! "a", str! "{impl#0}"] (str! "f<std::fs>")
    (.names [[str! "a", str! "{impl#0}", str! "f"], [str! "std", str! "fs"], []]) := by
  refine (C76_namespace_partial false [str! "a", str! "{impl#0}"] [str! "f"] _ _ ?_ ⟨by simp, ?_⟩ (.path std_fs)).2
  · intro i hi
    simp only [List.mem_cons, List.not_mem_nil, or_false] at hi
    rcases hi with rfl | rfl
    · exact Or.inl (a_b.2 _ (by simp))
    · refine Or.inr ⟨str! "impl#0", ⟨by simp, ?_⟩, rfl⟩
      intro c hc
      unfold Letter Digit
      simp only [Char.le_def]
      revert c
      decide
  · intro i hi
    simp only [List.mem_cons, List.not_mem_nil, or_false] at hi
    exact hi ▸ seg_f

/-! ## Refutation -/

theorem DebugGives.unique {space : List Str} {s : Str} {r r' : Result} (h : DebugGives space s r)
    (h' : DebugGives space s r') : r = r' := by
  obtain ⟨n, hn⟩ := h
  obtain ⟨n', hn'⟩ := h'
  have h1 := hn (n + n') (by omega)
  rw [hn' (n + n') (by omega)] at h1
  exact (Option.some.inj h1).symm

/-- The generic arguments of a trait are glued to the name before them: `<a::b as a::b<std::fs>>::f` is read as `a::b`
and `a::b::f::std::fs`, so the use of `std::fs` is not seen. -/
theorem C76_trait_args : ¬ C76_Claim := by
  intro h
  have h1 : Expr False true (str! "<a::b as a::b<std::fs>>::f")
      ([[str! "a", str! "b"]] ++ [[str! "a", str! "b"] ++ [str! "f"]] ++ [[str! "std", str! "fs"]]) :=
    .methodArgs (b := false) (b' := false) (.path a_b) a_b seg_f (.path std_fs) False.elim
  have h2 : DebugGives [] (str! "<a::b as a::b<std::fs>>::f")
      (.names [[str! "a", str! "b"], [str! "a", str! "b", str! "f", str! "std", str! "fs"], []]) :=
    namesOf_of Plain.next _ _ _ 40 _ (show toks Plain.next 40 _ = (dk (str! "<a::b as a::b<std::fs>>::f"), .fin) from
      toks_plain _ _ (by decide)) (by decide +kernel)
  have := h _ _ _ _ h1 h2 [str! "std", str! "fs"] (by simp)
  revert this
  decide

/-- A trait argument that itself contains `as` makes the names before it fall apart: from
`<a::b as a::b<&<std::fs as a::b>::f>>::f`, neither the path `std::fs` nor the name `a::b::f` is read, although the
argument does not begin with a path. -/
theorem C76_nested : DebugGives [] (str! "<a::b as a::b<&<std::fs as a::b>::f>>::f")
      (.names [[str! "a", str! "b"], [str! "a", str! "b", str! "a", str! "b", str! "f"], [str! "f"], []]) :=
    namesOf_of Plain.next _ _ _ 60 _ (show toks Plain.next 60 _ =
      (dk (str! "<a::b as a::b<&<std::fs as a::b>::f>>::f"), .fin) from toks_plain _ _ (by decide)) (by decide +kernel)

/-- The words in `*const` and `dyn` are read as names. -/
theorem C76_keywords : DebugGives [] (str! "*const dyn a::b")
      (.names [[str! "const"], [str! "dyn"], [str! "a", str! "b"], []]) :=
    namesOf_of Plain.next _ _ _ 60 _ (show toks Plain.next 60 _ = (dk (str! "*const dyn a::b"), .fin) from
      toks_plain _ _ (by decide)) (by decide +kernel)

/-- A function that is called like the hash of a legacy symbol is left out: `krate::h0123456789abcdef` has the name
`krate`. -/
theorem C76_hash : DebugGives [str! "krate"] (str! "h0123456789abcdef") (.names [[str! "krate"], []]) :=
  namesOf_of Plain.next _ [.text (str! "krate") 18, .text (str! "h0123456789abcdef") 17] 5 9 _ (by decide) (by decide)

end Cackle.Names
