import Verif.Model.Scan
import Verif.Props.BuildScript

/-!
# C21, C22: the source scanners for `unsafe` and `extern`
-/

namespace Cackle.Scan
open Cackle BuildScript

/-! ## Specification -/

/-- The tokens that matter, each with the source text before it. -/
def significant : Str → List Tok → List (Str × Str)
  | _, [] => []
  | pre, t :: rest =>
    if t.skip then significant (pre ++ t.text) rest
    else (pre, t.text) :: significant (pre ++ t.text) rest

/-- The text of the source file. -/
def sourceOf (toks : List Tok) : Str := toks.flatMap Tok.text

/-- Line and column (in bytes, from 1) of the position after `pre`. -/
def lineCol (pre : Str) : Nat × Nat :=
  (1 + pre.count '\n', 1 + byteLen (pre.reverse.takeWhile (· ≠ '\n')).reverse)

/-- The positions that should be reported: those of the tokens `kw` for which `bad` holds of the next
token, if there is one. -/
def expected (kw : Str) (bad : Option Str → Bool) : List (Str × Str) → List (Nat × Nat)
  | [] => []
  | (pre, t) :: rest =>
    (if t = kw ∧ bad (rest.head?.map Prod.snd) = true then [lineCol pre] else []) ++ expected kw bad rest

/-- `unsafe` is to be reported unless `extern` follows. -/
def unsafeBad : Option Str → Bool
  | none => true
  | some next => decide (next ≠ str! "extern")

/-- `extern` is to be reported unless `crate`, `]` or `)` follows. -/
def externBad : Option Str → Bool
  | none => true
  | some next => decide (next ≠ str! "crate" ∧ next ≠ str! "]" ∧ next ≠ str! ")")

/-- The English claim C21. -/
def C21_Claim : Prop :=
  ∀ toks : List Tok, scanUnsafe (sourceOf toks) toks =
    some (expected (str! "unsafe") unsafeBad (significant [] toks))

/-- The English claim C22, first part. -/
def C22_Claim : Prop :=
  ∀ toks : List Tok, scanExtern (sourceOf toks) toks =
    some (expected (str! "extern") externBad (significant [] toks))

/-! ## Byte offsets -/

theorem byteLen_append (a b : Str) : byteLen (a ++ b) = byteLen a + byteLen b := by
  simp [byteLen, List.sum_append]

theorem byteLen_cons (c : Char) (s : Str) : byteLen (c :: s) = c.utf8Size + byteLen s := by
  simp [byteLen]

theorem takeBytes_append (a b : Str) : takeBytes (byteLen a) (a ++ b) = some a := by
  induction a with
  | nil => simp [byteLen, takeBytes]
  | cons c a ih =>
    have hc := Char.utf8Size_pos c
    rw [byteLen_cons]
    obtain ⟨n, hn⟩ : ∃ n, c.utf8Size + byteLen a = n + 1 := ⟨c.utf8Size + byteLen a - 1, by omega⟩
    rw [hn]
    simp only [List.cons_append, takeBytes]
    rw [if_pos (by omega)]
    have : n + 1 - c.utf8Size = byteLen a := by omega
    rw [this, ih]
    rfl

theorem dropBytes_append (a b : Str) : dropBytes (byteLen a) (a ++ b) = some b := by
  induction a with
  | nil => simp [byteLen, dropBytes]
  | cons c a ih =>
    have hc := Char.utf8Size_pos c
    rw [byteLen_cons]
    obtain ⟨n, hn⟩ : ∃ n, c.utf8Size + byteLen a = n + 1 := ⟨c.utf8Size + byteLen a - 1, by omega⟩
    rw [hn]
    simp only [List.cons_append, dropBytes]
    rw [if_pos (by omega)]
    have : n + 1 - c.utf8Size = byteLen a := by omega
    rw [this, ih]

theorem slice_mid (a b c : Str) {m n : Nat} (hm : m = byteLen a) (hn : n = byteLen a + byteLen b) :
    slice (a ++ (b ++ c)) m n = some b := by
  subst hm hn
  unfold slice
  rw [dropBytes_append]
  simp only [Option.bind_some]
  rw [Nat.add_sub_cancel_left, takeBytes_append]

/-! ## Lines -/

theorem takeWhile_self_iff {α : Type} {p : α → Bool} {l : List α} :
    l.takeWhile p = l ↔ ∀ x ∈ l, p x = true := by
  induction l with
  | nil => simp
  | cons a l ih =>
    rw [List.takeWhile_cons]
    split
    · rename_i h
      simp [ih, h]
    · rename_i h
      simp [h]

theorem splitChar_append_last {kw : Str} (hk : '\n' ∉ kw) (pre : Str) :
    ∃ init, splitChar '\n' (pre ++ kw) =
      init ++ [(pre.reverse.takeWhile (· ≠ '\n')).reverse ++ kw] ∧ init.length = pre.count '\n' := by
  induction pre with
  | nil => exact ⟨[], by simp [splitChar_last hk], rfl⟩
  | cons c pre ih =>
    obtain ⟨init, h1, h2⟩ := ih
    by_cases hc : c = '\n'
    · subst hc
      refine ⟨[] :: init, ?_, by simp [h2]⟩
      simp only [List.cons_append, splitChar, if_true, h1, List.reverse_cons]
      congr 3
      rw [List.takeWhile_append]
      split
      · rename_i h
        have hall : pre.reverse.takeWhile (fun x => decide (x ≠ '\n')) = pre.reverse :=
          (List.takeWhile_sublist _).eq_of_length h
        rw [hall]
        simp
      · rfl
    · have hcount : (c :: pre).count '\n' = pre.count '\n' := by
        rw [List.count_cons]; simp [hc]
      simp only [List.cons_append, splitChar, hc, if_false, h1]
      cases init with
      | nil =>
        refine ⟨[], ?_, by rw [hcount]; exact h2⟩
        simp only [List.nil_append, List.reverse_cons]
        have hno : ∀ x ∈ pre.reverse, decide (x ≠ '\n') = true := by
          intro x hx
          simp only [List.length_nil] at h2
          have := List.count_eq_zero.mp h2.symm
          simp only [List.mem_reverse] at hx
          simp only [decide_eq_true_eq]
          rintro rfl
          exact this hx
        rw [List.takeWhile_append_of_pos hno, List.takeWhile_cons]
        have e : pre.reverse.takeWhile (fun x => decide (x ≠ '\n')) = pre.reverse := by
          rw [takeWhile_self_iff]
          exact hno
        rw [e]
        simp [hc]
      | cons x init =>
        refine ⟨(c :: x) :: init, ?_, by rw [hcount]; simpa using h2⟩
        simp only [List.cons_append, List.reverse_cons]
        congr 3
        rw [List.takeWhile_append]
        split
        · rename_i h
          exfalso
          have hall : pre.reverse.takeWhile (fun x => decide (x ≠ '\n')) = pre.reverse :=
            (List.takeWhile_sublist _).eq_of_length h
          rw [takeWhile_self_iff] at hall
          have : '\n' ∈ pre := by
            apply List.count_pos_iff.mp
            rw [← h2]
            simp
          have := hall '\n' (by simpa using this)
          simp at this
        · rfl

theorem linesOf_concat {last : Str} (h : last ≠ []) : ∀ init : List Str,
    linesOf (init ++ [last]) = init.map stripCr ++ [last]
  | [] => by simp [linesOf, h]
  | [a] => by simp [linesOf, h]
  | a :: b :: init => by
    have ih := linesOf_concat h (b :: init)
    simp only [List.cons_append] at ih ⊢
    simp only [linesOf, ih, List.map_cons, List.cons_append]

theorem location_spec {kw : Str} (h0 : kw ≠ []) (hk : '\n' ∉ kw) (pre post : Str) {e l : Nat}
    (he : e = byteLen pre + byteLen kw) (hl : l = byteLen kw) :
    location (pre ++ (kw ++ post)) e l = some (lineCol pre) := by
  unfold location
  have hs : slice (pre ++ (kw ++ post)) 0 e = some (pre ++ kw) := by
    have := slice_mid [] (pre ++ kw) post (m := 0) (n := e) (by simp [byteLen])
      (by rw [he, byteLen_append]; simp [byteLen])
    simpa using this
  obtain ⟨init, h1, h2⟩ := splitChar_append_last hk pre
  have h3 : lines (pre ++ kw) =
      init.map stripCr ++ [(pre.reverse.takeWhile (· ≠ '\n')).reverse ++ kw] := by
    unfold lines
    rw [h1, linesOf_concat]
    simp [h0]
  rw [hs]
  simp only [Option.map_some, h3, List.length_append, List.length_map, List.length_singleton, h2,
    List.getLast?_append, List.getLast?_singleton, Option.some_or, Option.some.injEq]
  unfold lineCol
  rw [byteLen_append, hl]
  simp only [Prod.mk.injEq]
  constructor
  · omega
  · omega

/-! ## The loop -/

/-- The positions the loop reports; `last` is whether the last token is looked at on its own. -/
def flags (kw : Str) (check : Str → Str → Bool) (last : Bool) : List (Str × Str) → List (Nat × Nat)
  | [] => []
  | [(pre, t)] => if last && t == kw then [lineCol pre] else []
  | (pre, t) :: (q, u) :: rest =>
    (if check t u then [lineCol pre] else []) ++ flags kw check last ((q, u) :: rest)

theorem nextToken_none {toks : List Tok} {n : Nat} (h : nextToken toks n = none) (pre : Str) :
    significant pre toks = [] := by
  induction toks generalizing n pre with
  | nil => rfl
  | cons t rest ih =>
    simp only [nextToken] at h
    split at h
    · rename_i hs
      simp only [significant, hs, if_true]
      exact ih h _
    · cases h

theorem nextToken_some {toks : List Tok} {n m : Nat} {t : Tok} {rest : List Tok}
    (h : nextToken toks n = some (t, m, rest)) (pre : Str) :
    ∃ sk, m = n + byteLen sk ∧ sourceOf toks = sk ++ (t.text ++ sourceOf rest) ∧
      significant pre toks = (pre ++ sk, t.text) :: significant (pre ++ sk ++ t.text) rest ∧
      rest.length < toks.length := by
  induction toks generalizing n pre with
  | nil => cases h
  | cons x xs ih =>
    simp only [nextToken] at h
    split at h
    · rename_i hs
      obtain ⟨sk, h1, h2, h3, h4⟩ := ih h (pre ++ x.text)
      refine ⟨x.text ++ sk, ?_, ?_, ?_, ?_⟩
      · rw [byteLen_append]; omega
      · simp only [sourceOf, List.flatMap_cons] at h2 ⊢
        rw [h2]
        simp
      · simp only [significant, hs, if_true]
        rw [h3]
        simp
      · simp; omega
    · rename_i hs
      simp only [Option.some.injEq, Prod.mk.injEq] at h
      obtain ⟨rfl, rfl, rfl⟩ := h
      refine ⟨[], by simp [byteLen], by simp [sourceOf], ?_, by simp⟩
      simp [significant, hs]

/-- `prev` describes the last significant token, which ends where `done` ends; nothing was remembered
before the first one. -/
def PrevOk (prev : Prev) (done : Str) : Option (Str × Str) → Prop
  | none => prev.text = []
  | some (q, u) => prev.text = u ∧ done = q ++ u ∧ prev.endOff = byteLen done ∧ prev.len = byteLen u

theorem addIf_spec {cond : Bool} {kw : Str} (h0 : kw ≠ []) (hk : '\n' ∉ kw) {pre t post : Str}
    (hc : cond = true → t = kw) {e l : Nat} (he : e = byteLen pre + byteLen t) (hl : l = byteLen t)
    (locs : List (Nat × Nat)) :
    addIf cond (pre ++ (t ++ post)) e l locs = some (locs ++ (if cond then [lineCol pre] else [])) := by
  cases cond with
  | false => simp [addIf]
  | true =>
    have := hc rfl
    subst this
    simp [addIf, location_spec h0 hk pre post he hl]

/-- What is reported for the remembered token when the next one is `t`. -/
def pendFlag (check : Str → Str → Bool) (t : Str) : Option (Str × Str) → List (Nat × Nat)
  | some (q, u) => if check u t then [lineCol q] else []
  | none => []

theorem scanLoop_spec {kw : Str} {check : Str → Str → Bool} (h0 : kw ≠ []) (hk : '\n' ∉ kw)
    (hck : ∀ a b, check a b = true → a = kw) :
    ∀ (n : Nat) (toks : List Tok) (done : Str) (prev : Prev) (pend : Option (Str × Str))
      (locs : List (Nat × Nat)), toks.length < n → PrevOk prev done pend →
      scanLoop kw check (done ++ sourceOf toks) n toks (byteLen done) prev locs =
        some (locs ++ flags kw check (decide ((significant done toks).length % 2 = 1))
          (pend.toList ++ significant done toks))
  | 0, _, _, _, _, _, h, _ => by omega
  | n + 1, toks, done, prev, pend, locs, hn, hp => by
    unfold scanLoop
    cases h1 : nextToken toks 0 with
    | none =>
      simp only [nextToken_none h1 done, List.length_nil, List.append_nil]
      cases pend <;> simp [flags, pendFlag]
    | some r =>
      obtain ⟨tok, m, rest⟩ := r
      obtain ⟨sk, e1, e2, e3, e4⟩ := nextToken_some h1 done
      simp only [Nat.zero_add] at e1
      subst e1
      have hsrc : done ++ sourceOf toks = (done ++ sk) ++ (tok.text ++ sourceOf rest) := by
        rw [e2]; simp
      have hsl : slice (done ++ sourceOf toks) (byteLen done + byteLen sk)
          (byteLen done + byteLen sk + byteLen tok.text) = some tok.text := by
        rw [hsrc]
        exact slice_mid _ _ _ (by rw [byteLen_append]) (by rw [byteLen_append])
      simp only [hsl]
      -- the check of the previous token
      have hprev : addIf (prev.text != [] && check prev.text tok.text) (done ++ sourceOf toks) prev.endOff
          prev.len locs = some (locs ++ pendFlag check tok.text pend) := by
        cases pend with
        | none =>
          simp only [PrevOk] at hp
          simp [hp, addIf, pendFlag]
        | some qu =>
          obtain ⟨q, u⟩ := qu
          obtain ⟨p1, p2, p3, p4⟩ := hp
          subst p1
          have hcond : (prev.text != [] && check prev.text tok.text) = check prev.text tok.text := by
            cases hc : check prev.text tok.text with
            | false => simp
            | true => simp [hck _ _ hc, h0]
          rw [hcond]
          have : done ++ sourceOf toks = q ++ (prev.text ++ sourceOf toks) := by
            rw [p2]; simp
          rw [this, addIf_spec h0 hk (fun h => hck _ _ h) (by rw [p3, p2, byteLen_append]) p4]
          rfl
      simp only [hprev]
      cases h2 : nextToken rest 0 with
      | none =>
        have hs0 := nextToken_none h2 (done ++ sk ++ tok.text)
        simp only
        have hlast : addIf (tok.text == kw) (done ++ sourceOf toks)
            (byteLen done + byteLen sk + byteLen tok.text) (byteLen tok.text)
            (locs ++ pendFlag check tok.text pend) = some ((locs ++ pendFlag check tok.text pend) ++ (if tok.text == kw then [lineCol (done ++ sk)] else [])) := by
          rw [hsrc, addIf_spec h0 hk (by simp) (by rw [byteLen_append]) rfl]
        simp only [hlast]
        cases n with
        | zero => simp at hn; subst hn; simp at e4
        | succ n =>
          simp only [scanLoop, nextToken, e3, hs0]
          cases pend with
          | none => simp [flags, pendFlag]
          | some qu =>
            obtain ⟨q, u⟩ := qu
            simp [flags, pendFlag]
      | some r2 =>
        obtain ⟨nt, m2, rest2⟩ := r2
        obtain ⟨sk2, f1, f2, f3, f4⟩ := nextToken_some h2 (done ++ sk ++ tok.text)
        simp only [Nat.zero_add] at f1
        subst f1
        simp only
        have hsrc2 : done ++ sourceOf toks =
            (done ++ sk ++ tok.text ++ sk2) ++ (nt.text ++ sourceOf rest2) := by
          rw [hsrc, f2]; simp
        have hb : byteLen done + byteLen sk + byteLen tok.text + byteLen sk2 =
            byteLen (done ++ sk ++ tok.text ++ sk2) := by
          simp only [byteLen_append]
        have hsl2 : slice (done ++ sourceOf toks)
            (byteLen done + byteLen sk + byteLen tok.text + byteLen sk2)
            (byteLen done + byteLen sk + byteLen tok.text + byteLen sk2 + byteLen nt.text) =
            some nt.text := by
          rw [hsrc2]
          exact slice_mid _ _ _ hb (by rw [hb])
        simp only [hsl2]
        have hadd := fun l => addIf_spec (cond := check tok.text nt.text) h0 hk (pre := done ++ sk)
          (t := tok.text) (post := sourceOf rest) (fun h => hck _ _ h)
          (e := byteLen done + byteLen sk + byteLen tok.text) (l := byteLen tok.text)
          (by rw [byteLen_append]) rfl l
        rw [← hsrc] at hadd
        simp only [hadd]
        have ih := scanLoop_spec h0 hk hck n rest2 (done ++ sk ++ tok.text ++ sk2 ++ nt.text)
          ⟨nt.text, byteLen done + byteLen sk + byteLen tok.text + byteLen sk2 + byteLen nt.text,
            byteLen nt.text⟩ (some (done ++ sk ++ tok.text ++ sk2, nt.text))
        have hb2 : byteLen (done ++ sk ++ tok.text ++ sk2 ++ nt.text) =
            byteLen done + byteLen sk + byteLen tok.text + byteLen sk2 + byteLen nt.text := by
          simp only [byteLen_append]
        have hsrc3 : done ++ sourceOf toks =
            (done ++ sk ++ tok.text ++ sk2 ++ nt.text) ++ sourceOf rest2 := by
          rw [hsrc2]; simp
        rw [hb2, ← hsrc3] at ih
        rw [ih _ (by omega) ⟨rfl, rfl, hb2.symm, rfl⟩, e3, f3]
        have hodd : ∀ k : Nat, decide ((k + 1 + 1) % 2 = 1) = decide (k % 2 = 1) := by
          intro k
          simp only [Nat.add_assoc, Nat.add_mod_right]
        simp only [List.length_cons, hodd]
        cases pend with
        | none => simp [flags, pendFlag]
        | some qu =>
          obtain ⟨q, u⟩ := qu
          simp [flags, pendFlag]

/-- The exact result of a scan, for all token lists. -/
theorem scanString_spec {kw : Str} {check : Str → Str → Bool} (h0 : kw ≠ []) (hk : '\n' ∉ kw)
    (hck : ∀ a b, check a b = true → a = kw) (toks : List Tok) :
    scanString kw check (sourceOf toks) toks =
      some (flags kw check (decide ((significant [] toks).length % 2 = 1)) (significant [] toks)) := by
  have := scanLoop_spec h0 hk hck (toks.length + 1) toks [] {} none [] (by omega) rfl
  simpa [scanString, byteLen] using this

/-- What the loop reports is what is expected, apart from the last token. -/
theorem flags_expected {kw : Str} {check : Str → Str → Bool} {bad : Option Str → Bool}
    (hb : bad none = true) (hc : ∀ t u, check t u = true ↔ t = kw ∧ bad (some u) = true) (last : Bool) :
    ∀ l : List (Str × Str), (last = true ∨ l.getLast?.map Prod.snd ≠ some kw) →
      flags kw check last l = expected kw bad l
  | [], _ => rfl
  | [(pre, t)], h => by
    by_cases ht : t = kw
    · rcases h with h | h
      · simp [flags, expected, h, ht, hb]
      · simp [ht] at h
    · simp [flags, expected, ht]
  | (pre, t) :: (q, u) :: rest, h => by
    have ih := flags_expected hb hc last ((q, u) :: rest) (by simpa using h)
    rw [flags, ih]
    conv => rhs; rw [expected]
    by_cases hx : t = kw ∧ bad (some u) = true
    · rw [if_pos ((hc t u).mpr hx), if_pos (by simpa using hx)]
    · rw [if_neg (fun h => hx ((hc t u).mp h)), if_neg (by simpa using hx)]

theorem checkUnsafe_iff (t u : Str) :
    checkUnsafe t u = true ↔ t = str! "unsafe" ∧ unsafeBad (some u) = true := by
  simp [checkUnsafe, unsafeBad]

theorem checkExtern_iff (t u : Str) :
    checkExtern t u = true ↔ t = str! "extern" ∧ externBad (some u) = true := by
  simp [checkExtern, externBad, and_assoc]

/-- **C21, disagreement.** If the last token of the file is `unsafe` and the number of tokens is even, it
is not reported. -/
theorem C21_last_token_missed : ¬ C21_Claim := by
  intro h
  have := h [⟨false, str! "x"⟩, ⟨true, str! " "⟩, ⟨false, str! "unsafe"⟩]
  revert this
  decide +kernel

/-- **C21 (partial).** The scan for `unsafe` never panics; it reports, in order and with the right
positions, exactly the `unsafe` tokens not followed by `extern`, for every file whose last token is not
`unsafe` (a file ending in `unsafe` is not valid Rust) or that has an odd number of tokens. Missing: files
with an even number of tokens ending in `unsafe`, see `C21_last_token_missed`. -/
theorem C21_unsafe_partial (toks : List Tok)
    (h : ((significant [] toks).length % 2 = 1) ∨
      (significant [] toks).getLast?.map Prod.snd ≠ some (str! "unsafe")) :
    scanUnsafe (sourceOf toks) toks =
      some (expected (str! "unsafe") unsafeBad (significant [] toks)) := by
  unfold scanUnsafe
  rw [scanString_spec (by decide) (by decide) (fun a b h => ((checkUnsafe_iff a b).mp h).1),
    flags_expected (bad := unsafeBad) rfl checkUnsafe_iff]
  simpa using h

/-- **C22, disagreement.** The same for `extern`. -/
theorem C22_last_token_missed : ¬ C22_Claim := by
  intro h
  have := h [⟨false, str! "x"⟩, ⟨true, str! " "⟩, ⟨false, str! "extern"⟩]
  revert this
  decide +kernel

/-- **C22 (partial).** The scan for `extern` never panics and reports exactly the `extern` tokens not
followed by `crate`, `]` or `)`, with the same exception as in C21. -/
theorem C22_extern_partial (toks : List Tok)
    (h : ((significant [] toks).length % 2 = 1) ∨
      (significant [] toks).getLast?.map Prod.snd ≠ some (str! "extern")) :
    scanExtern (sourceOf toks) toks =
      some (expected (str! "extern") externBad (significant [] toks)) := by
  unfold scanExtern
  rw [scanString_spec (by decide) (by decide) (fun a b h => ((checkExtern_iff a b).mp h).1),
    flags_expected (bad := externBad) rfl checkExtern_iff]
  simpa using h

/-! ## Together -/

/-- A token `unsafe` occurs at a place from which code follows: `a` is the next token, `b` the one after
it. -/
def UnsafeFollowedBy (sig : List (Str × Str)) (a b : Str) : Prop :=
  ∃ before pre q r after, sig = before ++ (pre, str! "unsafe") :: (q, a) :: (r, b) :: after

/-- The English claim C22, second part: for every `unsafe` token that code follows, one of the scans
reports something. -/
def C22_Together : Prop :=
  ∀ (toks : List Tok) (a b : Str), UnsafeFollowedBy (significant [] toks) a b →
    scanUnsafe (sourceOf toks) toks ≠ some [] ∨ scanExtern (sourceOf toks) toks ≠ some []

/-- **C22, disagreement.** `unsafe extern crate` is reported by neither scan. (It is not valid Rust, but a
macro may consume it.) -/
theorem C22_unsafe_extern_crate_missed : ¬ C22_Together := by
  intro h
  have := h [⟨false, str! "unsafe"⟩, ⟨true, str! " "⟩, ⟨false, str! "extern"⟩, ⟨true, str! " "⟩,
    ⟨false, str! "crate"⟩] (str! "extern") (str! "crate")
    ⟨[], [], str! "unsafe ", str! "unsafe extern ", [], by decide⟩
  revert this
  decide +kernel

theorem flags_mem {kw : Str} {check : Str → Str → Bool} {last : Bool} {pre t q u : Str} :
    ∀ (before after : List (Str × Str)), check t u = true →
      lineCol pre ∈ flags kw check last (before ++ (pre, t) :: (q, u) :: after)
  | [], after, h => by simp [flags, h]
  | [x], after, h => by
    obtain ⟨x1, x2⟩ := x
    simp only [List.cons_append, List.nil_append, flags, h, if_true]
    simp
  | x :: y :: before, after, h => by
    obtain ⟨x1, x2⟩ := x
    obtain ⟨y1, y2⟩ := y
    have := flags_mem (kw := kw) (last := last) (pre := pre) (q := q) ((y1, y2) :: before) after h
    simp only [List.cons_append, flags] at this ⊢
    exact List.mem_append_right _ this

/-- **C22 (partial), together.** Every `unsafe` token that is followed by at least two more tokens is
covered: unless the next two are `extern` and one of `crate`, `]`, `)`, the position of the `unsafe` or
that of the `extern` following it is reported. -/
theorem C22_together_partial (toks : List Tok) (before after : List (Str × Str)) (pre q r a b : Str)
    (hs : significant [] toks = before ++ (pre, str! "unsafe") :: (q, a) :: (r, b) :: after)
    (hx : ¬ (a = str! "extern" ∧ (b = str! "crate" ∨ b = str! "]" ∨ b = str! ")"))) :
    (∃ l, scanUnsafe (sourceOf toks) toks = some l ∧ lineCol pre ∈ l) ∨
    (a = str! "extern" ∧ ∃ l, scanExtern (sourceOf toks) toks = some l ∧ lineCol q ∈ l) := by
  by_cases ha : a = str! "extern"
  · right
    refine ⟨ha, _, scanString_spec (by decide) (by decide)
      (fun a b h => ((checkExtern_iff a b).mp h).1) toks, ?_⟩
    rw [hs]
    have := flags_mem (kw := str! "extern") (check := checkExtern)
      (last := decide ((significant [] toks).length % 2 = 1)) (pre := q) (t := a) (q := r) (u := b)
      (before ++ [(pre, str! "unsafe")]) after (by
        rw [checkExtern_iff]
        refine ⟨ha, ?_⟩
        simp only [externBad, decide_eq_true_eq]
        refine ⟨fun h => hx ⟨ha, .inl h⟩, fun h => hx ⟨ha, .inr (.inl h)⟩,
          fun h => hx ⟨ha, .inr (.inr h)⟩⟩)
    rw [hs] at this
    simpa using this
  · left
    refine ⟨_, scanString_spec (by decide) (by decide)
      (fun a b h => ((checkUnsafe_iff a b).mp h).1) toks, ?_⟩
    have := flags_mem (kw := str! "unsafe") (check := checkUnsafe)
      (last := decide ((significant [] toks).length % 2 = 1)) (pre := pre) (t := str! "unsafe") (q := q)
      (u := a) before ((r, b) :: after) (by
        rw [checkUnsafe_iff]
        exact ⟨rfl, by simpa [unsafeBad] using ha⟩)
    rw [hs] at this ⊢
    exact this

/-! Non-vacuity: a file with a comment between tokens and a multi-byte character before one. -/
private def exToks : List Tok :=
  [⟨false, str! "\"é\""⟩, ⟨true, str! "/*\n*/"⟩, ⟨false, str! "unsafe"⟩, ⟨true, str! " "⟩, ⟨false, str! "{"⟩,
   ⟨true, str! "\né "⟩, ⟨false, str! "unsafe"⟩, ⟨true, str! " "⟩, ⟨false, str! "extern"⟩,
   ⟨false, str! "{"⟩]
example : scanUnsafe (sourceOf exToks) exToks = some [(2, 3)] := by decide +kernel
example : scanExtern (sourceOf exToks) exToks = some [(3, 11)] := by decide +kernel

end Cackle.Scan
