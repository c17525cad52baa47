import Verif.Model.RustcErrors
import Verif.Lemmas.Json
import Verif.Lemmas.Messages
import Verif.Props.Rustc

/-!
# C138, C139: lint errors of rustc, and when the compilation goes on
-/

namespace Cackle.RustcErrors
open Cackle Json Messages BuildScript Rustc Perm Scan Deps

/-! ## Specification -/

/-- A diagnostic of rustc. Not all of them have a code. -/
structure Diagnostic where
  level : Str
  code : Option Str
  spans : List Span

/-- The field is there. -/
def Has (j : Json) (key : Str) (value : Json) : Prop :=
  ∃ l, j = .obj l ∧ (l.map (·.1)).Nodup ∧ (key, value) ∈ l

/-- The value describes the span; there may be further fields. -/
def SaysSpan (j : Json) (s : Span) : Prop :=
  Has j (str! "file_name") (.str s.fileName) ∧ Has j (str! "line_start") (.num s.line) ∧
  Has j (str! "column_start") (.num s.column) ∧ s.line < 2 ^ 32 ∧ s.column < 2 ^ 32

/-- The value describes the diagnostic; there may be further fields. -/
def Says (j : Json) (d : Diagnostic) : Prop :=
  (∃ m, Has j (str! "message") (.str m)) ∧ Has j (str! "level") (.str d.level) ∧
  (match d.code with
    | none => Has j (str! "code") .null
    | some c => ∃ jc, Has j (str! "code") jc ∧ Has jc (str! "code") (.str c)) ∧
  ∃ js, Has j (str! "spans") (.arr js) ∧ js.length = d.spans.length ∧ ∀ p ∈ js.zip d.spans, SaysSpan p.1 p.2

/-- A line that rustc writes to its standard error output: a diagnostic, or text that is not JSON. -/
inductive Line : Option Diagnostic → Str → Prop
  | diagnostic {j : Json} {d : Diagnostic} : Says j d → Ok j → depth j < 128 → Line (some d) (text j)
  | other {s : Str} : OneLine s → (∀ c, s.head? = some c → c ∉ [' ', '\t', '{', '[']) → Line none s

/-- The standard error output of rustc with these diagnostics. -/
def Stderr (ds : List (Option Diagnostic)) (output : Str) : Prop :=
  ∃ ls : List Str, ls.length = ds.length ∧ (∀ p ∈ ds.zip ls, Line p.1 p.2) ∧ output = ls.flatMap (· ++ str! "\n")

/-- The diagnostic is an error of this lint at this place: the place is the first span, with the canonical name of the
file if there is one. -/
def At (lint : Str) (canon : Str → Option Str) (d : Diagnostic) (loc : Rustc.Loc) : Prop :=
  d.level = str! "error" ∧ d.code = some lint ∧
  ∃ first rest, d.spans = first :: rest ∧ loc = ((canon first.fileName).getD first.fileName, first.line, first.column)

/-! ## Lines -/

theorem escChar_oneLine (c : Char) : OneLine (escChar c) := by
  by_cases h : c.toNat < 32
  · have hall : ∀ n : Fin 32, OneLine (escChar (Char.ofNat n)) := by decide +kernel
    have := hall ⟨c.toNat, h⟩
    simpa [Json.ofNat_toNat] using this
  · unfold escChar
    repeat' split
    all_goals (try (exact ⟨by decide, by decide⟩))
    rename_i h3 h4 _ _ _
    refine ⟨?_, ?_⟩
    · simpa using Ne.symm h3
    · simpa using Ne.symm h4

theorem flatMap_oneLine {f : Char → Str} (h : ∀ c, OneLine (f c)) : ∀ s : Str, OneLine (s.flatMap f)
  | [] => ⟨by simp, by simp⟩
  | c :: s => by
    rw [List.flatMap_cons]
    exact oneLine_append (h c) (flatMap_oneLine h s)

theorem oneLine_cons {c : Char} {s : Str} (hc : c ≠ '\n') (hc' : c ≠ '\r') (h : OneLine s) : OneLine (c :: s) :=
  oneLine_append (a := [c]) ⟨by simpa using hc.symm, by simpa using hc'.symm⟩ h

theorem showStr_oneLine (s : Str) : OneLine (showStr s) :=
  oneLine_cons (by decide) (by decide) (oneLine_append (flatMap_oneLine escChar_oneLine s) ⟨by decide, by decide⟩)

theorem digit_oneLine {s : Str} (h : ∀ c ∈ s, Json.isDigit c = true) : OneLine s := by
  constructor <;> intro hm <;> exact absurd (h _ hm) (by decide)

theorem showInt_oneLine (n : Int) : OneLine (showInt n) := by
  unfold showInt
  split
  · exact oneLine_cons (by decide) (by decide) (digit_oneLine (decimal_digits _))
  · exact digit_oneLine (decimal_digits _)

mutual
theorem text_oneLine : ∀ j : Json, OneLine (text j)
  | .null => ⟨by decide, by decide⟩
  | .bool true => ⟨by decide, by decide⟩
  | .bool false => ⟨by decide, by decide⟩
  | .num n => by rw [Json.text]; exact showInt_oneLine n
  | .str s => by rw [Json.text]; exact showStr_oneLine s
  | .arr l => by rw [Json.text]; exact oneLine_cons (by decide) (by decide) (elems_oneLine l)
  | .obj l => by rw [Json.text]; exact oneLine_cons (by decide) (by decide) (fields_oneLine l)
theorem elems_oneLine : ∀ l : List Json, OneLine (textElems l)
  | [] => ⟨by decide, by decide⟩
  | j :: l => by rw [textElems]; exact oneLine_append (text_oneLine j) (elemsMore_oneLine l)
theorem elemsMore_oneLine : ∀ l : List Json, OneLine (textElemsMore l)
  | [] => ⟨by decide, by decide⟩
  | j :: l => by
    rw [textElemsMore]
    exact oneLine_cons (by decide) (by decide) (oneLine_append (text_oneLine j) (elemsMore_oneLine l))
theorem fields_oneLine : ∀ l : List (Str × Json), OneLine (textFields l)
  | [] => ⟨by decide, by decide⟩
  | (k, j) :: l => by
    rw [textFields]
    exact oneLine_append (showStr_oneLine k)
      (oneLine_cons (by decide) (by decide) (oneLine_append (text_oneLine j) (fieldsMore_oneLine l)))
theorem fieldsMore_oneLine : ∀ l : List (Str × Json), OneLine (textFieldsMore l)
  | [] => ⟨by decide, by decide⟩
  | (k, j) :: l => by
    rw [textFieldsMore]
    exact oneLine_cons (by decide) (by decide) (oneLine_append (showStr_oneLine k)
      (oneLine_cons (by decide) (by decide) (oneLine_append (text_oneLine j) (fieldsMore_oneLine l))))
end

theorem line_oneLine {d : Option Diagnostic} {s : Str} (h : Line d s) : OneLine s := by
  cases h with
  | diagnostic => exact text_oneLine _
  | other h => exact h

/-! ## Reading a diagnostic -/

theorem get?_of_mem {l : AMap Str Json} {k : Str} {v : Json} (hn : (l.map (·.1)).Nodup) (hm : (k, v) ∈ l) :
    l.get? k = some v := by
  induction l with
  | nil => simp at hm
  | cons e l ih =>
    obtain ⟨k', v'⟩ := e
    simp only [List.map_cons, List.nodup_cons] at hn
    simp only [List.mem_cons, Prod.mk.injEq] at hm
    rcases hm with ⟨rfl, rfl⟩ | hm
    · simp [AMap.get?]
    · have : k' ≠ k := fun e => hn.1 (e ▸ List.mem_map_of_mem (f := (·.1)) hm)
      simp only [AMap.get?, if_neg this]
      exact ih hn.2 hm

theorem filter_le_one {l : List (Str × Json)} (hn : (l.map (·.1)).Nodup) (k : Str) :
    (l.filter (fun e => e.1 = k)).length ≤ 1 := by
  induction l with
  | nil => simp
  | cons e l ih =>
    simp only [List.map_cons, List.nodup_cons] at hn
    rw [List.filter_cons]
    split
    · rename_i he
      have : l.filter (fun e => e.1 = k) = [] := by
        rw [List.filter_eq_nil_iff]
        intro x hx hxk
        simp only [decide_eq_true_eq] at he hxk
        exact hn.1 (List.mem_map.mpr ⟨x, hx, by rw [hxk, he]⟩)
      simp [this]
    · exact ih hn.2

theorem structOf_obj {known : List Str} {l : List (Str × Json)} (hn : (l.map (·.1)).Nodup) :
    structOf known (.obj l) = some l := by
  unfold structOf fieldsOf
  simp only [Bool.not_false, Bool.true_or, Bool.and_true]
  rw [if_pos]
  rw [List.all_eq_true]
  intro k _
  simpa using filter_le_one hn k

theorem Has.req {l : List (Str × Json)} {k : Str} {v : Json} {A : Type} (dec : Json → Option A)
    (h : Has (.obj l) k v) : Messages.req l k dec = dec v := by
  obtain ⟨l', e, hn, hm⟩ := h
  cases e
  unfold Messages.req
  rw [get?_of_mem hn hm]
  rfl

theorem Has.obj {j : Json} {k : Str} {v : Json} (h : Has j k v) : ∃ l, j = .obj l ∧ (l.map (·.1)).Nodup := by
  obtain ⟨l, e, hn, _⟩ := h
  exact ⟨l, e, hn⟩

theorem decSpan_says {j : Json} {s : Span} (h : SaysSpan j s) : decSpan j = some s := by
  obtain ⟨h1, h2, h3, h4, h5⟩ := h
  obtain ⟨l, rfl, hn⟩ := h1.obj
  have e4 : decNat u32 (.num s.line) = some s.line := decNat_num h4
  have e5 : decNat u32 (.num s.column) = some s.column := decNat_num h5
  unfold decSpan
  rw [structOf_obj hn]
  generalize decNat u32 = dec at e4 e5 ⊢
  rw [Option.bind_some, h1.req decStr, decStr, Option.bind_some, h2.req dec, e4, Option.bind_some, h3.req dec, e5]
  rfl

theorem decSpans_says : ∀ {js : List Json} {ss : List Span}, js.length = ss.length →
    (∀ p ∈ js.zip ss, SaysSpan p.1 p.2) → js.mapM decSpan = some ss
  | [], [], _, _ => rfl
  | j :: js, s :: ss, hl, h => by
    simp only [List.length_cons, Nat.add_right_cancel_iff] at hl
    rw [List.mapM_cons, decSpan_says (h (j, s) (by simp)), decSpans_says hl (fun p hp => h p (by simp [hp]))]
    rfl

theorem decMessage_says {j : Json} {d : Diagnostic} (h : Says j d) :
    decMessage j = match d.code with
      | none => none
      | some c => some ⟨(((decMessage j).map (·.message)).getD []), c, d.level, d.spans⟩ := by
  obtain ⟨⟨m, h1⟩, h2, h3, js, h4, h5, h6⟩ := h
  obtain ⟨l, rfl, hn⟩ := h1.obj
  have e : decMessage (.obj l) = ((Messages.req l (str! "code") decCode).bind (fun code => some ⟨m, code, d.level, d.spans⟩)) := by
    unfold decMessage
    rw [structOf_obj hn]
    simp only [Option.bind_some, h1.req, h2.req, h4.req, decStr, decList, decSpans_says h5 h6]
  cases hc : d.code with
  | none =>
    rw [hc] at h3
    simp only at h3
    rw [e, h3.req]
    rfl
  | some c =>
    rw [hc] at h3
    obtain ⟨jc, h3, h7⟩ := h3
    obtain ⟨lc, rfl, hnc⟩ := h7.obj
    have ec : decCode (.obj lc) = some c := by
      unfold decCode
      rw [structOf_obj hnc]
      simp only [Option.bind_some, h7.req, decStr]
    rw [e, h3.req, ec]
    rfl

/-- Only what begins with a brace or bracket is read as an object or array. -/
theorem readValue_scalar {n : Nat} {s r : Str} {j : Json} (h : readValue n s = some (j, r))
    (hs : ∀ c, (skipWs s).head? = some c → c ≠ '{' ∧ c ≠ '[') : decMessage j = none := by
  cases n with
  | zero => simp [readValue] at h
  | succ n =>
    rw [readValue] at h
    split at h
    · cases h
    · rename_i c t hc
      rw [hc] at hs
      obtain ⟨h1, h2⟩ := hs c rfl
      unfold readWord at h
      repeat' (split at h)
      all_goals first
        | (cases h; done)
        | (cases h; rfl)
        | (exact absurd ‹_ = _› h1)
        | (exact absurd ‹_ = _› h2)
        | skip
      all_goals
        obtain ⟨x, _, hx⟩ := Option.map_eq_some_iff.mp h
        cases hx
        rfl

theorem placeOf_line {lint : Str} {canon : Str → Option Str} {d : Option Diagnostic} {s : Str} (h : Line d s)
    (loc : Rustc.Loc) : placeOf lint canon s = some loc ↔ ∃ x, d = some x ∧ At lint canon x loc := by
  cases h with
  | @diagnostic j d hs ho hd =>
    unfold placeOf
    rw [parse_text ho hd, Option.bind_some, decMessage_says hs]
    cases hc : d.code with
    | none =>
      simp only [reduceCtorEq, false_iff]
      rintro ⟨x, e, hx⟩
      cases e
      have := hx.2.1
      rw [hc] at this
      cases this
    | some c =>
      simp only
      constructor
      · intro h
        split at h
        · rename_i hl
          refine ⟨d, rfl, hl.1, by rw [hc, hl.2], ?_⟩
          cases hsp : d.spans with
          | nil => rw [hsp] at h; cases h
          | cons first rest =>
            rw [hsp] at h
            simp only [List.head?_cons, Option.map_some, Option.some.injEq] at h
            exact ⟨first, rest, rfl, h.symm⟩
        · cases h
      · rintro ⟨x, e, h1, h2, first, rest, h3, rfl⟩
        cases e
        rw [hc] at h2
        cases h2
        rw [if_pos ⟨h1, rfl⟩, h3]
        rfl
  | other ho hh =>
    have hnone : (parse s).bind decMessage = none := by
      unfold parse
      split
      · rfl
      · rename_i j r hr
        split
        · rw [Option.bind_some]
          refine readValue_scalar hr (fun c hc => ?_)
          cases s with
          | nil => simp [skipWs] at hc
          | cons a t =>
            have ha := hh a rfl
            have hw : isWs a = false := by
              have h1 := ho.1
              have h2 := ho.2
              simp only [List.mem_cons, not_or] at h1 h2
              simp only [List.mem_cons, List.not_mem_nil, or_false, not_or] at ha
              simp [isWs, ha.1, ha.2.1, Ne.symm h1.1, Ne.symm h2.1]
            rw [skipWs_of hw] at hc
            simp only [List.head?_cons, Option.some.injEq] at hc
            subst hc
            simp only [List.mem_cons, List.not_mem_nil, or_false, not_or] at ha
            exact ⟨ha.2.2.1, ha.2.2.2⟩
        · rfl
    unfold placeOf
    rw [hnone]
    simp

/-! ## C138 -/

/-- **C138 (places).** In the output of rustc exactly the errors of the lint are found, each at its place. -/
theorem C138_places (lint : Str) (canon : Str → Option Str) (ds : List (Option Diagnostic)) (output : Str)
    (h : Stderr ds output) (loc : Rustc.Loc) :
    loc ∈ places lint canon output ↔ ∃ d, some d ∈ ds ∧ At lint canon d loc := by
  obtain ⟨ls, hl, hls, rfl⟩ := h
  unfold places
  rw [lines_terminated ls (by
    intro l hm
    obtain ⟨i, hi, rfl⟩ := List.getElem_of_mem hm
    exact line_oneLine (hls (ds[i]'(by omega), ls[i]) (by
      rw [List.mem_iff_getElem]
      exact ⟨i, by simp; omega, by simp⟩)))]
  induction ls generalizing ds with
  | nil =>
    cases ds with
    | nil => simp
    | cons => simp at hl
  | cons s ls ih =>
    cases ds with
    | nil => simp at hl
    | cons d ds =>
      simp only [List.length_cons, Nat.add_right_cancel_iff] at hl
      have h1 := placeOf_line (lint := lint) (canon := canon) (hls (d, s) (by simp)) loc
      have h2 := ih ds hl (fun p hp => hls p (by simp [hp]))
      rw [List.filterMap_cons]
      constructor
      · intro hm
        cases hp : placeOf lint canon s with
        | none =>
          rw [hp] at hm
          obtain ⟨x, hx, ha⟩ := h2.mp hm
          exact ⟨x, by simp [hx], ha⟩
        | some l =>
          rw [hp] at hm
          simp only [List.mem_cons] at hm
          rcases hm with rfl | hm
          · obtain ⟨x, rfl, ha⟩ := h1.mp hp
            exact ⟨x, by simp, ha⟩
          · obtain ⟨x, hx, ha⟩ := h2.mp hm
            exact ⟨x, by simp [hx], ha⟩
      · rintro ⟨x, hx, ha⟩
        simp only [List.mem_cons] at hx
        rcases hx with rfl | hx
        · rw [h1.mpr ⟨x, rfl, ha⟩]
          simp
        · have := h2.mpr ⟨x, hx, ha⟩
          cases hp : placeOf lint canon s <;> simp [this]

theorem places_nil {lint : Str} {canon : Str → Option Str} {ds : List (Option Diagnostic)} {output : Str}
    (h : Stderr ds output) : places lint canon output = [] ↔ ¬ ∃ d loc, some d ∈ ds ∧ At lint canon d loc := by
  rw [List.eq_nil_iff_forall_not_mem]
  constructor
  · rintro hn ⟨d, loc, hd, ha⟩
    exact hn loc ((C138_places lint canon ds output h loc).mpr ⟨d, hd, ha⟩)
  · intro hn loc hm
    obtain ⟨d, hd, ha⟩ := (C138_places lint canon ds output h loc).mp hm
    exact hn ⟨d, loc, hd, ha⟩

/-- What the wrapper does next if the main process is asked. -/
def next : Option Rustc.Outcome → Status
  | none => .error
  | some .continue => .retry
  | some .giveUp => .giveUp

/-- A run of rustc that failed with these diagnostics, under this configuration. -/
structure Failed (a : Attempt) (perms : PermMap) (version : Int) (code : Option Int) (ds : List (Option Diagnostic)) : Prop where
  config : a.config = some (perms, version)
  fails : code ≠ some 0
  output : ∃ output, Stderr ds output ∧ a.output = some (outputOf a.canon code (toBytes output))

theorem run_failed {a : Attempt} {perms : PermMap} {version : Int} {code : Option Int} {output : Str}
    (lex : Str → List Tok) (crate : CrateSel) (args : List Str) (hc : a.config = some (perms, version))
    (hcode : code ≠ some 0) (ho : a.output = some (outputOf a.canon code (toBytes output))) :
    run lex crate args a = finish a (outputOf a.canon code (toBytes output)) (places unsafeLint a.canon output)
      (places externLint a.canon output) := by
  unfold run
  rw [hc]
  simp only [ho]
  rw [if_neg (by exact hcode)]
  simp only [outputOf, fromBytes_toBytes, Option.map_some]

/-- **C138 (unsafe).** If rustc rejects unsafe code, the main process is asked, and its answer decides: the crate is compiled
again or the wrapper gives up. -/
theorem C138_unsafe (lex : Str → List Tok) (crate : CrateSel) (args : List Str) (a : Attempt) (perms : PermMap) (version : Int)
    (code : Option Int) (ds : List (Option Diagnostic)) (h : Failed a perms version code ds)
    (hu : ∃ d loc, some d ∈ ds ∧ At (str! "unsafe_code") a.canon d loc) : run lex crate args a = next a.onUnsafe := by
  obtain ⟨output, hs, ho⟩ := h.output
  rw [run_failed lex crate args h.config h.fails ho, finish, if_pos (fun e => (places_nil (lint := unsafeLint) hs).mp e hu)]
  cases a.onUnsafe with
  | none => rfl
  | some x => cases x <;> rfl

/-- **C138 (extern).** The same for `extern` without `unsafe`. -/
theorem C138_extern (lex : Str → List Tok) (crate : CrateSel) (args : List Str) (a : Attempt) (perms : PermMap) (version : Int)
    (code : Option Int) (ds : List (Option Diagnostic)) (h : Failed a perms version code ds)
    (hu : ¬ ∃ d loc, some d ∈ ds ∧ At (str! "unsafe_code") a.canon d loc)
    (he : ∃ d loc, some d ∈ ds ∧ At (str! "missing_unsafe_on_extern") a.canon d loc) : run lex crate args a = next a.onExtern := by
  obtain ⟨output, hs, ho⟩ := h.output
  rw [run_failed lex crate args h.config h.fails ho, finish, if_neg (fun e => e ((places_nil (lint := unsafeLint) hs).mpr hu)),
    if_pos (fun e => (places_nil (lint := externLint) hs).mp e he)]
  cases a.onExtern with
  | none => rfl
  | some x => cases x <;> rfl

/-- **C138 (other failures).** If rustc fails for another reason, nobody is asked and the wrapper ends with rustc's status. -/
theorem C138_other (lex : Str → List Tok) (crate : CrateSel) (args : List Str) (a : Attempt) (rest : List Attempt)
    (perms : PermMap) (version : Int) (code : Int) (ds : List (Option Diagnostic)) (h : Failed a perms version (some code) ds)
    (hu : ¬ ∃ d loc, some d ∈ ds ∧ (At (str! "unsafe_code") a.canon d loc ∨ At (str! "missing_unsafe_on_extern") a.canon d loc)) :
    proxyRustc lex crate args (a :: rest) = .exit code := by
  obtain ⟨output, hs, ho⟩ := h.output
  rw [proxyRustc, run_failed lex crate args h.config h.fails ho, finish,
    if_neg (fun e => e ((places_nil hs).mpr (fun ⟨d, loc, h1, h2⟩ => hu ⟨d, loc, h1, .inl h2⟩))),
    if_neg (fun e => e ((places_nil hs).mpr (fun ⟨d, loc, h1, h2⟩ => hu ⟨d, loc, h1, .inr h2⟩)))]
  rfl

/-! ## C139 -/

/-- What users rely on: what is permitted is not asked about, that is, the result does not depend on the answer to such a
question. -/
def C139_Claim : Prop :=
  ∀ (lex : Str → List Tok) (crate : CrateSel) (args : List Str) (a : Attempt) (perms : PermMap) (version : Int)
    (code : Option Int) (stderr : List Wire.Byte),
    a.config = some (perms, version) → a.output = some (outputOf a.canon code stderr) →
    (unsafePermitted perms crate = true → ∀ x, run lex crate args { a with onUnsafe := x } = run lex crate args a) ∧
    (externPermitted perms crate version = true → ∀ x, run lex crate args { a with onExtern := x } = run lex crate args a)

theorem finish_unsafe {a : Attempt} {o : Output} {es : List Rustc.Loc} (x : Option Rustc.Outcome) :
    finish { a with onUnsafe := x } o [] es = finish a o [] es := by
  simp [finish]

theorem finish_extern {a : Attempt} {o : Output} {us : List Rustc.Loc} (x : Option Rustc.Outcome) :
    finish { a with onExtern := x } o us [] = finish a o us [] := by
  simp [finish]

/-- **C139 (partial).** What is permitted is not asked about if the compilation succeeds.

Missing: compilations that fail, see `C139_own_lint`. -/
theorem C139_not_asked_partial (lex : Str → List Tok) (crate : CrateSel) (args : List Str) (a : Attempt) (perms : PermMap)
    (version : Int) (o : Output) (hc : a.config = some (perms, version)) (ho : a.output = some o) (h0 : o.code = some 0) :
    (unsafePermitted perms crate = true → ∀ x, run lex crate args { a with onUnsafe := x } = run lex crate args a) ∧
    (externPermitted perms crate version = true →
      ∀ x, run lex crate args { a with onExtern := x } = run lex crate args a) := by
  constructor
  · intro hp x
    have e : ∀ y : Option Rustc.Outcome, ∀ paths, findInSources (scanPath lex scanExtern { a with onUnsafe := y }) paths =
      findInSources (scanPath lex scanExtern a) paths := fun _ _ => rfl
    generalize hb : ({ a with onUnsafe := x } : Attempt) = b
    have e1 : b.config = a.config := by subst hb; rfl
    have e2 : b.output = a.output := by subst hb; rfl
    have e3 : b.readDeps = a.readDeps := by subst hb; rfl
    have e4 : b.canon = a.canon := by subst hb; rfl
    have e5 : b.onComplete = a.onComplete := by subst hb; rfl
    have e6 : ∀ paths, findInSources (scanPath lex scanExtern b) paths = findInSources (scanPath lex scanExtern a) paths := by
      subst hb; exact e x
    have e7 : ∀ es, finish b o [] es = finish a o [] es := by subst hb; exact fun _ => finish_unsafe x
    simp only [run, e1, e2, e3, e4, e5, hc, ho, h0, if_true, hp, scanSources, e6, e7]
  · intro hp x
    have e : ∀ y : Option Rustc.Outcome, ∀ paths, findInSources (scanPath lex scanUnsafe { a with onExtern := y }) paths =
      findInSources (scanPath lex scanUnsafe a) paths := fun _ _ => rfl
    generalize hb : ({ a with onExtern := x } : Attempt) = b
    have e1 : b.config = a.config := by subst hb; rfl
    have e2 : b.output = a.output := by subst hb; rfl
    have e3 : b.readDeps = a.readDeps := by subst hb; rfl
    have e4 : b.canon = a.canon := by subst hb; rfl
    have e5 : b.onComplete = a.onComplete := by subst hb; rfl
    have e6 : ∀ paths, findInSources (scanPath lex scanUnsafe b) paths = findInSources (scanPath lex scanUnsafe a) paths := by
      subst hb; exact e x
    have e7 : ∀ us, finish b o us [] = finish a o us [] := by subst hb; exact fun _ => finish_extern x
    simp only [run, e1, e2, e3, e4, e5, hc, ho, h0, if_true, hp, scanSources, e6, e7]

/-! ### What is permitted or not used compiles -/

theorem flags_absent {kw : Str} {check : Str → Str → Bool} (hck : ∀ a b, check a b = true → a = kw) (last : Bool) :
    ∀ l : List (Str × Str), kw ∉ l.map (·.2) → flags kw check last l = []
  | [], _ => rfl
  | [(pre, t)], h => by
    simp only [List.map_cons, List.map_nil, List.mem_singleton] at h
    simp only [flags]
    rw [if_neg]
    simp [Ne.symm h]
  | (pre, t) :: (q, u) :: rest, h => by
    simp only [List.map_cons, List.mem_cons, not_or] at h
    simp only [flags]
    rw [if_neg (fun hc => h.1 (hck _ _ hc).symm), flags_absent hck last ((q, u) :: rest) (by simp [h.2])]
    rfl

/-- The word is none of the tokens of the text. -/
def Absent (lex : Str → List Tok) (kw text : Str) : Prop := kw ∉ (significant [] (lex text)).map (·.2)

theorem findInSources_absent {lex : Str → List Tok} {scan : Str → List Tok → Option (List (Nat × Nat))} {a : Attempt} {kw : Str}
    (hscan : ∀ text, Absent lex kw text → scan text (lex text) = some []) : ∀ paths : List Str,
    (∀ f ∈ paths, ∃ t, a.readSource f = some t ∧ ∀ text, t = some text → Absent lex kw text) →
    findInSources (scanPath lex scan a) paths = some []
  | [], _ => rfl
  | f :: paths, h => by
    obtain ⟨t, h1, h2⟩ := h f (by simp)
    have e : scanPath lex scan a f = some [] := by
      unfold scanPath
      rw [h1]
      cases t with
      | none => rfl
      | some text => simp [hscan text (h2 text rfl)]
    rw [findInSources, e]
    simp [findInSources_absent hscan paths (fun g hg => h g (by simp [hg]))]

/-- **C139 (compiles).** A crate that compiles and that is permitted whatever of `unsafe` and `extern` its sources contain
compiles under cackle, if the main process agrees with the result: nobody is asked and the wrapper ends with success. -/
theorem C139_compiles (lex : Str → List Tok) (crate : CrateSel) (args : List Str) (a : Attempt) (rest : List Attempt)
    (perms : PermMap) (version : Int) (o : Output) (paths : List Str) (hlex : ∀ s, sourceOf (lex s) = s)
    (hc : a.config = some (perms, version)) (ho : a.output = some o) (h0 : o.code = some 0)
    (hp : sourceFiles a.readDeps a.canon args = some paths) (hcomplete : a.onComplete = some .continue)
    (hu : unsafePermitted perms crate = true ∨
      ∀ f ∈ paths, ∃ t, a.readSource f = some t ∧ ∀ text, t = some text → Absent lex (str! "unsafe") text)
    (he : externPermitted perms crate version = true ∨
      ∀ f ∈ paths, ∃ t, a.readSource f = some t ∧ ∀ text, t = some text → Absent lex (str! "extern") text) :
    proxyRustc lex crate args (a :: rest) = .exit 0 := by
  have e1 : (if unsafePermitted perms crate = true then some [] else findInSources (scanPath lex scanUnsafe a) paths) = some [] := by
    rcases hu with h | h
    · rw [if_pos h]
    · split
      · rfl
      · refine findInSources_absent (kw := str! "unsafe") (fun text ht => ?_) paths h
        have := scanString_spec (kw := str! "unsafe") (by decide) (by decide) (fun a b h => ((checkUnsafe_iff a b).mp h).1)
          (lex text)
        rw [hlex, flags_absent (fun a b h => ((checkUnsafe_iff a b).mp h).1) _ _ ht] at this
        exact this
  have e2 : (if externPermitted perms crate version = true then some [] else findInSources (scanPath lex scanExtern a) paths) =
      some [] := by
    rcases he with h | h
    · rw [if_pos h]
    · split
      · rfl
      · refine findInSources_absent (kw := str! "extern") (fun text ht => ?_) paths h
        have := scanString_spec (kw := str! "extern") (by decide) (by decide) (fun a b h => ((checkExtern_iff a b).mp h).1)
          (lex text)
        rw [hlex, flags_absent (fun a b h => ((checkExtern_iff a b).mp h).1) _ _ ht] at this
        exact this
  have : run lex crate args a = .done (some 0) := by
    simp only [run, hc, ho, h0, if_true, hp, hcomplete, scanSources, e1, e2, finish]
    simp
  rw [proxyRustc, this]
  rfl

/-- **C139 (again).** When the user has granted what was asked for, the crate is compiled again, with the configuration as it is
then; the first attempt leaves no trace in the result. When they refuse, the wrapper fails. -/
theorem C139_again (lex : Str → List Tok) (crate : CrateSel) (args : List Str) (a : Attempt) (rest : List Attempt)
    (perms : PermMap) (version : Int) (code : Option Int) (ds : List (Option Diagnostic)) (h : Failed a perms version code ds)
    (hu : ∃ d loc, some d ∈ ds ∧ At (str! "unsafe_code") a.canon d loc) :
    (a.onUnsafe = some .continue → proxyRustc lex crate args (a :: rest) = proxyRustc lex crate args rest) ∧
    (a.onUnsafe = some .giveUp → proxyRustc lex crate args (a :: rest) = .exit (-1)) := by
  constructor <;> intro hx <;> rw [proxyRustc, C138_unsafe lex crate args a perms version code ds h hu, hx] <;> rfl

/-! ### A crate that forbids unsafe code itself -/

private def exCrate : CrateSel := ⟨⟨str! "p", str! "1.0.0", true⟩, .primary⟩
private def exSpan : Json := .obj [(str! "file_name", .str (str! "src/lib.rs")), (str! "byte_start", .num 60),
  (str! "line_start", .num 3), (str! "column_start", .num 5), (str! "is_primary", .bool true)]
private def exJson : Json := .obj [(str! "$message_type", .str (str! "diagnostic")),
  (str! "message", .str (str! "usage of an `unsafe` block")),
  (str! "code", .obj [(str! "code", .str (str! "unsafe_code")), (str! "explanation", .null)]),
  (str! "level", .str (str! "error")), (str! "spans", .arr [exSpan]), (str! "children", .arr [])]
private def exDiag : Diagnostic := ⟨str! "error", some (str! "unsafe_code"), [⟨str! "src/lib.rs", 3, 5⟩]⟩

private theorem exSays : Says exJson exDiag := by
  refine ⟨⟨_, _, rfl, by decide, by simp; exact rfl⟩, ⟨_, rfl, by decide, by simp [exDiag]⟩,
    ⟨_, ⟨_, rfl, by decide, by simp; exact rfl⟩, ⟨_, rfl, by decide, by simp⟩⟩,
    [exSpan], ⟨_, rfl, by decide, by simp⟩, rfl, ?_⟩
  intro p hp
  simp only [exDiag, List.zip_cons_cons, List.zip_nil_right, List.mem_singleton] at hp
  subst hp
  exact ⟨⟨_, rfl, by decide, by simp⟩, ⟨_, rfl, by decide, by simp⟩, ⟨_, rfl, by decide, by simp⟩, by decide, by decide⟩

private theorem exStderr : Stderr [some exDiag, none]
    (Json.text exJson ++ str! "\n" ++ str! "error: could not compile" ++ str! "\n") := by
  refine ⟨[Json.text exJson, str! "error: could not compile"], rfl, ?_, by simp⟩
  intro p hp
  simp only [List.zip_cons_cons, List.zip_nil_right, List.mem_cons, List.not_mem_nil, or_false] at hp
  rcases hp with rfl | rfl
  · exact .diagnostic exSays (by simp [Ok, OkFields, OkElems, exJson, exSpan])
      (by simp [depth, depthFields, depthElems, exJson, exSpan])
  · exact .other (by decide) (by decide)

/-- rustc fails with the error above although everything is permitted. -/
private def exAttempt : Attempt where
  config := some ([(⟨str! "p", .all⟩, Config.PkgCfg.leaf { allowUnsafe := true, allowExtern := true })], 3)
  output := some (outputOf (fun _ => none) (some 1)
    (toBytes (Json.text exJson ++ str! "\n" ++ str! "error: could not compile" ++ str! "\n")))
  readDeps := fun _ => none
  canon := fun _ => none
  readSource := fun _ => none
  onComplete := some .continue
  onUnsafe := some .continue
  onExtern := some .continue

private theorem exFailed (x : Option Rustc.Outcome) : Failed { exAttempt with onUnsafe := x }
    [(⟨str! "p", .all⟩, Config.PkgCfg.leaf { allowUnsafe := true, allowExtern := true })] 3 (some 1)
    [some exDiag, none] :=
  ⟨rfl, by simp, ⟨_, exStderr, rfl⟩⟩

private theorem exAt : At (str! "unsafe_code") (fun _ => none) exDiag (str! "src/lib.rs", 3, 5) := ⟨rfl, rfl, _, _, rfl, rfl⟩

/-- **C139, disagreement.** A crate that forbids unsafe code itself, with `#![forbid(unsafe_code)]`, but uses it, does not
compile. Although it is permitted to use unsafe code, that is not shown as an error of rustc: the user is asked whether it may
use unsafe code. -/
theorem C139_own_lint : ¬ C139_Claim := by
  intro h
  have h1 := (h (fun _ => []) exCrate [] exAttempt _ _ (some 1) _ rfl rfl).1 rfl (some .giveUp)
  have h2 := C138_unsafe (fun _ => []) exCrate [] _ _ _ _ _ (exFailed (some .giveUp)) ⟨exDiag, _, by simp, exAt⟩
  have h3 := C138_unsafe (fun _ => []) exCrate [] _ _ _ _ _ (exFailed (some .continue)) ⟨exDiag, _, by simp, exAt⟩
  rw [h2] at h1
  have h3' : run (fun _ => []) exCrate [] exAttempt = next (some .continue) := h3
  rw [h3'] at h1
  cases h1

/-- **C139, disagreement.** In this case granting the permission has no effect: the wrapper asks again and again. -/
theorem C139_endless : ∃ a perms version, a.config = some (perms, version) ∧ unsafePermitted perms exCrate = true ∧
    externPermitted perms exCrate version = true ∧
    ∀ n, proxyRustc (fun _ => []) exCrate [] (List.replicate n a) = .running := by
  refine ⟨exAttempt, _, _, rfl, rfl, rfl, fun n => ?_⟩
  induction n with
  | zero => rfl
  | succ n ih =>
    have h3 := C138_unsafe (fun _ => []) exCrate [] _ _ _ _ _ (exFailed (some .continue)) ⟨exDiag, _, by simp, exAt⟩
    have h3' : run (fun _ => []) exCrate [] exAttempt = next (some .continue) := h3
    rw [List.replicate_succ, proxyRustc, h3']
    exact ih

/-! Non-vacuity. -/
example : Stderr [some exDiag, none] (Json.text exJson ++ str! "\n" ++ str! "error: could not compile" ++ str! "\n") := exStderr
example : places unsafeLint (fun _ => some (str! "/w/src/lib.rs"))
    (Json.text exJson ++ str! "\n" ++ str! "error: could not compile" ++ str! "\n") = [(str! "/w/src/lib.rs", 3, 5)] := by
  decide +kernel
example : ∃ perms, Failed exAttempt perms 3 (some 1) [some exDiag, none] := ⟨_, exFailed (some .continue)⟩
/-- Another error, E0425, whose code is not the lint's. -/
private def exOther : Diagnostic := ⟨str! "error", some (str! "E0425"), [⟨str! "src/lib.rs", 3, 5⟩]⟩
example (canon : Str → Option Str) : ¬ ∃ loc, At (str! "unsafe_code") canon exOther loc := by
  rintro ⟨loc, _, h, _⟩
  exact absurd h (by decide)
/-- A crate without unsafe code and without permissions compiles. -/
private def exGood : Attempt where
  config := some ([], 3)
  output := some ⟨some 0, some [], some []⟩
  readDeps := fun _ => some (depInfo [str! "/t/p.rlib"] [str! "a.rs"] [])
  canon := fun f => some f
  readSource := fun _ => some (some (str! "fn"))
  onComplete := some .continue
  onUnsafe := some .giveUp
  onExtern := some .giveUp
example : proxyRustc (fun s => [⟨false, s⟩]) exCrate
    [str! "rustc", str! "--crate-name", str! "p", str! "--emit=dep-info,link", str! "--out-dir", str! "/t"] [exGood] =
    .exit 0 := by
  refine C139_compiles _ _ _ _ _ [] 3 ⟨some 0, some [], some []⟩ [str! "a.rs"] (fun s => by simp [sourceOf]) rfl rfl rfl
    (by decide +kernel) rfl (.inr ?_) (.inr ?_) <;>
  · intro f _
    refine ⟨_, rfl, fun text h => ?_⟩
    cases h
    unfold Absent
    decide

end Cackle.RustcErrors
