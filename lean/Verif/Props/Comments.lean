import Verif.Model.Comments

/-!
# C174: comments in the configuration file stay with what they are about
-/

namespace Cackle.Comments
open Cackle

/-! ## Specification -/

/-- How the text is read. A comment is about the value before it on its line. If there is none, it is about the next value.
`line` is the last value on the current line, `above` are the comments that wait for a value. -/
def notes : Option Str → List Str → List Sym → List (Str × Str)
  | _, _, [] => []
  | _, above, .value v :: r => above.map (fun c => (c, v)) ++ notes (some v) [] r
  | line, above, .comma :: r => notes line above r
  | _, above, .piece .newline :: r => notes none above r
  | some v, above, .piece (.comment c) :: r => (c, v) :: notes (some v) above r
  | none, above, .piece (.comment c) :: r => notes none (above ++ [c]) r

/-- The text says `c` about `v`. -/
def Says (text : List Sym) (c v : Str) : Prop := (c, v) ∈ notes none [] text

/-- The values that are written in the text. -/
def valuesOf : List Sym → List Str
  | [] => []
  | .value v :: r => v :: valuesOf r
  | _ :: r => valuesOf r

/-- Every comment ends with its line: no value is swallowed by a comment. -/
def Closed : List Sym → Prop
  | [] => True
  | .piece (.comment _) :: r => r.head? = some (.piece .newline) ∧ Closed r
  | _ :: r => Closed r

/-- What is said about a value that is still there is still said, and nothing is said that was not said before and not entered. -/
def KeepsComments (before after : List Sym) (gone : List Str) (entered : Option Str) (about : List Str) : Prop :=
  (∀ c v, Says before c v → v ∉ gone → Says after c v) ∧
    (∀ c v, Says after c v → Says before c v ∨ (entered = some c ∧ v ∈ about))

/-- The English claim C174: about additions to lists, removals from lists and settings. -/
def C174_Claim : Prop :=
  (∀ (a : Arr) values comment, Closed a.text → KeepsComments a.text (addValues values comment a).text [] comment values) ∧
  (∀ (a : Arr) values, Closed a.text → KeepsComments a.text (removeValues values a).text values none []) ∧
  (∀ (es : List Entry) key comment, Closed (tableText es) →
    KeepsComments (tableText es) (tableText (setEntry key comment es)) [] comment [key])

/-- The comments in the text between two values. -/
def commentsIn (ps : List Piece) : List Str :=
  ps.filterMap fun p => match p with | .comment c => some c | .newline => none

/-- Comments in a list are on lines of their own, above what they are about. -/
def OwnLines (a : Arr) : Prop :=
  (∀ e ∈ a.elems, (∀ c, e.pre.head? ≠ some (.comment c)) ∧ commentsIn e.suf = []) ∧ ∀ c, a.trailing.head? ≠ some (.comment c)

/-! ## Lemmas -/

theorem notes_blank (ps : List Piece) (h : commentsIn ps = []) (line : Option Str) (above : List Str) (r : List Sym) :
    ∃ line', notes line above (ps.map .piece ++ r) = notes line' above r := by
  induction ps generalizing line with
  | nil => exact ⟨line, rfl⟩
  | cons p ps ih =>
    cases p with
    | newline =>
      obtain ⟨l, hl⟩ := ih (by simpa [commentsIn] using h) none
      exact ⟨l, by simpa [notes] using hl⟩
    | comment c => simp [commentsIn] at h

theorem notes_none (ps : List Piece) (above : List Str) (r : List Sym) :
    notes none above (ps.map .piece ++ r) = notes none (above ++ commentsIn ps) r := by
  induction ps generalizing above with
  | nil => simp [commentsIn]
  | cons p ps ih =>
    cases p with
    | newline =>
      have h := ih above
      simpa [notes, commentsIn] using h
    | comment c =>
      have h := ih (above ++ [c])
      simpa [notes, commentsIn] using h

theorem notes_pre (ps : List Piece) (h : ∀ c, ps.head? ≠ some (.comment c)) (line : Option Str) (v : Str) (r : List Sym) :
    notes line [] (ps.map .piece ++ .value v :: r) = (commentsIn ps).map (fun c => (c, v)) ++ notes (some v) [] r := by
  cases ps with
  | nil => simp [notes, commentsIn]
  | cons p ps =>
    cases p with
    | comment c => exact absurd rfl (h c)
    | newline =>
      have := notes_none ps [] (.value v :: r)
      simp only [List.map_cons, List.cons_append, notes]
      rw [this]
      simp [notes, commentsIn]

theorem notes_trailing (ps : List Piece) (h : ∀ c, ps.head? ≠ some (.comment c)) (line : Option Str) :
    notes line [] (ps.map .piece) = [] := by
  cases ps with
  | nil => rfl
  | cons p ps =>
    cases p with
    | comment c => exact absurd rfl (h c)
    | newline =>
      have := notes_none ps [] []
      simp only [List.append_nil] at this
      simp only [List.map_cons, notes]
      rw [this]
      rfl

/-- What the elements have above them. -/
def said (es : List Elem) : List (Str × Str) := es.flatMap fun e => (commentsIn e.pre).map fun c => (c, e.val)

theorem notes_elems (last : Bool) (t : List Piece) (ht : ∀ c, t.head? ≠ some (.comment c)) : ∀ (es : List Elem) (line : Option Str),
    (∀ e ∈ es, (∀ c, e.pre.head? ≠ some (.comment c)) ∧ commentsIn e.suf = []) →
    notes line [] (elemsText last es ++ t.map .piece) = said es
  | [], line, _ => by simpa [elemsText, said] using notes_trailing t ht line
  | [e], line, h => by
    obtain ⟨h1, h2⟩ := h e (List.mem_singleton.mpr rfl)
    simp only [elemsText, Elem.text, List.append_assoc, List.cons_append]
    rw [notes_pre _ h1]
    obtain ⟨l, hl⟩ := notes_blank e.suf h2 (some e.val) [] ((if last then [.comma] else []) ++ t.map .piece)
    rw [hl]
    have : notes l [] ((if last then [Sym.comma] else []) ++ t.map .piece) = [] := by
      cases last
      · simpa using notes_trailing t ht l
      · simpa [notes] using notes_trailing t ht l
    rw [this]
    simp [said]
  | e :: e2 :: es, line, h => by
    obtain ⟨h1, h2⟩ := h e (List.mem_cons_self ..)
    have ih := notes_elems last t ht (e2 :: es)
    simp only [elemsText, Elem.text, List.append_assoc, List.cons_append]
    rw [notes_pre _ h1]
    obtain ⟨l, hl⟩ := notes_blank e.suf h2 (some e.val) [] (.comma :: (elemsText last (e2 :: es) ++ t.map .piece))
    rw [hl]
    simp only [notes]
    rw [ih l (fun x hx => h x (List.mem_cons_of_mem _ hx))]
    simp [said]

theorem notes_arr (a : Arr) (h : OwnLines a) : notes none [] a.text = said a.elems := notes_elems _ _ h.2 _ _ h.1

/-- The elements after an addition. -/
theorem insertElem_mem (v : Str) (comment : Option Str) : ∀ (es : List Elem) (e : Elem),
    e ∈ insertElem v comment es ↔ e ∈ es ∨ (e = createString v comment ∧ insertElem v comment es ≠ es)
  | [], e => by simp [insertElem]
  | x :: rest, e => by
    have ih := insertElem_mem v comment rest e
    unfold insertElem
    split
    · split
      · simp
      · have hne : createString v comment :: x :: rest ≠ x :: rest := by
          intro h
          have := congrArg List.length h
          simp at this
        simp only [List.mem_cons, ne_eq, hne, not_false_eq_true, and_true]
        constructor
        · rintro (h | h | h) <;> simp [h]
        · rintro ((h | h) | h) <;> simp [h]
    · rw [List.mem_cons, ih, List.mem_cons]
      simp only [ne_eq, List.cons.injEq, true_and]
      constructor
      · rintro (h | h | h)
        · exact .inl (.inl h)
        · exact .inl (.inr h)
        · exact .inr h
      · rintro ((h | h) | h)
        · exact .inl h
        · exact .inr (.inl h)
        · exact .inr (.inr h)

theorem insertElem_new (v : Str) (comment : Option Str) : ∀ (es : List Elem), v ∉ es.map (·.val) →
    createString v comment ∈ insertElem v comment es
  | [], _ => by simp [insertElem]
  | x :: rest, h => by
    simp only [List.map_cons, List.mem_cons, not_or] at h
    unfold insertElem
    split
    · rw [if_neg (Ne.symm h.1)]
      exact List.mem_cons_self ..
    · exact List.mem_cons_of_mem _ (insertElem_new v comment rest h.2)

theorem createString_val (v : Str) (comment : Option Str) : (createString v comment).val = v := by cases comment <;> rfl
theorem createString_suf (v : Str) (comment : Option Str) : (createString v comment).suf = [] := by cases comment <;> rfl
theorem createString_own (v : Str) (comment : Option Str) (c : Str) : (createString v comment).pre.head? ≠ some (.comment c) := by
  cases comment <;> simp [createString]
theorem createString_said (v : Str) (comment : Option Str) : commentsIn (createString v comment).pre = comment.toList := by
  cases comment <;> simp [createString, commentsIn]

/-- The elements after several additions. -/
theorem foldl_insert_mem (comment : Option Str) : ∀ (values : List Str) (es : List Elem) (e : Elem),
    (e ∈ es → e ∈ values.foldl (fun es v => insertElem v comment es) es) ∧
    (e ∈ values.foldl (fun es v => insertElem v comment es) es → e ∈ es ∨ ∃ v ∈ values, e = createString v comment)
  | [], es, e => by simp
  | v :: vs, es, e => by
    have ih := foldl_insert_mem comment vs (insertElem v comment es) e
    simp only [List.foldl_cons]
    refine ⟨fun h => ih.1 ((insertElem_mem v comment es e).mpr (.inl h)), fun h => ?_⟩
    rcases ih.2 h with h | ⟨w, hw, h⟩
    · rcases (insertElem_mem v comment es e).mp h with h | ⟨h, -⟩
      · exact .inl h
      · exact .inr ⟨v, List.mem_cons_self .., h⟩
    · exact .inr ⟨w, List.mem_cons_of_mem _ hw, h⟩

theorem addValues_own (a : Arr) (values : List Str) (comment : Option Str) (h : OwnLines a) : OwnLines (addValues values comment a) := by
  unfold addValues
  split
  · exact h
  · refine ⟨fun e he => ?_, h.2⟩
    rcases (foldl_insert_mem comment values a.elems e).2 he with he | ⟨v, -, rfl⟩
    · exact h.1 e he
    · exact ⟨createString_own v comment, by rw [createString_suf]; rfl⟩

theorem addValues_elems (a : Arr) (values : List Str) (comment : Option Str) :
    (addValues values comment a).elems = values.foldl (fun es v => insertElem v comment es) a.elems := by
  unfold addValues
  split
  · next h => subst h; rfl
  · rfl

theorem mem_said {es : List Elem} {c v : Str} : (c, v) ∈ said es ↔ ∃ e ∈ es, c ∈ commentsIn e.pre ∧ e.val = v := by
  simp only [said, List.mem_flatMap, List.mem_map, Prod.mk.injEq]
  constructor
  · rintro ⟨e, he, x, hx, rfl, rfl⟩
    exact ⟨e, he, hx, rfl⟩
  · rintro ⟨e, he, hc, rfl⟩
    exact ⟨e, he, c, hc, rfl, rfl⟩

theorem removeElem_mem (v : Str) : ∀ (es : List Elem) (e : Elem),
    (e ∈ removeElem v es → e ∈ es) ∧ (e ∈ es → e.val ≠ v → e ∈ removeElem v es)
  | [], e => by simp [removeElem]
  | x :: rest, e => by
    have ih := removeElem_mem v rest e
    unfold removeElem
    split
    · next hx =>
      refine ⟨fun h => List.mem_cons_of_mem _ h, fun h hv => ?_⟩
      rcases List.mem_cons.mp h with rfl | h
      · exact absurd hx hv
      · exact h
    · refine ⟨fun h => ?_, fun h hv => ?_⟩
      · rcases List.mem_cons.mp h with rfl | h
        · exact List.mem_cons_self ..
        · exact List.mem_cons_of_mem _ (ih.1 h)
      · rcases List.mem_cons.mp h with rfl | h
        · exact List.mem_cons_self ..
        · exact List.mem_cons_of_mem _ (ih.2 h hv)

theorem foldl_remove_mem : ∀ (values : List Str) (es : List Elem) (e : Elem),
    (e ∈ values.foldl (fun es v => removeElem v es) es → e ∈ es) ∧
    (e ∈ es → e.val ∉ values → e ∈ values.foldl (fun es v => removeElem v es) es)
  | [], es, e => by simp
  | v :: vs, es, e => by
    have ih := foldl_remove_mem vs (removeElem v es) e
    simp only [List.foldl_cons, List.mem_cons, not_or]
    exact ⟨fun h => (removeElem_mem v es e).1 (ih.1 h), fun h hv => ih.2 ((removeElem_mem v es e).2 h hv.1) hv.2⟩

/-! ### Tables -/

theorem notes_entry (e : Entry) (r : List Sym) :
    notes none [] (e.text ++ r) = (commentsIn e.pre ++ e.suf.toList).map (fun c => (c, e.key)) ++ notes none [] r := by
  unfold Entry.text
  simp only [List.append_assoc, List.cons_append]
  rw [notes_none]
  cases e.suf <;> simp [notes]

theorem notes_table : ∀ (es : List Entry),
    notes none [] (tableText es) = es.flatMap fun e => (commentsIn e.pre ++ e.suf.toList).map fun c => (c, e.key)
  | [] => rfl
  | e :: es => by
    unfold tableText
    rw [List.flatMap_cons, notes_entry, List.flatMap_cons]
    congr 1
    exact notes_table es

theorem says_table {es : List Entry} {c v : Str} :
    Says (tableText es) c v ↔ ∃ e ∈ es, (c ∈ commentsIn e.pre ∨ e.suf = some c) ∧ e.key = v := by
  unfold Says
  rw [notes_table]
  simp only [List.mem_flatMap, List.mem_map, Prod.mk.injEq, List.mem_append, Option.mem_toList]
  constructor
  · rintro ⟨e, he, x, hx, rfl, rfl⟩
    exact ⟨e, he, hx, rfl⟩
  · rintro ⟨e, he, hc, rfl⟩
    exact ⟨e, he, c, hc, rfl, rfl⟩

/-- The entries after a setting: the one with the key is replaced, the others stay. -/
theorem setEntry_mem (key : Str) (comment : Option Str) : ∀ (es : List Entry) (e : Entry),
    (e ∈ es → e.key ≠ key → e ∈ setEntry key comment es) ∧
    (e ∈ setEntry key comment es → e ∈ es ∨ (e.key = key ∧ e.suf = none ∧
      match comment with | some c => e.pre = [.comment c, .newline] | none => e.pre = [] ∨ ∃ x ∈ es, x.key = key ∧ x.pre = e.pre))
  | [], e => by
    refine ⟨by simp, fun h => .inr ?_⟩
    simp only [setEntry, List.mem_singleton] at h
    subst h
    cases comment <;> simp
  | x :: rest, e => by
    have ih := setEntry_mem key comment rest e
    unfold setEntry
    split
    · next hx =>
      refine ⟨fun h hk => ?_, fun h => ?_⟩
      · rcases List.mem_cons.mp h with rfl | h
        · exact absurd hx hk
        · exact List.mem_cons_of_mem _ h
      · rcases List.mem_cons.mp h with rfl | h
        · refine .inr ⟨rfl, rfl, ?_⟩
          cases comment
          · exact .inr ⟨x, List.mem_cons_self .., hx, rfl⟩
          · rfl
        · exact .inl (List.mem_cons_of_mem _ h)
    · refine ⟨fun h hk => ?_, fun h => ?_⟩
      · rcases List.mem_cons.mp h with rfl | h
        · exact List.mem_cons_self ..
        · exact List.mem_cons_of_mem _ (ih.1 h hk)
      · rcases List.mem_cons.mp h with rfl | h
        · exact .inl (List.mem_cons_self ..)
        · rcases ih.2 h with h | ⟨h1, h2, h3⟩
          · exact .inl (List.mem_cons_of_mem _ h)
          · refine .inr ⟨h1, h2, ?_⟩
            cases comment
            · rcases h3 with h3 | ⟨y, hy, h3⟩
              · exact .inl h3
              · exact .inr ⟨y, List.mem_cons_of_mem _ hy, h3⟩
            · exact h3

theorem setEntry_new (key c : Str) : ∀ (es : List Entry), ∃ e ∈ setEntry key (some c) es, e.key = key ∧ c ∈ commentsIn e.pre
  | [] => ⟨_, List.mem_singleton.mpr rfl, rfl, by simp [commentsIn]⟩
  | x :: rest => by
    unfold setEntry
    split
    · exact ⟨_, List.mem_cons_self .., rfl, by simp [commentsIn]⟩
    · obtain ⟨e, he, h⟩ := setEntry_new key c rest
      exact ⟨e, List.mem_cons_of_mem _ he, h⟩

theorem setEntry_keep (key : Str) : ∀ (es : List Entry), (∀ e ∈ es, e.key = key → e.suf = none) →
    ∀ e ∈ es, e ∈ setEntry key none es
  | [], _ => by simp
  | x :: rest, h => by
    intro e he
    unfold setEntry
    split
    · next hx =>
      rcases List.mem_cons.mp he with rfl | he
      · have : e.suf = none := h e (List.mem_cons_self ..) hx
        refine List.mem_cons.mpr (.inl ?_)
        cases e
        simp_all
      · exact List.mem_cons_of_mem _ he
    · rcases List.mem_cons.mp he with rfl | he
      · exact List.mem_cons_self ..
      · exact List.mem_cons_of_mem _ (setEntry_keep key rest (fun y hy => h y (List.mem_cons_of_mem _ hy)) e he)

/-! ### Closed comments -/

theorem closed_append : ∀ (a b : List Sym), Closed a → Closed b → Closed (a ++ b)
  | [], _, _, hb => hb
  | .value _ :: a, b, ha, hb => closed_append a b ha hb
  | .comma :: a, b, ha, hb => closed_append a b ha hb
  | .piece .newline :: a, b, ha, hb => closed_append a b ha hb
  | .piece (.comment c) :: a, b, ha, hb => by
    obtain ⟨h1, h2⟩ := ha
    refine ⟨?_, closed_append a b h2 hb⟩
    cases a with
    | nil => cases h1
    | cons x a => exact h1

/-- In every text between values the comments end with their lines. The parser makes it so: the end of the line goes with the comment. -/
def ArrClosed (a : Arr) : Prop :=
  (∀ e ∈ a.elems, Closed (e.pre.map .piece) ∧ Closed (e.suf.map .piece)) ∧ Closed (a.trailing.map .piece)

theorem closed_elems (last : Bool) : ∀ (es : List Elem),
    (∀ e ∈ es, Closed (e.pre.map .piece) ∧ Closed (e.suf.map .piece)) → Closed (elemsText last es)
  | [], _ => trivial
  | [e], h => by
    obtain ⟨h1, h2⟩ := h e (List.mem_singleton.mpr rfl)
    unfold elemsText Elem.text
    refine closed_append _ _ (closed_append _ _ h1 h2) ?_
    cases last <;> exact trivial
  | e :: e2 :: es, h => by
    obtain ⟨h1, h2⟩ := h e (List.mem_cons_self ..)
    unfold elemsText Elem.text
    refine closed_append _ _ (closed_append _ _ h1 h2) ?_
    exact closed_elems last (e2 :: es) fun x hx => h x (List.mem_cons_of_mem _ hx)

theorem createString_closed (v : Str) (comment : Option Str) : Closed ((createString v comment).pre.map .piece) := by
  cases comment <;> simp [createString, Closed]

theorem closed_entry (e : Entry) (h : Closed (e.pre.map .piece)) : Closed e.text := by
  unfold Entry.text
  refine closed_append _ _ h ?_
  cases e.suf <;> simp [Closed]

theorem closed_table : ∀ (es : List Entry), (∀ e ∈ es, Closed (e.pre.map .piece)) → Closed (tableText es)
  | [], _ => trivial
  | e :: es, h => by
    unfold tableText
    rw [List.flatMap_cons]
    exact closed_append _ _ (closed_entry e (h e (List.mem_cons_self ..))) (closed_table es fun x hx => h x (List.mem_cons_of_mem _ hx))

/-! ### The values -/

theorem valuesOf_append : ∀ (a b : List Sym), valuesOf (a ++ b) = valuesOf a ++ valuesOf b
  | [], _ => rfl
  | .value v :: a, b => congrArg (v :: ·) (valuesOf_append a b)
  | .comma :: a, b => valuesOf_append a b
  | .piece _ :: a, b => valuesOf_append a b

theorem valuesOf_pieces : ∀ (ps : List Piece), valuesOf (ps.map .piece) = []
  | [] => rfl
  | _ :: ps => valuesOf_pieces ps

theorem valuesOf_elem (e : Elem) : valuesOf e.text = [e.val] := by
  unfold Elem.text
  rw [valuesOf_append, valuesOf_pieces]
  simp [valuesOf, valuesOf_pieces]

theorem valuesOf_elems (last : Bool) : ∀ (es : List Elem), valuesOf (elemsText last es) = es.map (·.val)
  | [] => rfl
  | [e] => by
    unfold elemsText
    rw [valuesOf_append, valuesOf_elem]
    cases last <;> rfl
  | e :: e2 :: es => by
    have ih := valuesOf_elems last (e2 :: es)
    unfold elemsText
    rw [valuesOf_append, valuesOf_elem]
    simp only [valuesOf]
    rw [ih]
    rfl

theorem valuesOf_arr (a : Arr) : valuesOf a.text = a.elems.map (·.val) := by
  unfold Arr.text
  rw [valuesOf_append, valuesOf_elems, valuesOf_pieces, List.append_nil]

theorem insertElem_vals (v : Str) (comment : Option Str) : ∀ (es : List Elem),
    (insertElem v comment es).map (fun e => Toml.Item.str e.val) = Editor.addOne v (es.map fun e => Toml.Item.str e.val)
  | [] => by simp [insertElem, Editor.addOne, createString_val]
  | x :: rest => by
    have ih := insertElem_vals v comment rest
    simp only [insertElem, List.map_cons, Editor.addOne]
    split
    · split
      · rfl
      · simp [createString_val]
    · rw [List.map_cons, ih]

theorem removeElem_vals (v : Str) : ∀ (es : List Elem),
    (removeElem v es).map (fun e => Toml.Item.str e.val) = Editor.removeFirst v (es.map fun e => Toml.Item.str e.val)
  | [] => rfl
  | x :: rest => by
    have ih := removeElem_vals v rest
    simp only [removeElem, List.map_cons, Editor.removeFirst, Toml.Item.asStr, Option.some.injEq]
    split
    · rfl
    · rw [List.map_cons, ih]

theorem foldl_insert_vals (comment : Option Str) : ∀ (values : List Str) (es : List Elem),
    (values.foldl (fun es v => insertElem v comment es) es).map (fun e => Toml.Item.str e.val) =
      values.foldl (fun a v => Editor.addOne v a) (es.map fun e => Toml.Item.str e.val)
  | [], _ => rfl
  | v :: vs, es => by
    simp only [List.foldl_cons]
    rw [foldl_insert_vals comment vs, insertElem_vals]

theorem foldl_remove_vals : ∀ (values : List Str) (es : List Elem),
    (values.foldl (fun es v => removeElem v es) es).map (fun e => Toml.Item.str e.val) =
      values.foldl (fun a v => Editor.removeFirst v a) (es.map fun e => Toml.Item.str e.val)
  | [], _ => rfl
  | v :: vs, es => by
    simp only [List.foldl_cons]
    rw [foldl_remove_vals vs, removeElem_vals]

theorem hasComment_iff {c : Str} {t : List Sym} : hasComment c t = true ↔ Sym.piece (.comment c) ∈ t := by
  simp [hasComment]

theorem insertElem_comments_ne (v : Str) : ∀ (es : List Elem) (c1 c2 : Option Str),
    insertElem v c1 es ≠ es → createString v c2 ∈ insertElem v c2 es
  | [], _, c2, _ => by simp [insertElem]
  | x :: rest, c1, c2, h => by
    unfold insertElem at h ⊢
    split
    · next hle =>
      rw [if_pos hle] at h
      split
      · next he => rw [if_pos he] at h; exact absurd rfl h
      · exact List.mem_cons_self ..
    · next hle =>
      rw [if_neg hle] at h
      exact List.mem_cons_of_mem _ (insertElem_comments_ne v rest c1 c2 fun he => h (by rw [he]))

/-! ## C174 -/

/-- Adding to a list in which comments are on lines of their own keeps every comment with its value; the only new ones are the
entered comment about the added values, and each value that was not in the list has it. -/
theorem C174_add_partial (a : Arr) (values : List Str) (comment : Option Str) (h : OwnLines a) :
    KeepsComments a.text (addValues values comment a).text [] comment values ∧
      ∀ v c, comment = some c → values = [v] → v ∉ a.elems.map (·.val) → Says (addValues values comment a).text c v := by
  unfold KeepsComments Says
  rw [notes_arr a h, notes_arr _ (addValues_own a values comment h), addValues_elems]
  refine ⟨⟨fun c v hs _ => ?_, fun c v hs => ?_⟩, fun v c hc hv hn => ?_⟩
  · obtain ⟨e, he, h1, h2⟩ := mem_said.mp hs
    exact mem_said.mpr ⟨e, (foldl_insert_mem comment values a.elems e).1 he, h1, h2⟩
  · obtain ⟨e, he, h1, h2⟩ := mem_said.mp hs
    rcases (foldl_insert_mem comment values a.elems e).2 he with he | ⟨w, hw, rfl⟩
    · exact .inl (mem_said.mpr ⟨e, he, h1, h2⟩)
    · rw [createString_said] at h1
      rw [createString_val] at h2
      exact .inr ⟨by simpa using h1, h2 ▸ hw⟩
  · subst hv hc
    exact mem_said.mpr ⟨_, insertElem_new v (some c) a.elems hn, by rw [createString_said]; simp, createString_val ..⟩

/-- Removing from such a list keeps the comments about the other values. -/
theorem C174_remove_partial (a : Arr) (values : List Str) (h : OwnLines a) :
    KeepsComments a.text (removeValues values a).text values none [] := by
  have h' : OwnLines (removeValues values a) := ⟨fun e he => h.1 e ((foldl_remove_mem values a.elems e).1 he), h.2⟩
  unfold KeepsComments Says
  rw [notes_arr a h, notes_arr _ h']
  refine ⟨fun c v hs hv => ?_, fun c v hs => ?_⟩
  · obtain ⟨e, he, h1, rfl⟩ := mem_said.mp hs
    exact mem_said.mpr ⟨e, (foldl_remove_mem values a.elems e).2 he hv, h1, rfl⟩
  · obtain ⟨e, he, h1, h2⟩ := mem_said.mp hs
    exact .inl (mem_said.mpr ⟨e, (foldl_remove_mem values a.elems e).1 he, h1, h2⟩)

/-- Changing a setting keeps the comments about the other settings. A comment that is entered is above the setting. Without one,
nothing new is said, and the comments above the setting stay if there is none behind it. -/
theorem C174_set_partial (es : List Entry) (key : Str) (comment : Option Str) :
    (∀ c v, v ≠ key → (Says (tableText (setEntry key comment es)) c v ↔ Says (tableText es) c v)) ∧
      (∀ c, comment = some c → Says (tableText (setEntry key comment es)) c key) ∧
      (comment = none → ∀ c, Says (tableText (setEntry key comment es)) c key → Says (tableText es) c key) ∧
      (comment = none → (∀ e ∈ es, e.key = key → e.suf = none) → ∀ c, Says (tableText es) c key →
        Says (tableText (setEntry key comment es)) c key) := by
  refine ⟨fun c v hv => ?_, fun c hc => ?_, fun hc c hs => ?_, fun hc hn c hs => ?_⟩
  · rw [says_table, says_table]
    constructor
    · rintro ⟨e, he, h1, rfl⟩
      rcases (setEntry_mem key comment es e).2 he with he | ⟨hk, -⟩
      · exact ⟨e, he, h1, rfl⟩
      · exact absurd hk hv
    · rintro ⟨e, he, h1, rfl⟩
      exact ⟨e, (setEntry_mem key comment es e).1 he hv, h1, rfl⟩
  · subst hc
    obtain ⟨e, he, h1, h2⟩ := setEntry_new key c es
    exact says_table.mpr ⟨e, he, .inl h2, h1⟩
  · subst hc
    obtain ⟨e, he, h1, h2⟩ := says_table.mp hs
    rcases (setEntry_mem key none es e).2 he with he | ⟨hk, hs, h3⟩
    · exact says_table.mpr ⟨e, he, h1, h2⟩
    · rcases h3 with h3 | ⟨x, hx, hxk, hxp⟩
      · rw [h3, hs] at h1
        simp [commentsIn] at h1
      · rw [hs, ← hxp] at h1
        exact says_table.mpr ⟨x, hx, .inl (by simpa using h1), hxk⟩
  · subst hc
    obtain ⟨e, he, h1, h2⟩ := says_table.mp hs
    exact says_table.mpr ⟨e, setEntry_keep key es hn e he, h1, h2⟩

/-- A comment never changes what else is in the file: the values of a list are those of the edit without comments
(`Verif/Model/Editor.lean`), and comments end with their lines. -/
theorem C174_values (a : Arr) (values : List Str) (comment : Option Str) (h : ArrClosed a) :
    (valuesOf (addValues values comment a).text).map Toml.Item.str =
        values.foldl (fun l v => Editor.addOne v l) ((valuesOf a.text).map Toml.Item.str) ∧
      Closed (addValues values comment a).text ∧
      (valuesOf (removeValues values a).text).map Toml.Item.str =
        values.foldl (fun l v => Editor.removeFirst v l) ((valuesOf a.text).map Toml.Item.str) ∧
      Closed (removeValues values a).text := by
  refine ⟨?_, ?_, ?_, ?_⟩
  · rw [valuesOf_arr, valuesOf_arr, addValues_elems, List.map_map, List.map_map]
    exact foldl_insert_vals comment values a.elems
  · refine closed_append _ _ (closed_elems _ _ ?_) ?_
    · rw [addValues_elems]
      intro e he
      rcases (foldl_insert_mem comment values a.elems e).2 he with he | ⟨v, -, rfl⟩
      · exact h.1 e he
      · exact ⟨createString_closed v comment, by rw [createString_suf]; exact trivial⟩
    · unfold addValues
      split <;> exact h.2
  · rw [valuesOf_arr, valuesOf_arr, List.map_map, List.map_map]
    exact foldl_remove_vals values a.elems
  · exact closed_append _ _ (closed_elems _ _ fun e he => h.1 e ((foldl_remove_mem values a.elems e).1 he)) h.2

/-- The same for settings: the keys do not depend on the comment, and comments end with their lines. -/
theorem C174_keys (es : List Entry) (key : Str) (comment : Option Str) (h : ∀ e ∈ es, Closed (e.pre.map .piece)) :
    (setEntry key comment es).map (·.key) = (if key ∈ es.map (·.key) then es.map (·.key) else es.map (·.key) ++ [key]) ∧
      Closed (tableText (setEntry key comment es)) := by
  constructor
  · clear h
    induction es with
    | nil => simp [setEntry]
    | cons x rest ih =>
      unfold setEntry
      split
      · next hx => simp [hx]
      · next hx =>
        rw [List.map_cons, ih, List.map_cons]
        by_cases hm : key ∈ rest.map (·.key)
        · rw [if_pos hm, if_pos (List.mem_cons_of_mem _ hm)]
        · rw [if_neg hm, if_neg (by simp only [List.mem_cons, not_or]; exact ⟨Ne.symm hx, hm⟩)]
          rfl
  · refine closed_table _ fun e he => ?_
    rcases (setEntry_mem key comment es e).2 he with he | ⟨-, -, h3⟩
    · exact h e he
    · cases comment with
      | some c =>
        have h3 : e.pre = [.comment c, .newline] := h3
        rw [h3]
        simp [Closed]
      | none =>
        rcases h3 with h3 | ⟨x, hx, -, h3⟩
        · rw [h3]
          exact trivial
        · rw [← h3]
          exact h x hx

/-- If the input for a comment opens (the edit "supports comments"), then whatever is entered is in the file, about the added
value. -/
theorem C174_supported (a : Arr) (v c : Str) (h : OwnLines a) (hp : hasComment placeholder a.text = false)
    (hs : supportsAdd [v] a = true) : Says (addValues [v] (some c) a).text c v := by
  have hne : insertElem v (some placeholder) a.elems ≠ a.elems := by
    intro he
    have : addValues [v] (some placeholder) a = { a with trailingComma := if a.elems.isEmpty then true else a.trailingComma } := by
      unfold addValues
      rw [if_neg (by simp), List.foldl_cons, List.foldl_nil, he]
    unfold supportsAdd at hs
    rw [this] at hs
    cases hE : a.elems with
    | nil => rw [hE] at he; simp [insertElem] at he
    | cons x xs =>
      rw [hE] at hs
      simp only [List.isEmpty_cons, Bool.false_eq_true, if_false] at hs
      have ha : ({ elems := x :: xs, trailing := a.trailing, trailingComma := a.trailingComma } : Arr) = a := by
        rw [← hE]
      rw [ha, hp] at hs
      cases hs
  unfold Says
  rw [notes_arr _ (addValues_own a [v] (some c) h), addValues_elems]
  refine mem_said.mpr ⟨createString v (some c), insertElem_comments_ne v a.elems _ (some c) hne, ?_, createString_val ..⟩
  rw [createString_said]
  simp

/-! ### Where it is not so

```
allow_apis = [
    "fs", # reads its settings
    "net", # asks for updates
]
```
-/

def sameLine : Arr :=
  { elems := [{ pre := [.newline], val := str! "fs" }, { pre := [.comment (str! "reads its settings"), .newline], val := str! "net" }]
    trailing := [.comment (str! "asks for updates"), .newline]
    trailingComma := true }

example : Closed sameLine.text := ⟨rfl, rfl, trivial⟩
example : Says sameLine.text (str! "reads its settings") (str! "fs") := by unfold Says; decide
example : Says sameLine.text (str! "asks for updates") (str! "net") := by unfold Says; decide

/-- With a comment after the value, adding `gpu` moves the comment about `fs` behind `gpu`. -/
theorem C174_moved : ∃ a : Arr, Closed a.text ∧ Says a.text (str! "reads its settings") (str! "fs") ∧
    ¬ Says (addValues [str! "gpu"] none a).text (str! "reads its settings") (str! "fs") ∧
    Says (addValues [str! "gpu"] none a).text (str! "reads its settings") (str! "gpu") :=
  ⟨sameLine, ⟨rfl, rfl, trivial⟩, by unfold Says; decide, by unfold Says; decide, by unfold Says; decide⟩

/-- Removing `net` removes the comment about `fs`, and what was said about `net` is now said about `fs`. -/
theorem C174_removed : ∃ a : Arr, Closed a.text ∧ Says a.text (str! "reads its settings") (str! "fs") ∧
    ¬ Says (removeValues [str! "net"] a).text (str! "reads its settings") (str! "fs") ∧
    Says (removeValues [str! "net"] a).text (str! "asks for updates") (str! "fs") :=
  ⟨sameLine, ⟨rfl, rfl, trivial⟩, by unfold Says; decide, by unfold Says; decide, by unfold Says; decide⟩

/-- A setting with a comment behind it, and one with a comment above it: the first is lost by any edit of the setting, the second
when a comment is entered. -/
theorem C174_lost : ∃ es : List Entry, Closed (tableText es) ∧
    Says (tableText es) (str! "reviewed by A") (str! "allow_unsafe") ∧ Says (tableText es) (str! "not by B") (str! "allow_unsafe") ∧
    (∀ comment, ¬ Says (tableText (setEntry (str! "allow_unsafe") comment es)) (str! "not by B") (str! "allow_unsafe") ∨
      comment = some (str! "not by B")) ∧
    ¬ Says (tableText (setEntry (str! "allow_unsafe") (some (str! "in use")) es)) (str! "reviewed by A") (str! "allow_unsafe") := by
  refine ⟨[{ pre := [.comment (str! "reviewed by A"), .newline], key := str! "allow_unsafe", suf := some (str! "not by B") }],
    ⟨rfl, rfl, trivial⟩, by unfold Says; decide, by unfold Says; decide, fun comment => ?_, by unfold Says; decide⟩
  cases comment with
  | none => exact .inl (by unfold Says; decide)
  | some c =>
    by_cases hc : c = str! "not by B"
    · exact .inr (by rw [hc])
    · refine .inl ?_
      rw [says_table]
      rintro ⟨e, he, h, -⟩
      simp only [setEntry, if_true, List.mem_singleton] at he
      subst he
      simp [commentsIn] at h
      exact hc h.symm

theorem C174_Claim_false : ¬ C174_Claim := by
  intro h
  obtain ⟨a, h1, h2, h3, -⟩ := C174_moved
  exact h3 ((h.1 a [str! "gpu"] none h1).1 _ _ h2 (by simp))

/-! ## Not vacuous -/

/-- The same list with the comments above the values. -/
def ownLines : Arr :=
  { elems := [{ pre := [.newline, .comment (str! "reads its settings"), .newline], val := str! "fs" },
      { pre := [.newline, .comment (str! "asks for updates"), .newline], val := str! "net" }]
    trailing := [.newline]
    trailingComma := true }

theorem ownLines_own : OwnLines ownLines := by
  refine ⟨fun e he => ?_, by simp [ownLines]⟩
  simp only [ownLines, List.mem_cons, List.not_mem_nil, or_false] at he
  rcases he with rfl | rfl <;> simp [commentsIn]

example : Says (addValues [str! "gpu"] (some (str! "draws")) ownLines).text (str! "draws") (str! "gpu") :=
  (C174_add_partial ownLines [str! "gpu"] (some (str! "draws")) ownLines_own).2 _ _ rfl rfl (by decide)
example : Says (addValues [str! "gpu"] (some (str! "draws")) ownLines).text (str! "reads its settings") (str! "fs") :=
  (C174_add_partial ownLines [str! "gpu"] (some (str! "draws")) ownLines_own).1.1 _ _ (by unfold Says; decide) (by simp)
example : Says (removeValues [str! "net"] ownLines).text (str! "reads its settings") (str! "fs") :=
  (C174_remove_partial ownLines [str! "net"] ownLines_own).1 _ _ (by unfold Says; decide) (by decide)
example : Says (addValues [str! "gpu"] (some (str! "draws")) ownLines).text (str! "draws") (str! "gpu") :=
  C174_supported ownLines (str! "gpu") (str! "draws") ownLines_own (by decide) (by decide)
example : Says (tableText (setEntry (str! "allow_unsafe") (some (str! "in use")) [])) (str! "in use") (str! "allow_unsafe") :=
  (C174_set_partial [] (str! "allow_unsafe") (some (str! "in use"))).2.1 _ rfl
example : ArrClosed sameLine := by
  refine ⟨fun e he => ?_, rfl, trivial⟩
  simp only [sameLine, List.mem_cons, List.not_mem_nil, or_false] at he
  rcases he with rfl | rfl <;> simp [Closed]

end Cackle.Comments
