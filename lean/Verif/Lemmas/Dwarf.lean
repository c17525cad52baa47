import Verif.Props.DwarfSpec
import Verif.Lemmas.SymbolGraph

/-!
# Lemmas about `Model/Dwarf.lean`
-/

namespace Cackle.Dwarf
open Cackle Graph

/-! ## Paths -/

theorem pushPath_eq (base p : Str) : pushPath base p = under base p := by
  have hl : base.getLast? = base.reverse.head? := by simp
  unfold pushPath under
  rw [hl]
  cases hr : base.reverse with
  | nil =>
    have hb : base = [] := by simpa using hr
    subst hb
    cases p with
    | nil => rfl
    | cons a p => by_cases ha : a = '/' <;> simp [ha]
  | cons c r =>
    have hb : base ≠ [] := by intro h; rw [h] at hr; cases hr
    cases p with
    | nil => by_cases hc : c = '/' <;> simp [hc, hb]
    | cons a p => by_cases ha : a = '/' <;> by_cases hc : c = '/' <;> simp [ha, hc, hb]

/-! ## Names -/

theorem nameAttr_fold (l : List Attr) (n : Option Str) : l.foldl nameStep n = (nameAttr l).or n := by
  induction l generalizing n with
  | nil => simp [nameAttr]
  | cons x l ih =>
    unfold nameAttr
    rw [List.foldl_cons, List.foldl_cons, ih, ih (nameStep none x)]
    cases nameAttr l <;> cases x <;> simp [nameStep]

theorem nameAttr_append (a b : List Attr) : nameAttr (a ++ b) = (nameAttr b).or (nameAttr a) := by
  show (a ++ b).foldl nameStep none = _
  rw [List.foldl_append, nameAttr_fold]
  rfl

theorem nameAttr_none {l : List Attr} : nameAttr l = none ↔ ∀ m, .name m ∉ l := by
  induction l with
  | nil => simp [nameAttr]
  | cons x l ih =>
    rw [show x :: l = [x] ++ l from rfl, nameAttr_append]
    cases x with
    | name s =>
      have hs : nameAttr [.name s] = some s := rfl
      rw [hs]
      constructor
      · intro h; cases hl : nameAttr l <;> rw [hl] at h <;> cases h
      · intro h; exact absurd List.mem_cons_self (h s)
    | _ => simpa [nameAttr, nameStep] using ih

theorem nameAttr_some {e : Entry} {n : Str} (h : HasName e n) : nameAttr e.attrs = some n := by
  obtain ⟨a, b, h1, h2⟩ := h
  rw [h1, show a ++ .name n :: b = a ++ ([.name n] ++ b) from rfl, nameAttr_append, nameAttr_append,
    nameAttr_none.mpr h2]
  simp [nameAttr, nameStep]

theorem hasName_of {e : Entry} {n : Str} (h : nameAttr e.attrs = some n) : HasName e n := by
  have key : ∀ l : List Attr, nameAttr l = some n → ∃ a b, l = a ++ .name n :: b ∧ ∀ m, .name m ∉ b := by
    intro l
    induction l with
    | nil => intro h; cases h
    | cons x l ih =>
      intro h
      rw [show x :: l = [x] ++ l from rfl, nameAttr_append] at h
      cases hl : nameAttr l with
      | some m =>
        rw [hl] at h
        cases h
        obtain ⟨a, b, h1, h2⟩ := ih hl
        exact ⟨x :: a, b, by rw [h1]; rfl, h2⟩
      | none =>
        rw [hl] at h
        cases x <;> first
          | (cases h; exact ⟨[], l, rfl, nameAttr_none.mp hl⟩)
          | cases h
  exact key _ h

/-- Looking for a linkage name. -/
def linkageStep (n : Option Str) : Attr → Option Str
  | .linkage s => some s
  | _ => n

/-- The value of the last linkage name. -/
def linkageAttr (attrs : List Attr) : Option Str := attrs.foldl linkageStep none

theorem linkageAttr_fold (l : List Attr) (n : Option Str) : l.foldl linkageStep n = (linkageAttr l).or n := by
  induction l generalizing n with
  | nil => simp [linkageAttr]
  | cons x l ih =>
    unfold linkageAttr
    rw [List.foldl_cons, List.foldl_cons, ih, ih (linkageStep none x)]
    cases linkageAttr l <;> cases x <;> simp [linkageStep]

theorem linkageAttr_append (a b : List Attr) : linkageAttr (a ++ b) = (linkageAttr b).or (linkageAttr a) := by
  show (a ++ b).foldl linkageStep none = _
  rw [List.foldl_append, linkageAttr_fold]
  rfl

theorem linkageAttr_none {l : List Attr} : linkageAttr l = none ↔ ∀ m, .linkage m ∉ l := by
  induction l with
  | nil => simp [linkageAttr]
  | cons x l ih =>
    rw [show x :: l = [x] ++ l from rfl, linkageAttr_append]
    cases x with
    | linkage s =>
      have hs : linkageAttr [.linkage s] = some s := rfl
      rw [hs]
      constructor
      · intro h; cases hl : linkageAttr l <;> rw [hl] at h <;> cases h
      · intro h; exact absurd List.mem_cons_self (h s)
    | _ => simpa [linkageAttr, linkageStep] using ih

theorem linkageAttr_some {e : Entry} {n : Str} (h : HasLinkage e n) : linkageAttr e.attrs = some n := by
  obtain ⟨a, b, h1, h2⟩ := h
  rw [h1, show a ++ .linkage n :: b = a ++ ([.linkage n] ++ b) from rfl, linkageAttr_append, linkageAttr_append,
    linkageAttr_none.mpr h2]
  simp [linkageAttr, linkageStep]

theorem ownNames_eq (ns : List Str) (attrs : List Attr) :
    ownNames ns attrs = ⟨linkageAttr attrs, (nameAttr attrs).map fun n => ⟨ns, n⟩⟩ := by
  have key : ∀ (l : List Attr) (x : SymName), l.foldl (ownStep ns) x =
      ⟨(linkageAttr l).or x.symbol, ((nameAttr l).map fun n => (⟨ns, n⟩ : Dbg)).or x.debug⟩ := by
    intro l
    induction l with
    | nil => intro x; simp [linkageAttr, nameAttr]
    | cons a l ih =>
      intro x
      rw [List.foldl_cons, ih, show a :: l = [a] ++ l from rfl, linkageAttr_append, nameAttr_append]
      cases linkageAttr l <;> cases nameAttr l <;> cases a <;>
        simp [linkageAttr, nameAttr, linkageStep, nameStep, ownStep]
  unfold ownNames
  rw [key]
  simp

/-- What an entry says itself, computed. -/
theorem own_eq {anc : List Entry} {e : Entry} {x : SymName} (h : Own anc e x) :
    x.symbol = linkageAttr e.attrs ∧
      ((∃ n ns, nameAttr e.attrs = some n ∧ Scopes anc ns ∧ x.debug = some ⟨ns, n⟩) ∨
        (nameAttr e.attrs = none ∧ x.debug = none)) := by
  refine ⟨?_, ?_⟩
  · rcases h.symbol with ⟨s, h1, h2⟩ | ⟨h1, h2⟩
    · rw [h2, linkageAttr_some h1]
    · rw [h2, linkageAttr_none.mpr h1]
  · rcases h.debug with ⟨n, ns, h1, h2, h3⟩ | ⟨h1, h2⟩
    · exact .inl ⟨n, ns, nameAttr_some h1, h2, h3⟩
    · exact .inr ⟨nameAttr_none.mpr h1, h2⟩

/-! ## Namespaces -/

/-- The namespaces opened by the enclosing entries. -/
def stackOf : List Entry → List (Option (List Str))
  | [] => []
  | e :: anc => opens (top (stackOf anc)) e :: stackOf anc

theorem scopes_top {anc : List Entry} {ns : List Str} (h : Scopes anc ns) (hp : Plain anc) :
    (top (stackOf anc)).getD [] = ns := by
  induction h with
  | top => rfl
  | @scope e anc n ns h1 h2 h3 ih =>
    have ht : e.tag = .namespace_ ∨ e.tag = .structure_ := by
      have := hp e List.mem_cons_self
      rcases h1 with h | h | h | h
      · exact .inl h
      · exact .inr h
      · exact absurd h this.1
      · exact absurd h this.2
    have ih := ih fun a ha => hp a (List.mem_cons_of_mem _ ha)
    show ((stackOf (e :: anc)).head?.join).getD [] = _
    simp only [stackOf, List.head?_cons, Option.join_some, opens, if_pos ht, nameAttr_some h2, Option.map_some,
      Option.getD_some]
    cases hs : top (stackOf anc) with
    | none => rw [hs] at ih; simp only [Option.getD_none] at ih; simp [plus, ← ih]
    | some p => rw [hs] at ih; simp only [Option.getD_some] at ih; simp [plus, ih]
  | @stop e anc h1 =>
    show ((stackOf (e :: anc)).head?.join).getD [] = _
    simp only [stackOf, List.head?_cons, Option.join_some, opens]
    rcases h1 with h1 | h1
    · rw [if_neg]
      · rfl
      · rintro (h | h)
        · exact h1 (.inl h)
        · exact h1 (.inr (.inl h))
    · rw [nameAttr_none.mpr h1]
      split <;> rfl

/-- Every place has scopes. -/
theorem scopes_exists : ∀ anc : List Entry, ∃ ns, Scopes anc ns
  | [] => ⟨[], .top⟩
  | e :: anc => by
    obtain ⟨ns, h⟩ := scopes_exists anc
    by_cases h1 : IsScope e
    · cases h2 : nameAttr e.attrs with
      | some n => exact ⟨ns ++ [n], .scope h1 (hasName_of h2) h⟩
      | none => exact ⟨[], .stop (.inr (nameAttr_none.mp h2))⟩
    · exact ⟨[], .stop (.inl h1)⟩

/-- What is inserted for the entries of a forest. -/
def inserted (anc : List Entry) : Forest → List (Nat × List Str)
  | .nil => []
  | .node o e c _ r =>
    (if e.tag = .subprogram then (match top (stackOf anc) with | some ns => [(o, ns)] | none => []) else []) ++
      (inserted (e :: anc) c ++ inserted anc r)

theorem nsStep_forest : ∀ (f : Forest) (anc : List Entry) (m : AMap Nat (List Str)), f.Ok →
    f.flatten.foldl nsStep (m, stackOf anc) =
      ((inserted anc f).foldl (fun m x => m.insert x.1 x.2) m, stackOf anc)
  | .nil, anc, m, _ => rfl
  | .node o e c z r, anc, m, h => by
    obtain ⟨h1, h2, h3⟩ := h
    have hm : (nsStep (m, stackOf anc) (o, some e)) =
        ((if e.tag = .subprogram then (match top (stackOf anc) with | some ns => [(o, ns)] | none => []) else []).foldl
            (fun m x => m.insert x.1 x.2) m,
          if e.hasChildren then stackOf (e :: anc) else stackOf anc) := by
      simp only [nsStep, stackOf]
      congr 1
      split
      · cases top (stackOf anc) <;> rfl
      · rfl
    simp only [Forest.flatten, List.foldl_cons, List.foldl_append, inserted]
    rw [hm]
    cases hc : e.hasChildren with
    | true =>
      simp only [if_true, List.foldl_append]
      rw [nsStep_forest c (e :: anc) _ h2]
      simp only [List.foldl_cons, List.foldl_nil]
      rw [show ∀ m, nsStep (m, stackOf (e :: anc)) (z, none) = (m, stackOf anc) from fun _ => rfl,
        nsStep_forest r anc _ h3]
    | false =>
      have : c = .nil := h1 hc
      subst this
      simp only [Bool.false_eq_true, if_false, List.foldl_nil, inserted]
      rw [nsStep_forest r anc _ h3]

theorem nsStep_padding (l : List Nat) (m : AMap Nat (List Str)) (st : List (Option (List Str))) :
    ((l.map (fun o => (o, (none : Option Entry)))).foldl nsStep (m, st)).1 = m := by
  induction l generalizing st with
  | nil => rfl
  | cons x l ih => exact ih st.tail

theorem get_inserts (l : List (Nat × List Str)) (m : AMap Nat (List Str)) (o : Nat) :
    (∀ x ∈ l, x.1 ≠ o) → (l.foldl (fun m x => m.insert x.1 x.2) m).get? o = m.get? o := by
  induction l generalizing m with
  | nil => intro _; rfl
  | cons x l ih =>
    intro h
    rw [List.foldl_cons, ih _ fun y hy => h y (List.mem_cons_of_mem _ hy), AMap.get?_insert,
      if_neg (h x List.mem_cons_self)]

/-- The offsets of the entries of a forest. -/
theorem inside_mem {anc f anc' o e} (h : Inside anc f anc' o e) (hf : f.Ok) : (o, some e) ∈ f.flatten := by
  induction h with
  | here => simp [Forest.flatten]
  | @child anc o e c z r anc' o' e' h ih =>
    have hc : e.hasChildren = true := by
      cases hc : e.hasChildren with
      | true => rfl
      | false => have := hf.1 hc; subst this; cases h
    simp [Forest.flatten, hc, ih hf.2.1]
  | next h ih => simp [Forest.flatten, ih hf.2.2]

theorem inserted_mem : ∀ (f : Forest) (anc : List Entry) (x : Nat × List Str), f.Ok → x ∈ inserted anc f →
    x.1 ∈ f.flatten.map Prod.fst
  | .nil, _, _, _, h => by cases h
  | .node o e c z r, anc, x, hf, h => by
    simp only [inserted, List.mem_append] at h
    rcases h with h | h | h
    · split at h
      · split at h
        · simp only [List.mem_singleton] at h
          subst h
          simp [Forest.flatten]
        · cases h
      · cases h
    · have := inserted_mem c _ x hf.2.1 h
      have hc : e.hasChildren = true := by
        cases hc : e.hasChildren with
        | true => rfl
        | false => have := hf.1 hc; subst this; cases h
      simp only [Forest.flatten, hc, if_true, List.map_cons, List.map_append, List.mem_cons, List.mem_append]
      exact .inr (.inl (.inl this))
    · have := inserted_mem r _ x hf.2.2 h
      simp only [Forest.flatten, List.map_cons, List.map_append, List.mem_cons, List.mem_append]
      exact .inr (.inr this)

theorem flatten_nodup {o e c z r} (h : ((Forest.node o e c z r).flatten.map Prod.fst).Nodup) (hf : (Forest.node o e c z r).Ok) :
    (c.flatten.map Prod.fst).Nodup ∧ (r.flatten.map Prod.fst).Nodup ∧ (∀ x ∈ c.flatten.map Prod.fst, x ≠ o) ∧
      (∀ x ∈ r.flatten.map Prod.fst, x ≠ o) ∧ ∀ x ∈ c.flatten.map Prod.fst, x ∉ r.flatten.map Prod.fst := by
  cases hc : e.hasChildren with
  | false =>
    have := hf.1 hc
    subst this
    simp only [Forest.flatten, hc, Bool.false_eq_true, if_false, List.nil_append, List.map_cons, List.nodup_cons] at h
    exact ⟨by simp [Forest.flatten], h.2, by simp [Forest.flatten], fun x hx e => h.1 (e ▸ hx), by simp [Forest.flatten]⟩
  | true =>
    simp only [Forest.flatten, hc, if_true, List.map_cons, List.map_append, List.nodup_cons, List.nodup_append,
      List.mem_append] at h
    obtain ⟨h1, ⟨h2, _, _⟩, h4, h5⟩ := h
    exact ⟨h2, h4, fun x hx e => h1 (.inl (.inl (e ▸ hx))), fun x hx e => h1 (.inr (e ▸ hx)),
      fun x hx hx' => h5 x (.inl hx) x hx' rfl⟩

/-- What is recorded for a function is the innermost open namespace. -/
theorem get_inserted : ∀ {anc : List Entry} {f : Forest} {anc' : List Entry} {o : Nat} {e : Entry},
    Inside anc f anc' o e → ∀ m : AMap Nat (List Str), f.Ok → (f.flatten.map Prod.fst).Nodup → e.tag = .subprogram →
    m.get? o = none →
    ((inserted anc f).foldl (fun m x => m.insert x.1 x.2) m).get? o = top (stackOf anc') := by
  intro anc f anc' o e h
  induction h with
  | @here anc o e c z r =>
    intro m hf hn ht hm
    obtain ⟨_, _, h3, h4, _⟩ := flatten_nodup hn hf
    simp only [inserted, if_pos ht, List.foldl_append]
    rw [get_inserts _ _ _ fun x hx => h4 _ (inserted_mem _ _ _ hf.2.2 hx),
      get_inserts _ _ _ fun x hx => h3 _ (inserted_mem _ _ _ hf.2.1 hx)]
    cases top (stackOf anc) with
    | none => exact hm
    | some ns => simp
  | @child anc o e c z r anc' o' e' h ih =>
    intro m hf hn ht hm
    obtain ⟨h1, h2, h3, h4, h5⟩ := flatten_nodup hn hf
    have ho := List.mem_map_of_mem (f := Prod.fst) (inside_mem h hf.2.1)
    simp only [inserted, List.foldl_append]
    rw [get_inserts _ _ _ fun x hx he => h5 _ ho (by rw [← he]; exact inserted_mem _ _ _ hf.2.2 hx)]
    refine ih _ hf.2.1 h1 ht ?_
    rw [get_inserts]
    · exact hm
    · intro x hx
      split at hx
      · split at hx
        · simp only [List.mem_singleton] at hx
          subst hx
          exact fun e => h3 _ ho e.symm
        · cases hx
      · cases hx
  | @next anc o e c z r anc' o' e' h ih =>
    intro m hf hn ht hm
    obtain ⟨h1, h2, h3, h4, h5⟩ := flatten_nodup hn hf
    have ho := List.mem_map_of_mem (f := Prod.fst) (inside_mem h hf.2.2)
    simp only [inserted, List.foldl_append]
    refine ih _ hf.2.2 h2 ht ?_
    rw [get_inserts _ _ _ fun x hx he => h5 _ (inserted_mem _ _ _ hf.2.1 hx) (by rw [he]; exact ho), get_inserts]
    · exact hm
    · intro x hx
      split at hx
      · split at hx
        · simp only [List.mem_singleton] at hx
          subst hx
          exact fun e => h4 _ ho e.symm
        · cases hx
      · cases hx

theorem Encodes.flat_nodup {u : DUnit} {f : Forest} (h : Encodes u f) : (f.flatten.map Prod.fst).Nodup := by
  obtain ⟨p, hp⟩ := h.items
  have := h.offsets
  rw [hp, List.map_append, List.nodup_append] at this
  exact this.1

theorem namespaces_get {u : DUnit} {f : Forest} {anc o e} (h : Encodes u f) (hi : Inside [] f anc o e)
    (ht : e.tag = .subprogram) : (namespaces u).get? o = top (stackOf anc) := by
  obtain ⟨p, hp⟩ := h.items
  unfold namespaces
  rw [hp, List.foldl_append, show (([] : AMap Nat (List Str)), ([] : List (Option (List Str)))) = ([], stackOf []) from rfl,
    nsStep_forest f [] [] h.ok, nsStep_padding]
  exact get_inserted hi [] h.ok h.flat_nodup ht rfl

/-! ## References -/

theorem find_unique : ∀ (l : List (Nat × Option Entry)) (x : Nat × Option Entry), (l.map Prod.fst).Nodup → x ∈ l →
    l.find? (fun i => i.1 = x.1) = some x
  | y :: l, x, hn, hx => by
    simp only [List.map_cons, List.nodup_cons] at hn
    rcases List.mem_cons.mp hx with rfl | hx
    · simp
    · rw [List.find?_cons_of_neg, find_unique l x hn.2 hx]
      simp only [decide_eq_true_eq]
      exact fun e => hn.1 (e ▸ List.mem_map_of_mem hx)

theorem entryAt_inside {u : DUnit} {f : Forest} {anc o e} (h : Encodes u f) (hi : Inside [] f anc o e) :
    entryAt u o = some (some e) := by
  obtain ⟨p, hp⟩ := h.items
  unfold entryAt
  rw [find_unique u.items (o, some e) h.offsets (by rw [hp]; exact List.mem_append_left _ (inside_mem hi h.ok))]
  rfl

theorem specRef_none {l : List Attr} (h : ∀ r, .spec r ∉ l) : specRef l = none := by
  unfold specRef
  rw [List.findSome?_eq_none_iff]
  intro a ha
  cases a <;> first | rfl | exact absurd ha (h _)

theorem specRef_some {a b : List Attr} {r : Ref} (h : ∀ r, .spec r ∉ a) : specRef (a ++ .spec r :: b) = some r := by
  have := specRef_none h
  unfold specRef at this ⊢
  rw [List.findSome?_append, this]
  rfl

theorem unitContaining_eq {pre post : List DUnit} {u : DUnit} {o : Nat} (h1 : ∀ v ∈ pre, v.start < o) (h2 : u.start < o)
    (h3 : ∀ v ∈ post, o ≤ v.start) : unitContaining (pre ++ u :: post) o = some u := by
  have e1 : pre.filter (fun u => decide (u.start < o)) = pre := List.filter_eq_self.mpr (by simpa using h1)
  have e2 : post.filter (fun u => decide (u.start < o)) = [] := by
    rw [List.filter_eq_nil_iff]
    intro v hv
    have := h3 v hv
    simp only [decide_eq_true_eq]
    omega
  unfold unitContaining
  rw [List.filter_append, List.filter_cons, e1, e2]
  simp [h2]

theorem World.Ordered.split : ∀ {w : World} {q : DUnit × Forest} {i : Nat × Option Entry}, w.Ordered → q ∈ w → i ∈ q.1.items →
    ∃ pre post, w.map Prod.fst = pre ++ q.1 :: post ∧ (∀ v ∈ pre, v.start < q.1.start) ∧
      (∀ v ∈ post, q.1.start + i.1 ≤ v.start) ∧ 0 < i.1
  | p :: w, q, i, h, hq, hi => by
    obtain ⟨h1, h2, h3, h4⟩ := h
    rcases List.mem_cons.mp hq with rfl | hq
    · refine ⟨[], w.map Prod.fst, rfl, by simp, fun v hv => ?_, h2 i hi⟩
      obtain ⟨r, hr, rfl⟩ := List.mem_map.mp hv
      exact Nat.le_of_lt (h1 r hr i hi)
    · obtain ⟨pre, post, g1, g2, g3, g4⟩ := World.Ordered.split h4 hq hi
      refine ⟨p.1 :: pre, post, by simp [g1], fun v hv => ?_, g3, g4⟩
      rcases List.mem_cons.mp hv with rfl | hv
      · exact h3 q hq
      · exact g2 v hv

/-- A reference to an entry of any unit is followed to the right unit and place. -/
theorem locate_refers {w : World} (hw : w.Ok) {p q : DUnit × Forest} {r : Ref} {anc o e} (h : Refers w p r q o)
    (hq : q ∈ w) (hi : Inside [] q.2 anc o e) : locate (w.map Prod.fst) p.1 r = some (q.1, o) := by
  cases h with
  | unit => rfl
  | info _ =>
    have he := hw.1 q hq
    obtain ⟨pd, hpd⟩ := he.items
    have hm : (o, some e) ∈ q.1.items := by rw [hpd]; exact List.mem_append_left _ (inside_mem hi he.ok)
    obtain ⟨pre, post, g1, g2, g3, g4⟩ := hw.2.split hq hm
    simp only [locate]
    simp only at g3 g4
    rw [g1, unitContaining_eq (fun v hv => Nat.lt_of_lt_of_le (g2 v hv) (by omega)) (by omega) g3]
    simp

/-! ## The scan -/

/-- The frame pushed for an entry, when `fs` are the frames around it. -/
def IsFrame (us : List DUnit) (u : DUnit) (m : AMap Nat (List Str)) (fs : List Frame) (e : Entry) (fr : Frame) : Prop :=
  if scanned e.tag = true then
    ∃ s, Res.loop (Scanner.handle us u m fs) {} e.attrs = .ok s ∧ fr = ⟨s.names, none, s.call⟩
  else fr = ⟨⟨none, none⟩, opens (fs.head?.bind Frame.ns) e, {}⟩

/-- The frames for the enclosing entries. -/
inductive FramesFor (us : List DUnit) (u : DUnit) (m : AMap Nat (List Str)) : List Entry → List Frame → Prop where
  | nil : FramesFor us u m [] []
  | cons {anc fs e fr} : FramesFor us u m anc fs → IsFrame us u m fs e fr → FramesFor us u m (e :: anc) (fr :: fs)

theorem framesFor_ns {us u m anc fs} (h : FramesFor us u m anc fs) : fs.head?.bind Frame.ns = top (stackOf anc) := by
  induction h with
  | nil => rfl
  | @cons anc fs e fr h hf ih =>
    simp only [List.head?_cons, Option.bind_some, top, stackOf, Option.join_some]
    unfold IsFrame at hf
    split at hf
    · rename_i hs
      obtain ⟨s, _, rfl⟩ := hf
      unfold opens
      rw [if_neg]
      rintro (h | h) <;> rw [h] at hs <;> exact absurd hs (by decide)
    · subst hf
      rw [ih]
      rfl

theorem currentNs_eq {us u m anc fs ns} (h : FramesFor us u m anc fs) (hs : Scopes anc ns) (hp : Plain anc) :
    currentNs fs = ns := by
  unfold currentNs
  rw [framesFor_ns h]
  exact scopes_top hs hp

/-- What scanning an entry adds. -/
structure Adds (us : List DUnit) (u : DUnit) (m : AMap Nat (List Str)) (fs : List Frame) (e : Entry) (s : Scanner)
    (inl : Option Inlined) (info : Option (Str × DebugInfo)) : Prop where
  tag : scanned e.tag = true
  attrs : Res.loop (Scanner.handle us u m fs) {} e.attrs = .ok s
  inlined : s.inlined u.compDir fs = .ok inl
  info : (if e.tag = .subprogram ∨ e.tag = .variable then (e.attrs.foldl SymScanner.handle {}).info u.compDir fs
      else .ok none) = .ok info

theorem scanEntry_ok {us u m} {st st' : Scan} {e : Entry} (h : scanEntry us u m st e = .ok st') :
    ∃ fr, IsFrame us u m st.frames e fr ∧ st'.frames = (if e.hasChildren then fr :: st.frames else st.frames) ∧
      ((scanned e.tag = false ∧ st'.inlined = st.inlined ∧ st'.debug = st.debug) ∨
        ∃ s inl info, Adds us u m st.frames e s inl info ∧ st'.inlined = st.inlined ++ inl.toList ∧
          st'.debug = st.debug ++ info.toList) := by
  unfold scanEntry at h
  simp only [] at h
  split at h
  · rename_i hs
    obtain ⟨s, h1, h⟩ := bind_ok h
    obtain ⟨inl, h2, h⟩ := bind_ok h
    obtain ⟨info, h3, h⟩ := bind_ok h
    cases h
    refine ⟨⟨s.names, none, s.call⟩, ?_, ?_, .inr ⟨s, inl, info, ⟨hs, h1, h2, h3⟩, ?_, ?_⟩⟩
    · unfold IsFrame
      rw [if_pos hs]
      exact ⟨s, h1, rfl⟩
    · split <;> rfl
    · split <;> rfl
    · split <;> rfl
  · rename_i hs
    cases h
    refine ⟨⟨⟨none, none⟩, opens (st.frames.head?.bind Frame.ns) e, {}⟩, ?_, ?_, .inl ⟨by simpa using hs, ?_, ?_⟩⟩
    · unfold IsFrame
      rw [if_neg hs]
    · split <;> rfl
    · split <;> rfl
    · split <;> rfl

/-- The results of scanning the entries `P`, when the state was `st` before and is `st'` after. -/
structure Results (us : List DUnit) (u : DUnit) (m : AMap Nat (List Str)) (P : List Entry → Entry → Prop) (st st' : Scan) :
    Prop where
  frames : st'.frames = st.frames
  inl : ∃ l, st'.inlined = st.inlined ++ l ∧ ∀ i ∈ l, ∃ anc e fs s info, P anc e ∧ FramesFor us u m anc fs ∧
    Adds us u m fs e s (some i) info
  dbg : ∃ l, st'.debug = st.debug ++ l ∧ ∀ d ∈ l, ∃ anc e fs s inl, P anc e ∧ FramesFor us u m anc fs ∧
    Adds us u m fs e s inl (some d)
  all : ∀ anc e, P anc e → ∃ fs, FramesFor us u m anc fs ∧ (scanned e.tag = true → ∃ s inl info,
    Adds us u m fs e s inl info ∧ (∀ i, inl = some i → i ∈ st'.inlined) ∧ ∀ d, info = some d → d ∈ st'.debug)

theorem Results.trans {us u m P Q st st1 st2} (h1 : Results us u m P st st1) (h2 : Results us u m Q st1 st2) :
    Results us u m (fun anc e => P anc e ∨ Q anc e) st st2 := by
  obtain ⟨l1, e1, a1⟩ := h1.inl
  obtain ⟨l2, e2, a2⟩ := h2.inl
  obtain ⟨k1, f1, b1⟩ := h1.dbg
  obtain ⟨k2, f2, b2⟩ := h2.dbg
  refine ⟨h2.frames.trans h1.frames, ⟨l1 ++ l2, by rw [e2, e1, List.append_assoc], ?_⟩,
    ⟨k1 ++ k2, by rw [f2, f1, List.append_assoc], ?_⟩, ?_⟩
  · intro i hi
    rcases List.mem_append.mp hi with hi | hi
    · obtain ⟨anc, e, fs, s, info, hp, g⟩ := a1 i hi
      exact ⟨anc, e, fs, s, info, .inl hp, g⟩
    · obtain ⟨anc, e, fs, s, info, hp, g⟩ := a2 i hi
      exact ⟨anc, e, fs, s, info, .inr hp, g⟩
  · intro i hi
    rcases List.mem_append.mp hi with hi | hi
    · obtain ⟨anc, e, fs, s, info, hp, g⟩ := b1 i hi
      exact ⟨anc, e, fs, s, info, .inl hp, g⟩
    · obtain ⟨anc, e, fs, s, info, hp, g⟩ := b2 i hi
      exact ⟨anc, e, fs, s, info, .inr hp, g⟩
  · rintro anc e (hp | hq)
    · obtain ⟨fs, g1, g2⟩ := h1.all anc e hp
      refine ⟨fs, g1, fun hs => ?_⟩
      obtain ⟨s, inl, info, g3, g4, g5⟩ := g2 hs
      exact ⟨s, inl, info, g3, fun i hi => by rw [e2]; exact List.mem_append_left _ (g4 i hi),
        fun i hi => by rw [f2]; exact List.mem_append_left _ (g5 i hi)⟩
    · exact h2.all anc e hq

theorem Results.mono {us u m P Q st st1} (h : Results us u m P st st1) (hpq : ∀ anc e, P anc e ↔ Q anc e) :
    Results us u m Q st st1 := by
  have : P = Q := by funext a e; exact propext (hpq a e)
  rwa [← this]

theorem scan_forest {us : List DUnit} {u : DUnit} {m : AMap Nat (List Str)} : ∀ (f : Forest) (anc : List Entry) (st : Scan)
    (rest : List (Nat × Option Entry)) (st' : Scan), f.Ok → FramesFor us u m anc st.frames →
    Res.loop (scanItem us u m) st (f.flatten ++ rest) = .ok st' →
    ∃ st1, Res.loop (scanItem us u m) st1 rest = .ok st' ∧
      Results us u m (fun anc' e => ∃ o, Inside anc f anc' o e) st st1
  | .nil, anc, st, rest, st', _, _, h =>
    ⟨st, h, rfl, ⟨[], by simp, by simp⟩, ⟨[], by simp, by simp⟩, by rintro _ _ ⟨_, h⟩; cases h⟩
  | .node o e c z r, anc, st, rest, st', hf, ha, h => by
    simp only [Forest.flatten, List.cons_append, Res.loop] at h
    obtain ⟨st1, h1, h2⟩ := bind_ok h
    obtain ⟨fr, g1, g2, g3⟩ := scanEntry_ok h1
    -- the entry itself
    have hself : ∀ st2 : Scan, st2.frames = st.frames → st2.inlined = st1.inlined → st2.debug = st1.debug →
        Results us u m (fun a x => a = anc ∧ x = e) st st2 := by
      intro st2 e1 e2 e3
      refine ⟨e1, ?_, ?_, ?_⟩
      · rcases g3 with ⟨_, k, _⟩ | ⟨s, inl, info, k1, k2, k3⟩
        · exact ⟨[], by simp [e2, k], by simp⟩
        · refine ⟨inl.toList, by rw [e2, k2], fun i hi => ?_⟩
          rw [Option.mem_toList] at hi
          exact ⟨anc, e, _, s, info, ⟨rfl, rfl⟩, ha, by rw [← show inl = some i from hi]; exact k1⟩
      · rcases g3 with ⟨_, _, k⟩ | ⟨s, inl, info, k1, k2, k3⟩
        · exact ⟨[], by simp [e3, k], by simp⟩
        · refine ⟨info.toList, by rw [e3, k3], fun i hi => ?_⟩
          rw [Option.mem_toList] at hi
          exact ⟨anc, e, _, s, inl, ⟨rfl, rfl⟩, ha, by rw [← show info = some i from hi]; exact k1⟩
      · rintro a x ⟨rfl, rfl⟩
        refine ⟨_, ha, fun hs => ?_⟩
        rcases g3 with ⟨k, _⟩ | ⟨s, inl, info, k1, k2, k3⟩
        · rw [k] at hs; cases hs
        · exact ⟨s, inl, info, k1, fun i hi => by rw [e2, k2, hi]; simp, fun i hi => by rw [e3, k3, hi]; simp⟩
    have hsplit : ∀ (a : List Entry) (x : Entry), (((a = anc ∧ x = e) ∨ ∃ o, Inside (e :: anc) c a o x) ∨
        ∃ o, Inside anc r a o x) ↔ ∃ o', Inside anc (.node o e c z r) a o' x := by
      intro a x
      constructor
      · rintro ((⟨rfl, rfl⟩ | ⟨o', h⟩) | ⟨o', h⟩)
        · exact ⟨o, .here⟩
        · exact ⟨o', .child h⟩
        · exact ⟨o', .next h⟩
      · rintro ⟨o', h⟩
        cases h with
        | here => exact .inl (.inl ⟨rfl, rfl⟩)
        | child h => exact .inl (.inr ⟨o', h⟩)
        | next h => exact .inr ⟨o', h⟩
    cases hc : e.hasChildren with
    | true =>
      rw [hc] at h2 g2
      simp only [if_true, List.append_assoc] at h2 g2
      obtain ⟨st2, h3, h4⟩ := scan_forest c (e :: anc) st1 _ st' hf.2.1 (by rw [g2]; exact .cons ha g1) h2
      simp only [List.cons_append, List.nil_append, Res.loop, scanItem, Res.bind] at h3
      have hfr : st2.frames.tail = st.frames := by rw [h4.frames, g2]; rfl
      obtain ⟨st3, h5, h6⟩ := scan_forest r anc { st2 with frames := st2.frames.tail } rest st' hf.2.2
        (by simp only [hfr]; exact ha) h3
      refine ⟨st3, h5, ?_⟩
      refine Results.mono (P := fun a x => ((a = anc ∧ x = e) ∨ ∃ o, Inside (e :: anc) c a o x) ∨
        ∃ o, Inside anc r a o x) ?_ hsplit
      refine Results.trans (Results.trans (hself { st1 with frames := st.frames } rfl rfl rfl) ?_) h6
      exact ⟨hfr, h4.inl, h4.dbg, h4.all⟩
    | false =>
      rw [hc] at h2 g2
      have hcn := hf.1 hc
      subst hcn
      simp only [Bool.false_eq_true, if_false, List.nil_append] at h2 g2
      obtain ⟨st3, h5, h6⟩ := scan_forest r anc st1 rest st' hf.2.2 (by rw [g2]; exact ha) h2
      refine ⟨st3, h5, ?_⟩
      refine Results.mono (P := fun a x => (a = anc ∧ x = e) ∨ ∃ o, Inside anc r a o x)
        (Results.trans (hself st1 g2 rfl rfl) h6) fun a x => ?_
      rw [← hsplit]
      constructor
      · rintro (h | h)
        · exact .inl (.inl h)
        · exact .inr h
      · rintro ((h | ⟨_, h⟩) | h)
        · exact .inl h
        · cases h
        · exact .inr h

theorem scan_padding {us u m} : ∀ (l : List Nat) (st st' : Scan),
    Res.loop (scanItem us u m) st (l.map (fun o => (o, none))) = .ok st' →
    st'.inlined = st.inlined ∧ st'.debug = st.debug
  | [], st, st', h => by cases h; exact ⟨rfl, rfl⟩
  | x :: l, st, st', h => scan_padding l { st with frames := st.frames.tail } st' h

/-- A unit that is not one of the standard library's: everything in it is scanned. -/
theorem scanUnit_ok {us : List DUnit} {isStd : Str → Bool} {st st' : Scan} {u : DUnit} {f : Forest} (he : Encodes u f)
    (hs : isStd u.compDir = false) (h : scanUnit us isStd st u = .ok st') :
    Results us u (namespaces u) (fun anc e => ∃ o, Inside [] f anc o e) { st with frames := [] }
      { st' with frames := [] } := by
  obtain ⟨p, hp⟩ := he.items
  unfold scanUnit at h
  rw [hs, hp] at h
  simp only [Bool.false_eq_true, if_false] at h
  obtain ⟨st1, h1, h2⟩ := scan_forest f [] _ _ st' he.ok .nil h
  obtain ⟨e1, e2⟩ := scan_padding p st1 st' h1
  have : ({ st' with frames := [] } : Scan) = { st1 with frames := [] } := by rw [e1, e2]
  rw [this]
  exact ⟨rfl, h2.inl, h2.dbg, h2.all⟩

/-- The whole scan: everything in every unit that is not the standard library's. -/
theorem scan_ok {isStd : Str → Bool} {us : List DUnit} : ∀ (w : World) (st st' : Scan), (∀ p ∈ w, Encodes p.1 p.2) →
    Res.loop (scanUnit us isStd) st (w.map Prod.fst) = .ok st' →
    (∀ i ∈ st.inlined, i ∈ st'.inlined) ∧ (∀ d ∈ st.debug, d ∈ st'.debug) ∧
      (∀ p ∈ w, isStd p.1.compDir = false → ∀ anc o e, Inside [] p.2 anc o e →
        ∃ fs, FramesFor us p.1 (namespaces p.1) anc fs ∧ (scanned e.tag = true → ∃ s inl info,
          Adds us p.1 (namespaces p.1) fs e s inl info ∧ (∀ i, inl = some i → i ∈ st'.inlined) ∧
            ∀ d, info = some d → d ∈ st'.debug)) ∧
      (∀ i ∈ st'.inlined, i ∈ st.inlined ∨ ∃ p ∈ w, isStd p.1.compDir = false ∧ ∃ anc o e fs s info,
        Inside [] p.2 anc o e ∧ FramesFor us p.1 (namespaces p.1) anc fs ∧
          Adds us p.1 (namespaces p.1) fs e s (some i) info) ∧
      (∀ d ∈ st'.debug, d ∈ st.debug ∨ ∃ p ∈ w, isStd p.1.compDir = false ∧ ∃ anc o e fs s inl,
        Inside [] p.2 anc o e ∧ FramesFor us p.1 (namespaces p.1) anc fs ∧
          Adds us p.1 (namespaces p.1) fs e s inl (some d))
  | [], st, st', _, h => by
    cases h
    exact ⟨fun _ h => h, fun _ h => h, by simp, fun _ h => .inl h, fun _ h => .inl h⟩
  | p :: w, st, st', he, h => by
    simp only [List.map_cons, Res.loop] at h
    obtain ⟨st1, h1, h2⟩ := bind_ok h
    obtain ⟨a1, a2, a3, a4, a5⟩ := scan_ok w st1 st' (fun q hq => he q (List.mem_cons_of_mem _ hq)) h2
    cases hs : isStd p.1.compDir with
    | true =>
      unfold scanUnit at h1
      rw [if_pos hs] at h1
      cases h1
      refine ⟨a1, a2, fun q hq hqs => ?_, fun i hi => ?_, fun i hi => ?_⟩
      · rcases List.mem_cons.mp hq with rfl | hq
        · rw [hs] at hqs; cases hqs
        · exact a3 q hq hqs
      · rcases a4 i hi with h | ⟨q, hq, g⟩
        · exact .inl h
        · exact .inr ⟨q, List.mem_cons_of_mem _ hq, g⟩
      · rcases a5 i hi with h | ⟨q, hq, g⟩
        · exact .inl h
        · exact .inr ⟨q, List.mem_cons_of_mem _ hq, g⟩
    | false =>
      have hr := scanUnit_ok (he p List.mem_cons_self) hs h1
      obtain ⟨l, e1, b1⟩ := hr.inl
      obtain ⟨k, e2, b2⟩ := hr.dbg
      simp only at e1 e2
      refine ⟨fun i hi => a1 i (by rw [e1]; exact List.mem_append_left _ hi),
        fun i hi => a2 i (by rw [e2]; exact List.mem_append_left _ hi), fun q hq hqs anc o e hi => ?_,
        fun i hi => ?_, fun i hi => ?_⟩
      · rcases List.mem_cons.mp hq with rfl | hq
        · obtain ⟨fs, c1, c2⟩ := hr.all anc e ⟨o, hi⟩
          refine ⟨fs, c1, fun ht => ?_⟩
          obtain ⟨s, inl, info, d1, d2, d3⟩ := c2 ht
          exact ⟨s, inl, info, d1, fun i h => a1 i (d2 i h), fun i h => a2 i (d3 i h)⟩
        · exact a3 q hq hqs anc o e hi
      · rcases a4 i hi with h | ⟨q, hq, g⟩
        · rw [e1] at h
          rcases List.mem_append.mp h with h | h
          · exact .inl h
          · obtain ⟨anc, e, fs, s, info, ⟨o, c1⟩, c2⟩ := b1 i h
            exact .inr ⟨p, List.mem_cons_self, hs, anc, o, e, fs, s, info, c1, c2⟩
        · exact .inr ⟨q, List.mem_cons_of_mem _ hq, g⟩
      · rcases a5 i hi with h | ⟨q, hq, g⟩
        · rw [e2] at h
          rcases List.mem_append.mp h with h | h
          · exact .inl h
          · obtain ⟨anc, e, fs, s, info, ⟨o, c1⟩, c2⟩ := b2 i h
            exact .inr ⟨p, List.mem_cons_self, hs, anc, o, e, fs, s, info, c1, c2⟩
        · exact .inr ⟨q, List.mem_cons_of_mem _ hq, g⟩

/-! ## References within a unit -/

theorem own_names {anc e x ns'} (h : Own anc e x) (hns : ∀ ns, Scopes anc ns → ns' = ns) : ownNames ns' e.attrs = x := by
  obtain ⟨h1, h2⟩ := own_eq h
  rw [ownNames_eq, ← h1]
  obtain ⟨sy, db⟩ := x
  rcases h2 with ⟨n, ns, h2, h3, h4⟩ | ⟨h2, h3⟩
  · simp only at h4
    rw [h2, h4, hns ns h3]
    rfl
  · simp only at h3
    rw [h2, h3]
    rfl

theorem refNames_eq {us : List DUnit} {u : DUnit} {m : AMap Nat (List Str)} {n : Nat} {r : Ref} {v : DUnit} {o : Nat} {e : Entry}
    (h1 : locate us u r = some (v, o)) (h2 : entryAt v o = some (some e)) :
    refNames us u m n r = match specRef e.attrs with
      | some r' => match n with
        | 0 => .err
        | d + 1 => refNames us u m d r'
      | none => .ok (ownNames ((m.get? o).getD []) e.attrs) := by
  rw [refNames.eq_def]
  simp only [h1, h2]
  cases specRef e.attrs <;> cases n <;> rfl

theorem refNames_local {w : World} {us : List DUnit} (hw : ∀ p ∈ w, Encodes p.1 p.2) {n : Nat} {p : DUnit × Forest} {r : Ref}
    {x : SymName} (h : Resolves w n p r x) : p ∈ w → SelfContained p.2 → (∃ o, r = .unit o) →
    refNames us p.1 (namespaces p.1) n r = .ok x := by
  induction h with
  | @own n p r q anc o e x h1 h2 h3 h4 h5 =>
    rintro hp hl ⟨o', rfl⟩
    cases h1
    rw [refNames_eq rfl (entryAt_inside (hw p hp) h2), specRef_none h4]
    simp only []
    rw [namespaces_get (hw p hp) h2 h3, own_names h5 fun ns hns => scopes_top hns (hl.2 _ _ _ h2 (.inl h3))]
  | @spec n p r q anc o e a b r' x h1 h2 h3 h4 h5 ih =>
    rintro hp hl ⟨o', rfl⟩
    cases h1
    rw [refNames_eq rfl (entryAt_inside (hw p hp) h2), h3, specRef_some h4]
    exact ih hp hl (hl.1 _ _ _ _ h2 (.inl (by rw [h3]; simp)))

/-! ## The attributes of an entry -/

theorem loop_append {σ α : Type} {f : σ → α → Res σ} : ∀ (a b : List α) (s s' : σ), Res.loop f s (a ++ b) = .ok s' →
    ∃ s1, Res.loop f s a = .ok s1 ∧ Res.loop f s1 b = .ok s'
  | [], b, s, s', h => ⟨s, rfl, h⟩
  | x :: a, b, s, s', h => by
    simp only [List.cons_append, Res.loop] at h ⊢
    obtain ⟨s1, h1, h2⟩ := bind_ok h
    obtain ⟨s2, h3, h4⟩ := loop_append a b s1 s' h2
    exact ⟨s2, by rw [h1]; exact h3, h4⟩

theorem loop_last {σ α : Type} {f : σ → Attr → Res σ} {g : σ → Option α} {k : Attr → Option (Option α)}
    (hk : ∀ s a s', f s a = .ok s' → g s' = (k a).getD (g s)) : ∀ (l : List Attr) (s s' : σ), Res.loop f s l = .ok s' →
    (g s' = g s ∧ ∀ a ∈ l, k a = none) ∨ ∃ a b c, l = a ++ b :: c ∧ k b = some (g s') ∧ ∀ d ∈ c, k d = none
  | [], s, s', h => by cases h; exact .inl ⟨rfl, by simp⟩
  | x :: l, s, s', h => by
    simp only [Res.loop] at h
    obtain ⟨s1, h1, h2⟩ := bind_ok h
    rcases loop_last hk l s1 s' h2 with ⟨g1, g2⟩ | ⟨a, b, c, g1, g2, g3⟩
    · cases hx : k x with
      | none =>
        refine .inl ⟨by rw [g1, hk _ _ _ h1, hx]; rfl, fun a ha => ?_⟩
        rcases List.mem_cons.mp ha with rfl | ha
        · exact hx
        · exact g2 a ha
      | some v => exact .inr ⟨[], x, l, rfl, by rw [g1, hk _ _ _ h1, hx]; rfl, g2⟩
    · exact .inr ⟨x :: a, b, c, by rw [g1]; rfl, g2, g3⟩

theorem lastOf_loop {σ α : Type} {f : σ → Attr → Res σ} {g : σ → Option α} {k : Attr → Option (Option α)}
    (hk : ∀ s a s', f s a = .ok s' → g s' = (k a).getD (g s)) {l : List Attr} {s s' : σ} (h0 : g s = none)
    (h : Res.loop f s l = .ok s') : LastOf k l (g s') := by
  rcases loop_last hk l s s' h with ⟨h1, h2⟩ | h
  · exact .inl ⟨by rw [h1, h0], h2⟩
  · exact .inr h

theorem lastOf_unique {α : Type} {k : Attr → Option (Option α)} : ∀ {l : List Attr} {x y : Option α}, LastOf k l x →
    LastOf k l y → x = y := by
  have key : ∀ (a a' : List Attr) {b b' : Attr} {c c' : List Attr} {x y : Option α}, a ++ b :: c = a' ++ b' :: c' →
      k b = some x → k b' = some y → (∀ d ∈ c, k d = none) → (∀ d ∈ c', k d = none) → x = y := by
    intro a
    induction a with
    | nil =>
      intro a' b b' c c' x y h hb hb' hc hc'
      cases a' with
      | nil =>
        simp only [List.nil_append, List.cons.injEq] at h
        rw [h.1, hb'] at hb
        cases hb; rfl
      | cons z a' =>
        simp only [List.nil_append, List.cons_append, List.cons.injEq] at h
        have := hc b' (by rw [h.2]; simp)
        rw [this] at hb'; cases hb'
    | cons z a ih =>
      intro a' b b' c c' x y h hb hb' hc hc'
      cases a' with
      | nil =>
        simp only [List.nil_append, List.cons_append, List.cons.injEq] at h
        have := hc' b (by rw [← h.2]; simp)
        rw [this] at hb; cases hb
      | cons z' a' =>
        simp only [List.cons_append, List.cons.injEq] at h
        exact ih a' h.2 hb hb' hc hc'
  intro l x y hx hy
  rcases hx with ⟨rfl, hx⟩ | ⟨a, b, c, h1, h2, h3⟩
  · rcases hy with ⟨rfl, _⟩ | ⟨a, b, c, h1, h2, h3⟩
    · rfl
    · rw [hx b (by rw [h1]; simp)] at h2; cases h2
  · rcases hy with ⟨_, hy⟩ | ⟨a', b', c', g1, g2, g3⟩
    · rw [hy b (by rw [h1]; simp)] at h2; cases h2
    · exact key a a' (h1.symm.trans g1) h2 g2 h3 g3

theorem handle_names {us u m fs} {s s' : Scanner} {a : Attr} (h : Scanner.handle us u m fs s a = .ok s')
    (ha : ∀ r, a ≠ .origin r) : s'.names = ownStep (currentNs fs) s.names a := by
  cases a with
  | origin r => exact absurd rfl (ha r)
  | callFile f => cases f <;> cases h; rfl
  | ranges f => cases f <;> cases h <;> rfl
  | _ => cases h; rfl

theorem loop_names {us u m fs} : ∀ (l : List Attr) (s s' : Scanner), Res.loop (Scanner.handle us u m fs) s l = .ok s' →
    (∀ r, .origin r ∉ l) → s'.names = l.foldl (ownStep (currentNs fs)) s.names
  | [], s, s', h, _ => by cases h; rfl
  | a :: l, s, s', h, hl => by
    simp only [Res.loop] at h
    obtain ⟨s1, h1, h2⟩ := bind_ok h
    rw [loop_names l s1 s' h2 fun r hr => hl r (List.mem_cons_of_mem _ hr),
      handle_names h1 fun r hr => hl r (by rw [hr]; exact List.mem_cons_self)]
    rfl

theorem fold_ownStep (ns : List Str) : ∀ (l : List Attr) (x : SymName), (∀ n, .name n ∉ l) → (∀ n, .linkage n ∉ l) →
    l.foldl (ownStep ns) x = x
  | [], _, _, _ => rfl
  | a :: l, x, h1, h2 => by
    rw [List.foldl_cons, fold_ownStep ns l _ (fun n hn => h1 n (List.mem_cons_of_mem _ hn))
      fun n hn => h2 n (List.mem_cons_of_mem _ hn)]
    cases a with
    | name n => exact absurd List.mem_cons_self (h1 n)
    | linkage n => exact absurd List.mem_cons_self (h2 n)
    | _ => rfl

theorem handle_address {us u m fs} (s : Scanner) (a : Attr) (s' : Scanner) (h : Scanner.handle us u m fs s a = .ok s') :
    s'.lowPc = (address a).getD s.lowPc := by
  cases a with
  | origin r => obtain ⟨x, _, h⟩ := bind_ok h; cases h; rfl
  | callFile f => cases f <;> cases h; rfl
  | ranges f => cases f <;> cases h <;> rfl
  | _ => cases h; rfl

theorem handle_line {us u m fs} (s : Scanner) (a : Attr) (s' : Scanner) (h : Scanner.handle us u m fs s a = .ok s') :
    s'.call.line = (callLine a).getD s.call.line := by
  cases a with
  | origin r => obtain ⟨x, _, h⟩ := bind_ok h; cases h; rfl
  | callFile f => cases f <;> cases h; rfl
  | ranges f => cases f <;> cases h <;> rfl
  | _ => cases h; rfl

theorem handle_column {us u m fs} (s : Scanner) (a : Attr) (s' : Scanner) (h : Scanner.handle us u m fs s a = .ok s') :
    s'.call.column = (callColumn a).getD s.call.column := by
  cases a with
  | origin r => obtain ⟨x, _, h⟩ := bind_ok h; cases h; rfl
  | callFile f => cases f <;> cases h; rfl
  | ranges f => cases f <;> cases h <;> rfl
  | _ => cases h; rfl

theorem handle_file {us u m fs} (s : Scanner) (a : Attr) (s' : Scanner) (h : Scanner.handle us u m fs s a = .ok s') :
    (s'.call.file.map fun f => (s'.call.dir, f)) = (callFile a).getD (s.call.file.map fun f => (s.call.dir, f)) := by
  cases a with
  | origin r => obtain ⟨x, _, h⟩ := bind_ok h; cases h; rfl
  | callFile f => cases f <;> cases h; rfl
  | ranges f => cases f <;> cases h <;> rfl
  | _ => cases h; rfl

theorem handle_dir {us u m fs} (s : Scanner) (a : Attr) (s' : Scanner) (h : Scanner.handle us u m fs s a = .ok s')
    (hs : s.call.file = none → s.call.dir = none) : s'.call.file = none → s'.call.dir = none := by
  cases a with
  | origin r => obtain ⟨x, _, h⟩ := bind_ok h; cases h; exact hs
  | callFile f => cases f <;> cases h; intro h; cases h
  | ranges f => cases f <;> cases h <;> exact hs
  | _ => cases h; exact hs

/-- The place of the call that an entry says. -/
theorem callPlace_of {us u m fs} {e : Entry} {s : Scanner} (h : Res.loop (Scanner.handle us u m fs) {} e.attrs = .ok s)
    (dir : Str) : CallPlace dir e (s.call.location dir) := by
  refine ⟨_, _, _, lastOf_loop handle_file rfl h, lastOf_loop handle_line rfl h, lastOf_loop handle_column rfl h, ?_⟩
  have hd : s.call.file = none → s.call.dir = none :=
    loop_inv (I := fun s : Scanner => s.call.file = none → s.call.dir = none) e.attrs {} s
      (fun s a s' _ hs ha => handle_dir s a s' ha hs) (fun _ => rfl) h
  unfold Call.location
  cases hl : s.call.line with
  | none => rfl
  | some l =>
    cases hf : s.call.file with
    | none => rw [hd hf]; rfl
    | some f => cases s.call.dir <;> simp only [pushPath_eq] <;> rfl

theorem callPlace_unique {dir : Str} {e : Entry} {x y : Option SourceLoc} (hx : CallPlace dir e x) (hy : CallPlace dir e y) :
    x = y := by
  obtain ⟨a, b, c, h1, h2, h3, h4⟩ := hx
  obtain ⟨a', b', c', g1, g2, g3, g4⟩ := hy
  rw [h4, g4, lastOf_unique h1 g1, lastOf_unique h2 g2, lastOf_unique h3 g3]

theorem scanned_iff (e : Entry) : scanned e.tag = true ↔ IsCode e := by
  unfold scanned IsCode
  cases e.tag <;> simp

/-- The names found for an entry are its names. -/
theorem scanner_names {w : World} (hw : ∀ p ∈ w, Encodes p.1 p.2) {p : DUnit × Forest} (hp : p ∈ w) (hl : SelfContained p.2)
    {us anc o e fs s x} (hi : Inside [] p.2 anc o e) (hf : FramesFor us p.1 (namespaces p.1) anc fs)
    (hs : Res.loop (Scanner.handle us p.1 (namespaces p.1) fs) {} e.attrs = .ok s) (hc : IsCode e) (hcl : Clean e)
    (hx : EntryNames w p anc e x) : s.names = x := by
  have horigin : ∀ r, .origin r ∈ e.attrs → Resolves w 10 p r x → s.names = x := by
    intro r hr hres
    rcases hcl.2 with h | ⟨h1, h2, a, r', b, h3, h4, h5⟩
    · exact absurd hr (h r)
    · have : r = r' := by
        rw [h3] at hr
        rcases List.mem_append.mp hr with hr | hr
        · exact absurd hr (h4 r)
        · rcases List.mem_cons.mp hr with hr | hr
          · cases hr; rfl
          · exact absurd hr (h5 r)
      subst this
      have hloc := hl.1 _ _ _ _ hi (.inr hr)
      rw [h3] at hs
      obtain ⟨s1, g1, g2⟩ := loop_append _ _ _ _ hs
      simp only [Res.loop, Scanner.handle] at g2
      obtain ⟨s2, g3, g4⟩ := bind_ok g2
      obtain ⟨y, g5, g6⟩ := bind_ok g3
      rw [refNames_local hw hres hp hl hloc] at g5
      cases g5
      cases g6
      rw [loop_names b _ _ g4 h5]
      unfold NoName at h1
      unfold NoLinkage at h2
      rw [h3] at h1 h2
      exact fold_ownStep _ b _ (fun n hn => h1 n (by simp [hn])) fun n hn => h2 n (by simp [hn])
  cases hx with
  | own _ h1 h2 h3 =>
    rw [loop_names _ _ _ hs h1]
    exact own_names h3 fun ns hns => currentNs_eq hf hns (hl.2 _ _ _ hi hc)
  | origin _ h1 h2 => exact horigin _ h1 h2
  | spec _ h1 _ => exact absurd h1 (hcl.1 _)
  | none h => exact absurd hc h

theorem inside_parent {anc0 f anc' o e} (h : Inside anc0 f anc' o e) : ∀ a rest, anc' = a :: rest →
    anc' = anc0 ∨ ∃ o', Inside anc0 f rest o' a := by
  induction h with
  | here => intro a rest _; exact .inl rfl
  | child h ih =>
    intro a rest hr
    rcases ih a rest hr with h | ⟨o', h⟩
    · rw [hr] at h
      cases h
      exact .inr ⟨_, .here⟩
    · exact .inr ⟨o', .child h⟩
  | next h ih =>
    intro a rest hr
    rcases ih a rest hr with h | ⟨o', h⟩
    · exact .inl h
    · exact .inr ⟨o', .next h⟩

/-- The entry that encloses an entry. -/
theorem inside_up {f a anc o e} (h : Inside [] f (a :: anc) o e) : ∃ o', Inside [] f anc o' a := by
  rcases inside_parent h a anc rfl with h | h
  · cases h
  · exact h

theorem frame_names {w : World} (hw : ∀ p ∈ w, Encodes p.1 p.2) {p : DUnit × Forest} (hp : p ∈ w) (hl : SelfContained p.2)
    {us anc o e fs fr x} (hi : Inside [] p.2 anc o e) (hf : FramesFor us p.1 (namespaces p.1) anc fs)
    (hfr : IsFrame us p.1 (namespaces p.1) fs e fr) (hcl : IsCode e → Clean e) (hx : EntryNames w p anc e x) :
    fr.names = x := by
  unfold IsFrame at hfr
  by_cases hc : IsCode e
  · rw [if_pos ((scanned_iff e).mpr hc)] at hfr
    obtain ⟨s, h1, rfl⟩ := hfr
    exact scanner_names hw hp hl hi hf h1 hc (hcl hc) hx
  · rw [if_neg (fun h => hc ((scanned_iff e).mp h))] at hfr
    subst hfr
    cases hx with
    | own h | origin h | spec h => exact absurd h hc
    | none => rfl

theorem named_iff (x : SymName) : (x.symbol.isSome = true ∨ x.debug.isSome = true) ↔ Named x := Iff.rfl

/-- The caller that is found is the specified one. -/
theorem caller_of {w : World} (hw : ∀ p ∈ w, Encodes p.1 p.2) {p : DUnit × Forest} (hp : p ∈ w) (hl : SelfContained p.2)
    {us : List DUnit} {e : Entry} {anc : List Entry} {y : SymName} {c : Entry} (h : CalledBy w p e anc y c) :
    ∀ (o : Nat) (x : Entry) (fs : List Frame) (call : Call), Inside [] p.2 anc o x →
    FramesFor us p.1 (namespaces p.1) anc fs → (∀ a ∈ anc, IsCode a → Clean a) → CallPlace p.1.compDir e (call.location p.1.compDir) →
    ∃ call', caller call fs = .ok (some (y, call')) ∧ CallPlace p.1.compDir c (call'.location p.1.compDir) := by
  induction h with
  | @found e a anc y h1 h2 h3 =>
    intro o x fs call hi hf hcl hcall
    obtain ⟨o', hi'⟩ := inside_up hi
    cases hf with
    | @cons _ fs _ fr hf hfr =>
    have hn := frame_names hw hp hl hi' hf hfr (hcl a List.mem_cons_self) h1
    refine ⟨call, ?_, hcall⟩
    unfold caller
    rw [hn, if_pos ((named_iff y).mpr h2)]
    cases hs : y.symbol with
    | none => rfl
    | some s => simp only []; rw [h3 s hs]; rfl
  | @block e a anc z y c h1 h2 h3 ih =>
    intro o x fs call hi hf hcl hcall
    obtain ⟨o', hi'⟩ := inside_up hi
    cases hf with
    | @cons _ fs _ fr hf hfr =>
    have hn := frame_names hw hp hl hi' hf hfr (hcl a List.mem_cons_self) h1
    obtain ⟨call', g1, g2⟩ := ih o' a fs call hi' hf (fun b hb => hcl b (List.mem_cons_of_mem _ hb)) hcall
    refine ⟨call', ?_, g2⟩
    unfold caller
    rw [hn, if_neg (fun h => h2 ((named_iff z).mp h))]
    exact g1
  | @through e a anc z y c h1 h2 h3 ih =>
    intro o x fs call hi hf hcl hcall
    obtain ⟨o', hi'⟩ := inside_up hi
    cases hf with
    | @cons _ fs _ fr hf hfr =>
    have hn := frame_names hw hp hl hi' hf hfr (hcl a List.mem_cons_self) h1
    obtain ⟨s, hs, hlt⟩ := h2
    have hc : IsCode a := by
      cases h1 with
      | own h | origin h | spec h => exact h
      | none => cases hs
    have hplace : CallPlace p.1.compDir a (fr.call.location p.1.compDir) := by
      unfold IsFrame at hfr
      rw [if_pos ((scanned_iff a).mpr hc)] at hfr
      obtain ⟨s, h1, rfl⟩ := hfr
      exact callPlace_of h1 _
    obtain ⟨call', g1, g2⟩ := ih o' a fs fr.call hi' hf (fun b hb => hcl b (List.mem_cons_of_mem _ hb)) hplace
    refine ⟨call', ?_, g2⟩
    unfold caller
    rw [hn, if_pos (Or.inl (by rw [hs]; rfl)), hs]
    simp only []
    rw [hlt]
    exact g1

/-- The caller that is found satisfies the specification, if all names can be found. -/
theorem caller_sound {w : World} (hw : ∀ p ∈ w, Encodes p.1 p.2) {p : DUnit × Forest} (hp : p ∈ w) (hl : SelfContained p.2)
    {us : List DUnit} (hcl : ∀ anc o a, Inside [] p.2 anc o a → IsCode a → Clean a)
    (hres : ∀ anc o a, Inside [] p.2 anc o a → ∃ x, EntryNames w p anc a x) {y : SymName} {call' : Call} :
    ∀ {anc : List Entry} {fs : List Frame}, FramesFor us p.1 (namespaces p.1) anc fs → ∀ (e : Entry) (o : Nat) (x : Entry) (call : Call),
    Inside [] p.2 anc o x → CallPlace p.1.compDir e (call.location p.1.compDir) → caller call fs = .ok (some (y, call')) →
    ∃ c, CalledBy w p e anc y c ∧ CallPlace p.1.compDir c (call'.location p.1.compDir) := by
  intro anc fs hf
  induction hf with
  | nil => intro e o x call _ _ h; cases h
  | @cons anc fs a fr hf hfr ih =>
    intro e o x call hi hcall h
    obtain ⟨o', hi'⟩ := inside_up hi
    obtain ⟨z, hz⟩ := hres _ _ _ hi'
    have hn := frame_names hw hp hl hi' hf hfr (hcl _ _ _ hi') hz
    unfold caller at h
    rw [hn] at h
    split at h
    · rename_i hnamed
      cases hs : z.symbol with
      | none =>
        rw [hs] at h
        cases h
        exact ⟨e, .found hz hnamed (fun s h => by rw [hs] at h; cases h), hcall⟩
      | some s =>
        rw [hs] at h
        simp only [] at h
        obtain ⟨b, hb, h⟩ := bind_ok h
        cases b with
        | true =>
          have hc : IsCode a := by
            cases hz with
            | own h | origin h | spec h => exact h
            | none => cases hs
          have hplace : CallPlace p.1.compDir a (fr.call.location p.1.compDir) := by
            unfold IsFrame at hfr
            rw [if_pos ((scanned_iff a).mpr hc)] at hfr
            obtain ⟨s, h1, rfl⟩ := hfr
            exact callPlace_of h1 _
          obtain ⟨c, g1, g2⟩ := ih a o' a fr.call hi' hplace h
          exact ⟨c, .through hz ⟨s, hs, hb⟩ g1, g2⟩
        | false =>
          cases h
          exact ⟨e, .found hz hnamed (fun s' h' => by rw [hs] at h'; cases h'; exact hb), hcall⟩
    · rename_i hnamed
      obtain ⟨c, g1, g2⟩ := ih e o' a call hi' hcall h
      exact ⟨c, .block hz hnamed g1, g2⟩

theorem handle_start {us u m fs} (s : Scanner) (a : Attr) (s' : Scanner) (h : Scanner.handle us u m fs s a = .ok s') :
    s'.symbolStart = s.symbolStart ∨ (s.symbolStart = none ∧ a = .lowPc s'.symbolStart) := by
  cases a with
  | origin r => obtain ⟨x, _, h⟩ := bind_ok h; cases h; exact .inl rfl
  | callFile f => cases f <;> cases h; exact .inl rfl
  | ranges f => cases f <;> cases h <;> exact .inl rfl
  | lowPc a =>
    cases h
    cases hs : s.symbolStart with
    | none => exact .inr ⟨rfl, by simp⟩
    | some b => exact .inl (by simp)
  | _ => cases h; exact .inl rfl

/-- The start that is recorded is an address the entry says. -/
theorem start_mem {us u m fs} {l : List Attr} {s : Scanner} {a : Nat}
    (h : Res.loop (Scanner.handle us u m fs) {} l = .ok s) (ha : s.symbolStart = some a) : .lowPc (some a) ∈ l := by
  have := loop_inv (I := fun s : Scanner => ∀ a, s.symbolStart = some a → .lowPc (some a) ∈ l) l {} s
    (fun s x s' hx hs hh a ha => ?_) (fun a h => by cases h) h
  · exact this a ha
  · rcases handle_start s x s' hh with h | ⟨_, h⟩
    · exact hs a (h ▸ ha)
    · rw [ha] at h; rw [← h]; exact hx

/-- An entry that says the low end of its code has a start recorded. -/
theorem start_some {us u m fs} {a : Nat} : ∀ (l : List Attr) (s0 s : Scanner),
    Res.loop (Scanner.handle us u m fs) s0 l = .ok s → s0.symbolStart.isSome = true ∨ .lowPc (some a) ∈ l →
    s.symbolStart.isSome = true
  | [], s0, s, h, ha => by
    cases h
    rcases ha with ha | ha
    · exact ha
    · cases ha
  | x :: l, s0, s, h, ha => by
    simp only [Res.loop] at h
    obtain ⟨s1, h1, h2⟩ := bind_ok h
    refine start_some (a := a) l s1 s h2 ?_
    rcases ha with ha | ha
    · rcases handle_start s0 x s1 h1 with h | ⟨h, _⟩
      · exact .inl (h ▸ ha)
      · rw [h] at ha; cases ha
    · rcases List.mem_cons.mp ha with rfl | ha
      · refine .inl ?_
        simp only [Scanner.handle] at h1
        cases h1
        cases s0.symbolStart <;> simp
      · exact .inr ha

/-- What the scan of one entry gives, if it gives something. -/
theorem inlined_some {s : Scanner} {dir : Str} {fs : List Frame} {i : Inlined} (h : s.inlined dir fs = .ok (some i)) :
    Named s.names ∧ s.lowPc = some i.address ∧ s.symbolStart = some i.symbolStart ∧ 1 < i.address ∧ i.to = s.names ∧
      ∃ call, caller s.call fs = .ok (some (i.from_, call)) ∧ i.loc = call.location dir := by
  unfold Scanner.inlined at h
  split at h
  · cases h
  · rename_i hn
    cases hpc : s.lowPc with
    | none => rw [hpc] at h; cases h
    | some pc =>
      cases hst : s.symbolStart with
      | none => rw [hpc, hst] at h; cases h
      | some start =>
        rw [hpc, hst] at h
        simp only [] at h
        split at h
        · cases h
        · rename_i h01
          obtain ⟨r, h1, h2⟩ := bind_ok h
          cases r with
          | none => cases h2
          | some r =>
            cases h2
            refine ⟨?_, rfl, rfl, by simp only; omega, rfl, r.2, h1, rfl⟩
            unfold Named
            cases h5 : s.names.symbol with
            | some _ => exact .inl rfl
            | none =>
              cases h6 : s.names.debug with
              | some _ => exact .inr rfl
              | none => exact absurd ⟨by rw [h6]; rfl, by rw [h5]; rfl⟩ hn

theorem inlined_of {s : Scanner} {dir : Str} {fs : List Frame} {pc start : Nat} {y : SymName} {call : Call} (h1 : Named s.names)
    (h2 : s.lowPc = some pc) (h3 : s.symbolStart = some start) (h4 : 1 < pc) (h5 : caller s.call fs = .ok (some (y, call))) :
    s.inlined dir fs = .ok (some ⟨pc, start, y, s.names, call.location dir⟩) := by
  unfold Scanner.inlined
  rw [if_neg, h2, h3]
  · simp only []
    rw [if_neg (by omega), h5]
    rfl
  · rintro ⟨h6, h7⟩
    rcases h1 with h | h
    · cases hs : s.names.symbol <;> rw [hs] at h h7
      · cases h
      · cases h7
    · cases hs : s.names.debug <;> rw [hs] at h h6
      · cases h
      · cases h6

/-! ## Declarations -/

/-- The declaration scan as a loop, so that the lemmas about loops apply. -/
theorem symLoop (l : List Attr) (s : SymScanner) :
    Res.loop (fun s a => .ok (SymScanner.handle s a)) s l = .ok (l.foldl SymScanner.handle s) := by
  induction l generalizing s with
  | nil => rfl
  | cons a l ih => exact ih _

theorem sym_line (l : List Attr) : LastOf declLine l (l.foldl SymScanner.handle {}).line :=
  lastOf_loop (g := SymScanner.line) (fun s a s' h => by cases h; cases a <;> rfl) rfl (symLoop l {})

theorem sym_column (l : List Attr) : LastOf declColumn l (l.foldl SymScanner.handle {}).column :=
  lastOf_loop (g := SymScanner.column) (fun s a s' h => by cases h; cases a <;> rfl) rfl (symLoop l {})

theorem sym_file (l : List Attr) : LastOf declFile l (l.foldl SymScanner.handle {}).file :=
  lastOf_loop (g := SymScanner.file) (fun s a s' h => by cases h; cases a <;> rfl) rfl (symLoop l {})

theorem sym_name (l : List Attr) : (l.foldl SymScanner.handle {}).name = nameAttr l := by
  have key : ∀ (l : List Attr) (s : SymScanner), (l.foldl SymScanner.handle s).name = l.foldl nameStep s.name := by
    intro l
    induction l with
    | nil => intro s; rfl
    | cons a l ih => intro s; rw [List.foldl_cons, ih, List.foldl_cons]; cases a <;> rfl
  exact key l {}

theorem sym_linkage (l : List Attr) : (l.foldl SymScanner.handle {}).linkage = linkageAttr l := by
  have key : ∀ (l : List Attr) (s : SymScanner), (l.foldl SymScanner.handle s).linkage = l.foldl linkageStep s.linkage := by
    intro l
    induction l with
    | nil => intro s; rfl
    | cons a l ih => intro s; rw [List.foldl_cons, ih, List.foldl_cons]; cases a <;> rfl
  exact key l {}

theorem hasLinkage_of {e : Entry} {n : Str} (h : linkageAttr e.attrs = some n) : HasLinkage e n := by
  have key : ∀ l : List Attr, linkageAttr l = some n → ∃ a b, l = a ++ .linkage n :: b ∧ ∀ m, .linkage m ∉ b := by
    intro l
    induction l with
    | nil => intro h; cases h
    | cons x l ih =>
      intro h
      rw [show x :: l = [x] ++ l from rfl, linkageAttr_append] at h
      cases hl : linkageAttr l with
      | some m =>
        rw [hl] at h
        cases h
        obtain ⟨a, b, h1, h2⟩ := ih hl
        exact ⟨x :: a, b, by rw [h1]; rfl, h2⟩
      | none =>
        rw [hl] at h
        cases x <;> first
          | (cases h; exact ⟨[], l, rfl, linkageAttr_none.mp hl⟩)
          | cases h
  exact key _ h

/-- What is recorded for a declaration. -/
theorem info_iff {us u m anc fs} {e : Entry} {sym : Str} {info : DebugInfo} (ht : e.tag = .subprogram ∨ e.tag = .variable)
    (hf : FramesFor us u m anc fs) (hp : Plain anc) :
    (e.attrs.foldl SymScanner.handle {}).info u.compDir fs = .ok (some (sym, info)) ↔
      Declares u.compDir anc e sym info := by
  obtain ⟨ns, hns⟩ := scopes_exists anc
  have hcur := currentNs_eq hf hns hp
  have hl := sym_line e.attrs
  have hc := sym_column e.attrs
  have hfl := sym_file e.attrs
  have hn := sym_name e.attrs
  have hk := sym_linkage e.attrs
  generalize e.attrs.foldl SymScanner.handle {} = s at hl hc hfl hn hk
  obtain ⟨name, linkage, line, column, file⟩ := s
  simp only at hl hc hfl hn hk
  constructor
  · intro h
    unfold SymScanner.info at h
    simp only at h
    cases hsym : linkage.or name with
    | none => rw [hsym] at h; cases h
    | some sy =>
      cases line with
      | none => rw [hsym] at h; cases h
      | some line =>
        cases file with
        | none => rw [hsym] at h; cases h
        | some file =>
          cases file with
          | none => rw [hsym] at h; cases h
          | some f =>
            rw [hsym] at h
            cases h
            refine ⟨ht, ?_, ⟨f.1, f.2, line, column, hfl, hl, hc, ?_⟩, ?_⟩
            · cases hlk : linkage with
              | some l =>
                rw [hlk] at hsym
                cases hsym
                exact .inl (hasLinkage_of (by rw [← hk, hlk]))
              | none =>
                rw [hlk] at hsym
                exact .inr ⟨linkageAttr_none.mp (by rw [← hk, hlk]), hasName_of (by rw [← hn]; exact hsym)⟩
            · obtain ⟨d, n⟩ := f
              cases d <;> simp only [pushPath_eq]
            · cases hnm : name with
              | some n => exact .inl ⟨n, ns, hasName_of (by rw [← hn, hnm]), hns, by rw [hcur]; rfl⟩
              | none => exact .inr ⟨nameAttr_none.mp (by rw [← hn, hnm]), rfl⟩
  · rintro ⟨_, h2, ⟨d, n, line', column', h3, h4, h5, h6⟩, h7⟩
    have e1 := lastOf_unique hfl h3
    have e2 := lastOf_unique hl h4
    have e3 := lastOf_unique hc h5
    subst e1 e2 e3
    have hsym : linkage.or name = some sym := by
      rcases h2 with h | ⟨h, h'⟩
      · rw [hk, linkageAttr_some h]; rfl
      · rw [hk, linkageAttr_none.mpr h, hn, nameAttr_some h']; rfl
    have hname : name.map (fun n => (⟨ns, n⟩ : Dbg)) = info.name := by
      rcases h7 with ⟨n', ns', g1, g2, g3⟩ | ⟨g1, g2⟩
      · have : ns' = ns := by rw [← hcur]; exact (currentNs_eq hf g2 hp).symm
        rw [hn, nameAttr_some g1, g3, this]; rfl
      · rw [hn, nameAttr_none.mpr g1, g2]; rfl
    unfold SymScanner.info
    simp only [hsym, hcur, hname]
    obtain ⟨loc, nm⟩ := info
    simp only at h6
    rw [h6]
    cases d <;> simp only [pushPath_eq]

theorem get_debugs (l : List (Str × DebugInfo)) (m : AMap Str DebugInfo) (s : Str) :
    (∀ i, (l.foldl (fun m x => m.insert x.1 x.2) m).get? s = some i → (s, i) ∈ l ∨ m.get? s = some i) ∧
      ((∃ i, (s, i) ∈ l) ∨ (m.get? s).isSome = true → ((l.foldl (fun m x => m.insert x.1 x.2) m).get? s).isSome = true) := by
  induction l generalizing m with
  | nil =>
    refine ⟨fun i h => .inr h, ?_⟩
    rintro (⟨i, h⟩ | h)
    · cases h
    · exact h
  | cons x l ih =>
    obtain ⟨h1, h2⟩ := ih (m.insert x.1 x.2)
    refine ⟨fun i h => ?_, fun h => h2 ?_⟩
    · rcases h1 i h with h | h
      · exact .inl (List.mem_cons_of_mem _ h)
      · rw [AMap.get?_insert] at h
        split at h
        · rename_i hx
          cases h
          exact .inl (by rw [← hx]; exact List.mem_cons_self)
        · exact .inr h
    · rw [AMap.get?_insert]
      rcases h with ⟨i, h⟩ | h
      · rcases List.mem_cons.mp h with h | h
        · exact .inr (by rw [← h]; simp)
        · exact .inl ⟨i, h⟩
      · refine .inr ?_
        split
        · rfl
        · exact h

end Cackle.Dwarf
