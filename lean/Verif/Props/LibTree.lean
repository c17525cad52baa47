import Verif.Model.LibTree
import Verif.Props.BuildScript

/-!
# C16, C80: what is learnt from `cargo tree`

The specification is a dependency graph and a relation saying which listings `cargo tree` prints for it:
depth-first, each package with its dependencies below it the first time, and without them from then on.
-/

namespace Cackle.LibTree
open Cackle Perm

/-- A dependency graph. `P` are the packages; `id` is what cackle knows a package by; `lib` is the name
of its library, if it has one. -/
structure Graph (P : Type) where
  deps : P → List P
  id : P → PkgId
  lib : P → Option Str

/-- `q` is a transitive dependency of `p`. -/
inductive Graph.Dep {P : Type} (g : Graph P) : P → P → Prop where
  | direct {p q} : q ∈ g.deps p → g.Dep p q
  | step {p q r} : q ∈ g.deps p → g.Dep q r → g.Dep p r

/-- No package depends on itself. -/
def Graph.Acyclic {P : Type} (g : Graph P) : Prop := ∀ p, ¬ g.Dep p p

/-- The name by which Rust code refers to the package: the library's name; a package with programs only
goes by its own name, with underscores. -/
def Graph.crateName {P : Type} (g : Graph P) (p : P) : Str :=
  match g.lib p with
  | some l => l
  | none => (g.id p).name.map (fun c => if c = '-' then '_' else c)

/-- `Listing g seen d ps entries seen'`: listing the packages `ps` at depth `d`, when `seen` have been
listed before, prints `entries` (depth and package), after which `seen'` have been listed. -/
inductive Listing {P : Type} (g : Graph P) :
    List P → Nat → List P → List (Nat × P) → List P → Prop where
  | nil {seen d} : Listing g seen d [] [] seen
  | again {seen d p ps es seen'} : p ∈ seen → Listing g seen d ps es seen' →
      Listing g seen d (p :: ps) ((d, p) :: es) seen'
  | new {seen d p ps es₁ seen₁ es₂ seen₂} : p ∉ seen →
      Listing g (p :: seen) (d + 1) (g.deps p) es₁ seen₁ → Listing g seen₁ d ps es₂ seen₂ →
      Listing g seen d (p :: ps) ((d, p) :: (es₁ ++ es₂)) seen₂

/-- `t` is a decimal numeral for `n`. -/
inductive Numeral : Str → Nat → Prop where
  | one {c : Char} : c.isDigit = true → Numeral [c] (c.toNat - 48)
  | more {t n} {c : Char} : Numeral t n → c.isDigit = true → Numeral (t ++ [c]) (10 * n + (c.toNat - 48))

/-- The line printed for a package at a depth: depth, library name (empty if there is none), package
name and version; then anything after a space (such as the directory, or `(*)`). -/
def Shown {P : Type} (g : Graph P) (d : Nat) (p : P) (line : Str) : Prop :=
  ∃ t rest, Numeral t d ∧ (rest = [] ∨ ∃ r, rest = ' ' :: r) ∧
    line = t ++ ' ' :: ((g.lib p).getD [] ++ ' ' :: ((g.id p).name ++ ' ' :: 'v' :: ((g.id p).version ++ rest)))

/-- The text printed for a listing: a line for each entry, and empty lines anywhere (cargo separates the
packages of a workspace by them). -/
inductive Printed {P : Type} (g : Graph P) : List (Nat × P) → Str → Prop where
  | nil : Printed g [] []
  | blank {es s} : Printed g es s → Printed g es ('\n' :: s)
  | entry {d p es line s} : Shown g d p line → '\n' ∉ line → line.getLast? ≠ some '\r' →
      Printed g es s → Printed g ((d, p) :: es) (line ++ '\n' :: s)

/-- The index knows every package, its versions are well-formed and names have no spaces. -/
structure Known {P : Type} (g : Graph P) (idx : AMap Str (List PkgId)) (valid : Str → Bool) : Prop where
  indexed : ∀ p, ∃ ids, idx.get? (g.id p).name = some ids ∧ g.id p ∈ ids ∧
    ∀ i ∈ ids, i.version = (g.id p).version → i = g.id p
  version : ∀ p, valid (g.id p).version = true ∧ ' ' ∉ (g.id p).version
  name : ∀ p, ' ' ∉ (g.id p).name
  lib : ∀ p l, g.lib p = some l → l ≠ [] ∧ ' ' ∉ l

/-- What is recorded for package `p` is exactly the names of its transitive dependencies. -/
def Exact {P : Type} (g : Graph P) (t : AMap PkgId (List Str)) (p : P) : Prop :=
  ∃ names, t.get? (g.id p) = some names ∧ ∀ x, x ∈ names ↔ ∃ q, g.Dep p q ∧ x = g.crateName q

/-! ## Reading a line -/

theorem isDigit_ne {c d : Char} (h : c.isDigit = true) (hd : d.isDigit = false) : c ≠ d := by
  intro e; subst e; rw [h] at hd; exact absurd hd (by simp)

theorem numeral_spec {t : Str} {n : Nat} (h : Numeral t n) :
    t ≠ [] ∧ t.all Char.isDigit = true ∧
      t.foldl (fun n c => 10 * n + (c.toNat - '0'.toNat)) 0 = n := by
  induction h with
  | one hc => simp [hc]
  | more _ hc ih =>
    obtain ⟨_, h2, h3⟩ := ih
    refine ⟨by simp, by simp [h2, hc], ?_⟩
    rw [List.foldl_append, h3]
    rfl

theorem parseUsize_numeral {t : Str} {n : Nat} (h : Numeral t n) (hn : n < 2 ^ 64) :
    parseUsize t = some n := by
  obtain ⟨h1, h2, h3⟩ := numeral_spec h
  have e : stripPlus t = t := by
    unfold stripPlus
    split
    · simp only [List.all_cons, Bool.and_eq_true] at h2
      exact absurd h2.1 (by decide)
    · rfl
  unfold parseUsize
  simp only [e]
  rw [if_pos ⟨h1, h2⟩, h3, if_pos hn]

theorem numeral_no_space {t : Str} {n : Nat} (h : Numeral t n) : ' ' ∉ t := by
  obtain ⟨_, h2, _⟩ := numeral_spec h
  intro hm
  exact absurd (List.all_eq_true.mp h2 _ hm) (by decide)

theorem find_version {ids : List PkgId} {i : PkgId} (hm : i ∈ ids)
    (hu : ∀ j ∈ ids, j.version = i.version → j = i) :
    ids.find? (fun id => id.version = i.version) = some i := by
  induction ids with
  | nil => exact absurd hm (by simp)
  | cons j ids ih =>
    by_cases e : j.version = i.version
    · rw [List.find?_cons_of_pos (by simpa using e), hu j (by simp) e]
    · rw [List.find?_cons_of_neg (by simpa using e)]
      refine ih ?_ (fun k hk => hu k (by simp [hk]))
      rcases List.mem_cons.mp hm with h | h
      · exact absurd (by rw [h]) e
      · exact h

variable {P : Type} {g : Graph P} {idx : AMap Str (List PkgId)} {valid : Str → Bool}

theorem libName_eq (hk : Known g idx valid) (p : P) :
    libName ((g.lib p).getD []) (g.id p).name = g.crateName p := by
  unfold libName Graph.crateName
  cases h : g.lib p with
  | none => simp
  | some l => simp [(hk.lib p l h).1]

theorem processLine_shown (hk : Known g idx valid) {d : Nat} {p : P} {line : Str}
    (hs : Shown g d p line) (hd : d < 2 ^ 64) (st : St) :
    processLine idx valid st line = some (visit st (d + 1) (g.crateName p) (g.id p)) := by
  obtain ⟨t, rest, ht, hr, rfl⟩ := hs
  have hlib : ' ' ∉ (g.lib p).getD [] := by
    cases h : g.lib p with
    | none => simp
    | some l => simpa using (hk.lib p l h).2
  have hv := hk.version p
  have hver : ∃ r, splitChar ' ' ('v' :: ((g.id p).version ++ rest)) = ('v' :: (g.id p).version) :: r := by
    have hns : ' ' ∉ 'v' :: (g.id p).version := by simp [hv.2]
    rcases hr with rfl | ⟨r, rfl⟩
    · exact ⟨[], by rw [List.append_nil]; exact BuildScript.splitChar_last hns⟩
    · refine ⟨splitChar ' ' r, ?_⟩
      have := BuildScript.splitChar_line (s := r) hns
      simpa using this
  obtain ⟨r, hver⟩ := hver
  obtain ⟨ids, hi1, hi2, hi3⟩ := hk.indexed p
  unfold processLine
  rw [BuildScript.splitChar_line (numeral_no_space ht), BuildScript.splitChar_line hlib,
    BuildScript.splitChar_line (hk.name p), hver]
  simp only [parseUsize_numeral ht hd, hv.1, if_true, hi1, find_version hi2 hi3, libName_eq hk]

theorem processLine_blank (st : St) : processLine idx valid st [] = some st := rfl

/-- Processing the entries of a listing. -/
def visits (g : Graph P) (st : St) (es : List (Nat × P)) : St :=
  es.foldl (fun st e => visit st (e.1 + 1) (g.crateName e.2) (g.id e.2)) st

theorem processLines_printed (hk : Known g idx valid) {es : List (Nat × P)} {s : Str}
    (hp : Printed g es s) (hd : ∀ e ∈ es, e.1 < 2 ^ 64) (st : St) :
    processLines idx valid st (BuildScript.lines s) = some (visits g st es) := by
  induction hp generalizing st with
  | nil => rfl
  | blank _ ih =>
    have e := BuildScript.lines_cons (l := []) (s := ‹Str›) (by simp)
    simp only [List.nil_append] at e
    rw [e]
    exact ih hd st
  | entry hs hnl hcr _ ih =>
    rw [BuildScript.lines_cons hnl]
    have e : BuildScript.stripCr _ = _ := if_neg hcr
    rw [e]
    have hl := processLine_shown hk hs (hd (_, _) List.mem_cons_self) st
    simp only [processLines, hl]
    rw [ih (fun e he => hd e (by simp [he]))]
    rfl

/-! ## The stack -/

theorem popTo_len (level : Nat) (s : List Entry) (t : AMap PkgId (List Str)) (h : level ≤ s.length) :
    (popTo level s t).1.length = level := by
  induction s generalizing t with
  | nil => simp [popTo] at *; omega
  | cons e s ih =>
    simp only [popTo]
    split
    · exact ih _ (by omega)
    · simp at *; omega

theorem popTo_ge (level : Nat) (s : List Entry) (t : AMap PkgId (List Str)) (h : s.length ≤ level) :
    popTo level s t = (s, t) := by
  cases s with
  | nil => rfl
  | cons e s =>
    simp only [popTo]
    rw [if_neg (by simpa using h)]

theorem popTo_popTo {a b : Nat} (h : a ≤ b) (s : List Entry) (t : AMap PkgId (List Str)) :
    popTo a (popTo b s t).1 (popTo b s t).2 = popTo a s t := by
  induction s generalizing t with
  | nil => rfl
  | cons e s ih =>
    by_cases hb : s.length + 1 > b
    · simp only [popTo]
      rw [if_pos hb, if_pos (by omega), ih]
    · simp only [popTo]
      rw [if_neg hb]
      simp only [popTo]

theorem pop_pop {a b : Nat} (h : a ≤ b) (st : St) : (st.pop b).pop a = st.pop a := by
  unfold St.pop
  simp only [popTo_popTo h]

theorem pop_len {st : St} {d : Nat} (h : d ≤ st.stack.length) : (st.pop d).stack.length = d :=
  popTo_len d _ _ h

/-- What a package adds to the stack: the names in `add`. -/
def grow (add : List Str) (s : List Entry) : List Entry :=
  s.map (fun e => { e with deps := add ++ e.deps })

/-- Visiting at a depth the stack reaches: the names of what is recorded for the package, and its own,
go to every remaining entry; then the package goes on top. -/
theorem visit_eq (st : St) (d : Nat) (lib : Str) (id : PkgId) (h : d ≤ st.stack.length) :
    ∃ libs, visit st (d + 1) lib id =
      ⟨⟨id, []⟩ :: grow (lib :: ((st.pop d).trans.get? id).getD []) (st.pop d).stack, libs,
        (st.pop d).trans⟩ := by
  refine ⟨st.libs.insert lib id, ?_⟩
  have hl := pop_len h
  unfold visit
  simp only [Nat.add_sub_cancel]
  rw [if_pos h]
  have e1 : (({ st with libs := st.libs.insert lib id } : St).pop d).stack = (st.pop d).stack := rfl
  have e2 : (({ st with libs := st.libs.insert lib id } : St).pop d).trans = (st.pop d).trans := rfl
  have e3 : (({ st with libs := st.libs.insert lib id } : St).pop d).libs = st.libs.insert lib id := rfl
  simp only [e2]
  cases ht : (st.pop d).trans.get? id with
  | none =>
    simp only [e1, e2, e3, Option.getD_none]
    rw [if_pos (by simp [hl])]
    rfl
  | some ds =>
    simp only [e1, e2, e3, Option.getD_some, List.map_map]
    rw [if_pos (by simp [hl])]
    rfl

/-! ## The invariant -/

/-- The record is exact for the packages that have been listed and are not on the stack, and empty for
the others. -/
def Inv (g : Graph P) (t : AMap PkgId (List Str)) (seen anc : List P) : Prop :=
  ∀ p, (p ∈ seen → p ∉ anc → Exact g t p) ∧ ((p ∉ seen ∨ p ∈ anc) → t.get? (g.id p) = none)

/-- The names of the packages `ps` and of all their dependencies. -/
def Names (g : Graph P) (ps : List P) (x : Str) : Prop :=
  ∃ p ∈ ps, ∃ q, (q = p ∨ g.Dep p q) ∧ x = g.crateName q

/-- Entry by entry, the stack is for the same packages, and `ns` have been added. -/
inductive Grown (ns : Str → Prop) : List Entry → List Entry → Prop where
  | nil : Grown ns [] []
  | cons {e e' s s'} : e'.id = e.id → (∀ x, x ∈ e'.deps ↔ x ∈ e.deps ∨ ns x) → Grown ns s s' →
      Grown ns (e :: s) (e' :: s')

theorem Grown.none {ns : Str → Prop} (h : ∀ x, ¬ ns x) (s : List Entry) : Grown ns s s := by
  induction s with
  | nil => exact .nil
  | cons e s ih => exact .cons rfl (fun x => by simp [h x]) ih

theorem Grown.grow {ns : Str → Prop} {add : List Str} (h : ∀ x, ns x ↔ x ∈ add) (s : List Entry) :
    Grown ns s (grow add s) := by
  induction s with
  | nil => exact .nil
  | cons e s ih =>
    refine .cons rfl (fun x => ?_) ih
    simp only [h x, List.mem_append]
    exact Or.comm

theorem Grown.trans {n1 n2 n3 : Str → Prop} (h : ∀ x, n3 x ↔ n1 x ∨ n2 x) {a b c : List Entry}
    (h1 : Grown n1 a b) (h2 : Grown n2 b c) : Grown n3 a c := by
  induction h1 generalizing c with
  | nil => cases h2; exact .nil
  | cons e1 e2 _ ih =>
    cases h2 with
    | cons f1 f2 f3 =>
      refine .cons (f1.trans e1) (fun x => ?_) (ih f3)
      rw [f2, e2, h, or_assoc]

theorem Grown.len {n : Str → Prop} {a b : List Entry} (h : Grown n a b) : a.length = b.length := by
  induction h with
  | nil => rfl
  | cons _ _ _ ih => simp [ih]

theorem listing_seen {seen d ps es seen'} (h : Listing g seen d ps es seen') :
    (∀ p ∈ seen, p ∈ seen') ∧ (∀ p ∈ ps, p ∈ seen') ∧
      (∀ p ∈ seen', p ∈ seen ∨ ∀ q ∈ g.deps p, q ∈ seen') := by
  induction h with
  | nil => exact ⟨fun _ h => h, by simp, fun _ h => Or.inl h⟩
  | again hp _ ih =>
    refine ⟨ih.1, ?_, ih.2.2⟩
    intro q hq
    rcases List.mem_cons.mp hq with rfl | hq
    · exact ih.1 _ hp
    · exact ih.2.1 _ hq
  | new _ _ _ ih1 ih2 =>
    refine ⟨fun q hq => ih2.1 _ (ih1.1 _ (by simp [hq])), ?_, ?_⟩
    · intro q hq
      rcases List.mem_cons.mp hq with rfl | hq
      · exact ih2.1 _ (ih1.1 _ (by simp))
      · exact ih2.2.1 _ hq
    · intro q hq
      rcases ih2.2.2 q hq with h | h
      · rcases ih1.2.2 q h with h' | h'
        · rcases List.mem_cons.mp h' with rfl | h'
          · exact Or.inr (fun r hr => ih2.1 _ (ih1.2.1 _ hr))
          · exact Or.inl h'
        · exact Or.inr (fun r hr => ih2.1 _ (h' r hr))
      · exact Or.inr h

theorem dep_trans {p q r : P} (h1 : g.Dep p q) (h2 : g.Dep q r) : g.Dep p r := by
  induction h1 with
  | direct h => exact .step h h2
  | step h _ ih => exact .step h (ih h2)

theorem names_deps (p : P) (x : Str) :
    Names g (g.deps p) x ↔ ∃ q, g.Dep p q ∧ x = g.crateName q := by
  constructor
  · rintro ⟨c, hc, q, hq, rfl⟩
    rcases hq with rfl | hq
    · exact ⟨q, .direct hc, rfl⟩
    · exact ⟨q, .step hc hq, rfl⟩
  · rintro ⟨q, hq, rfl⟩
    cases hq with
    | direct h => exact ⟨q, h, q, Or.inl rfl, rfl⟩
    | step h h' => exact ⟨_, h, q, Or.inr h', rfl⟩

theorem pop_cons {e : Entry} {s : List Entry} {l : AMap Str PkgId} {t : AMap PkgId (List Str)} {d : Nat}
    (h : s.length = d) : (⟨e :: s, l, t⟩ : St).pop d = ⟨s, l, orInsert t e.id e.deps⟩ := by
  unfold St.pop
  simp only [popTo]
  rw [if_pos (by omega), popTo_ge _ _ _ (by omega)]

theorem orInsert_get (t : AMap PkgId (List Str)) (i j : PkgId) (ds : List Str) :
    (orInsert t i ds).get? j = if t.get? i = none ∧ i = j then some ds else t.get? j := by
  unfold orInsert
  cases h : t.get? i with
  | some v => simp
  | none =>
    simp only [AMap.get?_insert, true_and]

theorem main_lemma (hinj : ∀ p q, g.id p = g.id q → p = q) (hac : g.Acyclic)
    {seen d ps es seen'} (hl : Listing g seen d ps es seen') (st : St) (anc : List P)
    (hlen : d ≤ st.stack.length) (hinv : Inv g (st.pop d).trans seen anc)
    (hanc : ∀ p ∈ ps, ∀ a ∈ anc, g.Dep a p) :
    d ≤ (visits g st es).stack.length ∧
      Inv g ((visits g st es).pop d).trans seen' anc ∧
      Grown (Names g ps) (st.pop d).stack ((visits g st es).pop d).stack := by
  induction hl generalizing st anc with
  | nil =>
    refine ⟨hlen, hinv, Grown.none ?_ _⟩
    rintro x ⟨p, hp, _⟩
    exact absurd hp (by simp)
  | @again seen d p ps es seen' hp hl ih =>
    have hna : p ∉ anc := fun h => hac p (hanc p (by simp) p h)
    obtain ⟨names, hn1, hn2⟩ := (hinv p).1 hp hna
    obtain ⟨libs, hv⟩ := visit_eq st d (g.crateName p) (g.id p) hlen
    rw [hn1, Option.getD_some] at hv
    have hgl : (grow (g.crateName p :: names) (st.pop d).stack).length = d := by
      simp only [grow, List.length_map]; exact pop_len hlen
    have hpop := pop_cons (e := ⟨g.id p, []⟩) (l := libs) (t := (st.pop d).trans) hgl
    have hoi : orInsert (st.pop d).trans (g.id p) [] = (st.pop d).trans := by
      unfold orInsert; rw [hn1]
    simp only [hoi] at hpop
    have hvis : visits g st ((d, p) :: es) = visits g (visit st (d + 1) (g.crateName p) (g.id p)) es := rfl
    rw [hvis, hv]
    have := ih ⟨⟨g.id p, []⟩ :: grow (g.crateName p :: names) (st.pop d).stack, libs, (st.pop d).trans⟩
      anc (by simp [hgl]) (by rw [hpop]; exact hinv)
      (fun q hq => hanc q (by simp [hq]))
    obtain ⟨h1, h2, h3⟩ := this
    refine ⟨h1, h2, ?_⟩
    rw [hpop] at h3
    refine Grown.trans (n1 := fun x => x ∈ g.crateName p :: names) (n2 := Names g ps) ?_
      (Grown.grow (fun _ => Iff.rfl) _) h3
    intro x
    simp only [List.mem_cons, hn2]
    constructor
    · rintro ⟨c, hc, q, hq, rfl⟩
      rcases List.mem_cons.mp hc with rfl | hc
      · rcases hq with rfl | hq
        · exact Or.inl (Or.inl rfl)
        · exact Or.inl (Or.inr ⟨q, hq, rfl⟩)
      · exact Or.inr ⟨c, hc, q, hq, rfl⟩
    · rintro ((rfl | ⟨q, hq, rfl⟩) | ⟨c, hc, q, hq, rfl⟩)
      · exact ⟨p, by simp, p, Or.inl rfl, rfl⟩
      · exact ⟨p, by simp, q, Or.inr hq, rfl⟩
      · exact ⟨c, by simp [hc], q, hq, rfl⟩
  | @new seen d p ps es₁ seen₁ es₂ seen₂ hp hl1 hl2 ih1 ih2 =>
    have hna : p ∉ anc := fun h => hac p (hanc p (by simp) p h)
    have hn : (st.pop d).trans.get? (g.id p) = none := (hinv p).2 (Or.inl hp)
    obtain ⟨libs, hv⟩ := visit_eq st d (g.crateName p) (g.id p) hlen
    rw [hn, Option.getD_none] at hv
    have hgl : (grow [g.crateName p] (st.pop d).stack).length = d := by
      simp only [grow, List.length_map]; exact pop_len hlen
    have hvis : visits g st ((d, p) :: (es₁ ++ es₂)) =
        visits g (visits g (visit st (d + 1) (g.crateName p) (g.id p)) es₁) es₂ := by
      simp [visits]
    rw [hvis, hv]
    generalize hst1 : (⟨⟨g.id p, []⟩ :: grow [g.crateName p] (st.pop d).stack, libs,
      (st.pop d).trans⟩ : St) = st1
    have hp1 : st1.pop (d + 1) = st1 := by
      subst hst1
      have := popTo_ge (d + 1) (⟨g.id p, []⟩ :: grow [g.crateName p] (st.pop d).stack)
        (st.pop d).trans (by rw [List.length_cons, hgl]; exact Nat.le_refl _)
      unfold St.pop at this ⊢
      simp only [this]
    have h1 := ih1 st1 (p :: anc) (by subst hst1; simp [hgl]) (by
      rw [hp1]
      intro q
      have hq := hinv q
      subst hst1
      constructor
      · intro hs ha
        simp only [List.mem_cons, not_or] at hs ha
        exact hq.1 (hs.resolve_left ha.1) ha.2
      · intro h
        by_cases e : q = p
        · subst e; exact hn
        · simp only [List.mem_cons, e, false_or] at h
          exact hq.2 h) (by
      intro c hc a ha
      rcases List.mem_cons.mp ha with rfl | ha
      · exact .direct hc
      · exact dep_trans (hanc p (by simp) a ha) (.direct hc))
    obtain ⟨h1a, h1b, h1c⟩ := h1
    rw [hp1] at h1c
    generalize visits g st1 es₁ = st2 at h1a h1b h1c ⊢
    -- the stack after the children: the entry of `p` on top
    obtain ⟨deps, s2, hs2, hdeps, hgr⟩ : ∃ deps s2, (st2.pop (d + 1)).stack = ⟨g.id p, deps⟩ :: s2 ∧
        (∀ x, x ∈ deps ↔ ∃ q, g.Dep p q ∧ x = g.crateName q) ∧
        Grown (Names g (g.deps p)) (grow [g.crateName p] (st.pop d).stack) s2 := by
      subst hst1
      generalize (st2.pop (d + 1)).stack = S at h1c ⊢
      cases h1c with
      | @cons _ e' _ s' a b c =>
        refine ⟨e'.deps, s', ?_, ?_, c⟩
        · simp only at a
          rw [← a]
        · intro x
          rw [b]
          simp [names_deps]
    have hl2' : s2.length = d := by rw [← hgr.len, hgl]
    have hpd : st2.pop d = ⟨s2, st2.libs, orInsert (st2.pop (d + 1)).trans (g.id p) deps⟩ := by
      rw [← pop_pop (Nat.le_succ d)]
      have e : st2.pop (d + 1) = ⟨⟨g.id p, deps⟩ :: s2, st2.libs, (st2.pop (d + 1)).trans⟩ := by
        rw [← hs2]; rfl
      rw [e]
      exact pop_cons hl2'
    have hpn : (st2.pop (d + 1)).trans.get? (g.id p) = none := (h1b p).2 (Or.inr (by simp))
    have hseen := listing_seen hl1
    have hinv2 : Inv g (st2.pop d).trans seen₁ anc := by
      rw [hpd]
      intro q
      have hq := h1b q
      simp only [Exact, orInsert_get, hpn, true_and]
      by_cases e : q = p
      · subst e
        simp only [if_true]
        refine ⟨fun _ _ => ⟨deps, rfl, hdeps⟩, ?_⟩
        rintro (h | h)
        · exact absurd (hseen.1 q (by simp)) h
        · exact absurd h hna
      · rw [if_neg (fun h => e (hinj _ _ h).symm)]
        refine ⟨fun hs ha => hq.1 hs (by simp [e, ha]), ?_⟩
        rintro (h | h)
        · exact hq.2 (Or.inl h)
        · exact hq.2 (Or.inr (by simp [h]))
    obtain ⟨h2a, h2b, h2c⟩ := ih2 st2 anc (by omega) hinv2 (fun q hq => hanc q (by simp [hq]))
    refine ⟨h2a, h2b, ?_⟩
    rw [hpd] at h2c
    refine Grown.trans (n1 := fun x => x = g.crateName p ∨ Names g (g.deps p) x) (n2 := Names g ps) ?_
      (Grown.trans (n1 := fun x => x ∈ [g.crateName p]) (n2 := Names g (g.deps p)) ?_
        (Grown.grow (fun _ => Iff.rfl) _) hgr) h2c
    · intro x
      rw [names_deps]
      constructor
      · rintro ⟨c, hc, q, hq, rfl⟩
        rcases List.mem_cons.mp hc with rfl | hc
        · rcases hq with rfl | hq
          · exact Or.inl (Or.inl rfl)
          · exact Or.inl (Or.inr ⟨q, hq, rfl⟩)
        · exact Or.inr ⟨c, hc, q, hq, rfl⟩
      · rintro ((rfl | ⟨q, hq, rfl⟩) | ⟨c, hc, q, hq, rfl⟩)
        · exact ⟨p, by simp, p, Or.inl rfl, rfl⟩
        · exact ⟨p, by simp, q, Or.inr hq, rfl⟩
        · exact ⟨c, by simp [hc], q, hq, rfl⟩
    · intro x; simp

/-! ## C16 -/

/-- The full English claim C16, for every package of the graph that is listed. -/
def C16_Claim : Prop :=
  ∀ (P : Type) (g : Graph P) (idx : AMap Str (List PkgId)) (valid : Str → Bool) (roots : List P)
    (es : List (Nat × P)) (listed : List P) (stdout : Str),
    g.Acyclic → Known g idx valid → Listing g [] 0 roots es listed → Printed g es stdout →
    (∀ e ∈ es, e.1 < 2 ^ 64) →
    ∃ st, build idx valid stdout = some st ∧ ∀ p ∈ listed, Exact g st.trans p

/-- **C16, partial.** If no two packages of the graph are known by the same identity: for every acyclic
dependency graph and all roots, the listing is accepted, and what is recorded for each root and each of
its transitive dependencies is exactly the set of names of its own transitive dependencies. Nothing is
recorded for packages that are not listed. What is missing is graphs with two packages of the same name
and version from different sources (`C16_same_version`). -/
theorem C16_partial (g : Graph P) (idx : AMap Str (List PkgId)) (valid : Str → Bool) (roots : List P)
    (es : List (Nat × P)) (listed : List P) (stdout : Str) (hac : g.Acyclic) (hk : Known g idx valid)
    (hinj : ∀ p q, g.id p = g.id q → p = q) (hl : Listing g [] 0 roots es listed)
    (hp : Printed g es stdout) (hd : ∀ e ∈ es, e.1 < 2 ^ 64) :
    ∃ st, build idx valid stdout = some st ∧
      (∀ p, (∃ r ∈ roots, p = r ∨ g.Dep r p) → Exact g st.trans p) ∧
      (∀ p ∈ listed, Exact g st.trans p) ∧
      (∀ p, p ∉ listed → st.trans.get? (g.id p) = none) := by
  refine ⟨(visits g {} es).pop 0, ?_, ?_⟩
  · unfold build
    rw [processLines_printed hk hp hd]
    rfl
  · have hm := main_lemma hinj hac hl {} [] (by simp) (by
      intro p
      exact ⟨fun h => absurd h (by simp), fun _ => rfl⟩) (by simp)
    have hs := listing_seen hl
    refine ⟨?_, fun p h => (hm.2.1 p).1 h (by simp), fun p h => (hm.2.1 p).2 (Or.inl h)⟩
    rintro p ⟨r, hr, h⟩
    refine (hm.2.1 p).1 ?_ (by simp)
    have hroot := hs.2.1 r hr
    rcases h with rfl | h
    · exact hroot
    · clear hr
      induction h with
      | direct h => exact ((hs.2.2 _ hroot).resolve_left (by simp)) _ h
      | step h _ ih => exact ih (((hs.2.2 _ hroot).resolve_left (by simp)) _ h)

/-! ### The hypotheses can be met -/

theorem acyclic_of_rank (r : P → Nat) (h : ∀ p, ∀ q ∈ g.deps p, r q < r p) : g.Acyclic := by
  have key : ∀ p q, g.Dep p q → r q < r p := by
    intro p q hd
    induction hd with
    | direct hq => exact h _ _ hq
    | step hq _ ih => exact Nat.lt_trans ih (h _ _ hq)
  intro p hp
  exact Nat.lt_irrefl _ (key p p hp)

open Classical in
/-- Every graph without infinite chains of dependencies has a listing, for all roots. -/
theorem listing_exists (r : P → Nat) (h : ∀ p, ∀ q ∈ g.deps p, r q < r p) (n : Nat) (ps seen : List P)
    (d : Nat) (hn : ∀ p ∈ ps, r p < n) : ∃ es seen', Listing g seen d ps es seen' := by
  induction n generalizing ps seen d with
  | zero =>
    cases ps with
    | nil => exact ⟨[], seen, .nil⟩
    | cons p ps => exact absurd (hn p (by simp)) (by omega)
  | succ n ihn =>
    induction ps generalizing seen with
    | nil => exact ⟨[], seen, .nil⟩
    | cons p ps ih =>
      have hps : ∀ q ∈ ps, r q < n + 1 := fun q hq => hn q (by simp [hq])
      by_cases hp : p ∈ seen
      · obtain ⟨es, s', hl⟩ := ih seen hps
        exact ⟨_, _, .again hp hl⟩
      · obtain ⟨es1, s1, h1⟩ := ihn (g.deps p) (p :: seen) (d + 1) (fun q hq => by
          have := h p q hq
          have := hn p (by simp)
          omega)
        obtain ⟨es2, s2, h2⟩ := ih s1 hps
        exact ⟨_, _, .new hp h1 h2⟩

/-- A workspace of two programs that share a library: `app` uses `left` and `right`, both of which use
`base`; `app-2` uses `right`. -/
inductive Dia where
  | app | left | right | base | app2
deriving DecidableEq

def dia : Graph Dia where
  deps
    | .app => [.left, .right]
    | .left => [.base]
    | .right => [.base]
    | .base => []
    | .app2 => [.right]
  id
    | .app => ⟨str! "app", str! "1.0.0", true⟩
    | .left => ⟨str! "left", str! "1.0.0", true⟩
    | .right => ⟨str! "right", str! "1.0.0", true⟩
    | .base => ⟨str! "my-base", str! "1.0.0", true⟩
    | .app2 => ⟨str! "app-2", str! "1.0.0", true⟩
  lib
    | .app => none
    | .left => some (str! "left")
    | .right => some (str! "right")
    | .base => some (str! "my_base")
    | .app2 => none

def diaIdx : AMap Str (List PkgId) :=
  [Dia.app, .left, .right, .base, .app2].map (fun p => ((dia.id p).name, [dia.id p]))

theorem dia_acyclic : dia.Acyclic :=
  acyclic_of_rank (fun | .app => 2 | .app2 => 2 | .base => 0 | _ => 1)
    (fun p q hq => by cases p <;> simp [dia] at hq <;> (try rcases hq with rfl | rfl) <;> simp_all)

theorem dia_known : Known dia diaIdx (fun _ => true) where
  indexed := by
    intro p
    refine ⟨[dia.id p], ?_, by simp, by simp⟩
    cases p <;> decide
  version := by intro p; cases p <;> decide
  name := by intro p; cases p <;> decide
  lib := by intro p l h; cases p <;> simp [dia] at h <;> subst h <;> decide

def diaText : Str :=
  str! "0  app v1.0.0 (/w/app)\n1 left left v1.0.0\n2 my_base my-base v1.0.0\n1 right right v1.0.0\n2 my_base my-base v1.0.0\n\n0  app-2 v1.0.0 (/w/app2)\n1 right right v1.0.0 (*)\n"

theorem dia_listing : Listing dia [] 0 [.app, .app2]
    [(0, .app), (1, .left), (2, .base), (1, .right), (2, .base), (0, .app2), (1, .right)]
    [.app2, .right, .base, .left, .app] := by
  have l : Listing dia [.left, .app] 2 [.base] [(2, .base)] [.base, .left, .app] :=
    Listing.new (g := dia) (es₁ := []) (es₂ := []) (by decide) .nil .nil
  have r : Listing dia [.right, .base, .left, .app] 2 [.base] [(2, .base)]
      [.right, .base, .left, .app] := .again (by decide) .nil
  have r' : Listing dia [.base, .left, .app] 1 [.right] [(1, .right), (2, .base)]
      [.right, .base, .left, .app] :=
    Listing.new (g := dia) (es₁ := [(2, .base)]) (es₂ := []) (by decide) r .nil
  have lr : Listing dia [.app] 1 [.left, .right] [(1, .left), (2, .base), (1, .right), (2, .base)]
      [.right, .base, .left, .app] :=
    Listing.new (g := dia) (es₁ := [(2, .base)]) (es₂ := [(1, .right), (2, .base)]) (by decide) l r'
  have t : Listing dia [.app2, .right, .base, .left, .app] 1 [.right] [(1, .right)]
      [.app2, .right, .base, .left, .app] := .again (by decide) .nil
  have t' : Listing dia [.right, .base, .left, .app] 0 [.app2] [(0, .app2), (1, .right)]
      [.app2, .right, .base, .left, .app] :=
    Listing.new (g := dia) (es₁ := [(1, .right)]) (es₂ := []) (by decide) t .nil
  exact Listing.new (g := dia) (es₁ := [(1, .left), (2, .base), (1, .right), (2, .base)])
    (es₂ := [(0, .app2), (1, .right)]) (by decide) lr t'

theorem dia_printed : Printed dia
    [(0, .app), (1, .left), (2, .base), (1, .right), (2, .base), (0, .app2), (1, .right)] diaText := by
  refine .entry (line := str! "0  app v1.0.0 (/w/app)")
    ⟨str! "0", str! " (/w/app)", .one (by decide), Or.inr ⟨_, rfl⟩, by decide⟩ (by decide) (by decide) ?_
  refine .entry (line := str! "1 left left v1.0.0")
    ⟨str! "1", [], .one (by decide), Or.inl rfl, by decide⟩ (by decide) (by decide) ?_
  refine .entry (line := str! "2 my_base my-base v1.0.0")
    ⟨str! "2", [], .one (by decide), Or.inl rfl, by decide⟩ (by decide) (by decide) ?_
  refine .entry (line := str! "1 right right v1.0.0")
    ⟨str! "1", [], .one (by decide), Or.inl rfl, by decide⟩ (by decide) (by decide) ?_
  refine .entry (line := str! "2 my_base my-base v1.0.0")
    ⟨str! "2", [], .one (by decide), Or.inl rfl, by decide⟩ (by decide) (by decide) ?_
  refine .blank ?_
  refine .entry (line := str! "0  app-2 v1.0.0 (/w/app2)")
    ⟨str! "0", str! " (/w/app2)", .one (by decide), Or.inr ⟨_, rfl⟩, by decide⟩ (by decide) (by decide) ?_
  refine .entry (line := str! "1 right right v1.0.0 (*)")
    ⟨str! "1", str! " (*)", .one (by decide), Or.inr ⟨_, rfl⟩, by decide⟩ (by decide) (by decide) ?_
  exact .nil

example : ∃ st, build diaIdx (fun _ => true) diaText = some st ∧
    (∀ p, (∃ r ∈ [Dia.app, .app2], p = r ∨ dia.Dep r p) → Exact dia st.trans p) ∧
    (∀ p ∈ [Dia.app2, .right, .base, .left, .app], Exact dia st.trans p) ∧
    (∀ p, p ∉ [Dia.app2, .right, .base, .left, .app] → st.trans.get? (dia.id p) = none) :=
  C16_partial dia diaIdx (fun _ => true) [.app, .app2] _ _ diaText dia_acyclic dia_known
    (by intro p q h; cases p <;> cases q <;> first | rfl | exact absurd h (by decide))
    dia_listing dia_printed (by decide)

/-! ### The full claim fails -/

/-- Two packages `a` of version 1.0.0 from different sources; one uses `x`, the other `y`. -/
inductive Twin where
  | a | a' | x | y
deriving DecidableEq

def twin : Graph Twin where
  deps
    | .a => [.x]
    | .a' => [.y]
    | _ => []
  id
    | .a => ⟨str! "a", str! "1.0.0", false⟩
    | .a' => ⟨str! "a", str! "1.0.0", false⟩
    | .x => ⟨str! "x", str! "1.0.0", true⟩
    | .y => ⟨str! "y", str! "1.0.0", true⟩
  lib
    | .a => some (str! "a")
    | .a' => some (str! "a")
    | .x => some (str! "x")
    | .y => some (str! "y")

def twinIdx : AMap Str (List PkgId) :=
  [(str! "a", [twin.id .a, twin.id .a']), (str! "x", [twin.id .x]), (str! "y", [twin.id .y])]

def twinText : Str := str! "0 a a v1.0.0 (/w/a)\n1 x x v1.0.0\n\n0 a a v1.0.0 (/w/b)\n1 y y v1.0.0\n"

/-- **C16, the full claim fails.** Packages with the same name and version from different sources are
taken for one package: what is recorded are the dependencies of the one listed first. -/
theorem C16_same_version : ¬ C16_Claim := by
  intro h
  have hl : Listing twin [] 0 [.a, .a'] [(0, .a), (1, .x), (0, .a'), (1, .y)] [.y, .a', .x, .a] := by
    have x : Listing twin [.a] 1 [.x] [(1, .x)] [.x, .a] :=
      Listing.new (g := twin) (es₁ := []) (es₂ := []) (by decide) .nil .nil
    have y : Listing twin [.a', .x, .a] 1 [.y] [(1, .y)] [.y, .a', .x, .a] :=
      Listing.new (g := twin) (es₁ := []) (es₂ := []) (by decide) .nil .nil
    have a' : Listing twin [.x, .a] 0 [.a'] [(0, .a'), (1, .y)] [.y, .a', .x, .a] :=
      Listing.new (g := twin) (es₁ := [(1, .y)]) (es₂ := []) (by decide) y .nil
    exact Listing.new (g := twin) (es₁ := [(1, .x)]) (es₂ := [(0, .a'), (1, .y)]) (by decide) x a'
  have hp : Printed twin [(0, .a), (1, .x), (0, .a'), (1, .y)] twinText := by
    refine .entry (line := str! "0 a a v1.0.0 (/w/a)")
      ⟨str! "0", str! " (/w/a)", .one (by decide), Or.inr ⟨_, rfl⟩, by decide⟩ (by decide) (by decide) ?_
    refine .entry (line := str! "1 x x v1.0.0")
      ⟨str! "1", [], .one (by decide), Or.inl rfl, by decide⟩ (by decide) (by decide) ?_
    refine .blank ?_
    refine .entry (line := str! "0 a a v1.0.0 (/w/b)")
      ⟨str! "0", str! " (/w/b)", .one (by decide), Or.inr ⟨_, rfl⟩, by decide⟩ (by decide) (by decide) ?_
    refine .entry (line := str! "1 y y v1.0.0")
      ⟨str! "1", [], .one (by decide), Or.inl rfl, by decide⟩ (by decide) (by decide) ?_
    exact .nil
  have hk : Known twin twinIdx (fun _ => true) :=
    { indexed := by
        intro p
        cases p
        · exact ⟨[twin.id .a, twin.id .a'], by decide⟩
        · exact ⟨[twin.id .a, twin.id .a'], by decide⟩
        · exact ⟨[twin.id .x], by decide⟩
        · exact ⟨[twin.id .y], by decide⟩
      version := by intro p; cases p <;> decide
      name := by intro p; cases p <;> decide
      lib := by intro p l h; cases p <;> simp [twin] at h <;> subst h <;> decide }
  have hac : twin.Acyclic :=
    acyclic_of_rank (fun | .a => 1 | .a' => 1 | _ => 0)
      (fun p q hq => by cases p <;> simp [twin] at hq <;> subst hq <;> simp)
  obtain ⟨st, hb, hx⟩ := h Twin twin twinIdx (fun _ => true) [.a, .a'] _ _ twinText hac hk hl hp
    (by decide)
  obtain ⟨names, h1, h2⟩ := hx .a' (by decide)
  have hres : (build twinIdx (fun _ => true) twinText).map (fun st => st.trans.get? (twin.id .a')) =
      some (some [str! "x"]) := by decide +kernel
  rw [hb] at hres
  simp only [Option.map_some, h1, Option.some.injEq] at hres
  have := (h2 (str! "y")).mpr ⟨.y, .direct (by simp [twin]), rfl⟩
  rw [hres] at this
  exact absurd this (by decide)

/-! ## C80 -/

theorem listing_entries {seen d ps es seen'} (h : Listing g seen d ps es seen') (p : P) :
    p ∈ seen' ↔ p ∈ seen ∨ ∃ e ∈ es, e.2 = p := by
  induction h with
  | nil => simp
  | @again seen d q ps es seen' hq _ ih =>
    rw [ih]
    constructor
    · rintro (h | ⟨e, he, rfl⟩)
      · exact Or.inl h
      · exact Or.inr ⟨e, by simp [he], rfl⟩
    · rintro (h | ⟨e, he, rfl⟩)
      · exact Or.inl h
      · rcases List.mem_cons.mp he with rfl | he
        · exact Or.inl hq
        · exact Or.inr ⟨e, he, rfl⟩
  | @new seen d q ps es₁ seen₁ es₂ seen₂ hq _ _ ih1 ih2 =>
    rw [ih2, ih1]
    simp only [List.mem_cons, List.mem_append]
    constructor
    · rintro (((rfl | h) | ⟨e, he, rfl⟩) | ⟨e, he, rfl⟩)
      · exact Or.inr ⟨(d, p), Or.inl rfl, rfl⟩
      · exact Or.inl h
      · exact Or.inr ⟨e, Or.inr (Or.inl he), rfl⟩
      · exact Or.inr ⟨e, Or.inr (Or.inr he), rfl⟩
    · rintro (h | ⟨e, rfl | he | he, rfl⟩)
      · exact Or.inl (Or.inl (Or.inr h))
      · exact Or.inl (Or.inl (Or.inl rfl))
      · exact Or.inl (Or.inr ⟨e, he, rfl⟩)
      · exact Or.inr ⟨e, he, rfl⟩

theorem visit_libs (st : St) (level : Nat) (lib : Str) (id : PkgId) :
    (visit st level lib id).libs = st.libs.insert lib id := by
  unfold visit
  simp only []
  repeat' split
  all_goals rfl

theorem visits_libs (st : St) (es : List (Nat × P)) (x : Str) :
    (visits g st es).libs.get? x =
      ((es.reverse.find? (fun e => g.crateName e.2 = x)).map (fun e => g.id e.2)).or (st.libs.get? x) := by
  induction es generalizing st with
  | nil => rfl
  | cons e es ih =>
    have : visits g st (e :: es) = visits g (visit st (e.1 + 1) (g.crateName e.2) (g.id e.2)) es := rfl
    rw [this, ih, visit_libs, AMap.get?_insert, List.reverse_cons, List.find?_append]
    cases hf : es.reverse.find? (fun e => g.crateName e.2 = x) with
    | some v => simp
    | none =>
      by_cases he : g.crateName e.2 = x <;> simp [he]

/-- **C80.** For every dependency graph, all roots and every output of `cargo tree` for them: a
crate name is known exactly if a listed package (a root or a transitive dependency of one) provides it,
and the package found for the name is a listed package that provides it; if only one does, it is that
package. -/
theorem C80_providers (g : Graph P) (idx : AMap Str (List PkgId)) (valid : Str → Bool) (roots : List P)
    (es : List (Nat × P)) (listed : List P) (stdout : Str) (hk : Known g idx valid)
    (hl : Listing g [] 0 roots es listed) (hp : Printed g es stdout) (hd : ∀ e ∈ es, e.1 < 2 ^ 64) :
    ∃ st, build idx valid stdout = some st ∧
      (∀ p, p ∈ listed ↔ ∃ r ∈ roots, p = r ∨ g.Dep r p) ∧
      (∀ x, (st.libs.get? x).isSome = true ↔ ∃ p ∈ listed, g.crateName p = x) ∧
      (∀ x i, st.libs.get? x = some i → ∃ p ∈ listed, g.crateName p = x ∧ g.id p = i) ∧
      (∀ p ∈ listed, (∀ q ∈ listed, g.crateName q = g.crateName p → q = p) →
        st.libs.get? (g.crateName p) = some (g.id p)) := by
  have he := listing_entries hl
  refine ⟨(visits g {} es).pop 0, ?_, ?_, ?_, ?_, ?_⟩
  · unfold build
    rw [processLines_printed hk hp hd]
    rfl
  · intro p
    constructor
    · intro hp
      have key : ∀ {seen d ps es seen'}, Listing g seen d ps es seen' → ∀ p ∈ seen', p ∉ seen →
          ∃ r ∈ ps, p = r ∨ g.Dep r p := by
        intro seen d ps es seen' h
        induction h with
        | nil => exact fun p h h' => absurd h h'
        | again _ _ ih =>
          intro p h h'
          obtain ⟨r, hr, hd⟩ := ih p h h'
          exact ⟨r, by simp [hr], hd⟩
        | @new seen d q ps es₁ seen₁ es₂ seen₂ hq h1 _ ih1 ih2 =>
          intro p h h'
          by_cases h1p : p ∈ seen₁
          · by_cases e : p = q
            · exact ⟨q, by simp, Or.inl e⟩
            · obtain ⟨r, hr, hd⟩ := ih1 p h1p (by simp [e, h'])
              refine ⟨q, by simp, Or.inr ?_⟩
              rcases hd with rfl | hd
              · exact .direct hr
              · exact .step hr hd
          · obtain ⟨r, hr, hd⟩ := ih2 p h h1p
            exact ⟨r, by simp [hr], hd⟩
      exact key hl p hp (by simp)
    · rintro ⟨r, hr, h⟩
      have hs := listing_seen hl
      have hroot := hs.2.1 r hr
      rcases h with rfl | h
      · exact hroot
      · clear hr
        induction h with
        | direct h => exact ((hs.2.2 _ hroot).resolve_left (by simp)) _ h
        | step h _ ih => exact ih (((hs.2.2 _ hroot).resolve_left (by simp)) _ h)
  all_goals
    have hlib : ∀ x, ((visits g {} es).pop 0).libs.get? x =
        (es.reverse.find? (fun e => g.crateName e.2 = x)).map (fun e => g.id e.2) := by
      intro x
      have := visits_libs (g := g) {} es x
      simp only [AMap.get?_nil, Option.or_none] at this
      exact this
  · intro x
    rw [hlib, Option.isSome_map, List.find?_isSome]
    simp only [List.mem_reverse, decide_eq_true_eq]
    constructor
    · rintro ⟨e, h, rfl⟩
      exact ⟨e.2, (he _).mpr (Or.inr ⟨e, h, rfl⟩), rfl⟩
    · rintro ⟨p, h, rfl⟩
      rcases (he p).mp h with h | ⟨e, h', rfl⟩
      · exact absurd h (by simp)
      · exact ⟨e, h', rfl⟩
  · intro x i h
    rw [hlib] at h
    simp only [Option.map_eq_some_iff] at h
    obtain ⟨e, h, rfl⟩ := h
    have hm := List.mem_of_find?_eq_some h
    have hx := List.find?_some h
    simp only [List.mem_reverse, decide_eq_true_eq] at hm hx
    exact ⟨e.2, (he _).mpr (Or.inr ⟨e, hm, rfl⟩), hx, rfl⟩
  · intro p hp hu
    rw [hlib]
    cases hf : es.reverse.find? (fun e => g.crateName e.2 = g.crateName p) with
    | none =>
      rw [List.find?_eq_none] at hf
      rcases (he p).mp hp with h | ⟨e, h, rfl⟩
      · exact absurd h (by simp)
      · exact absurd (hf e (by simpa using h)) (by simp)
    | some e =>
      have hm := List.mem_of_find?_eq_some hf
      have hx := List.find?_some hf
      simp only [List.mem_reverse, decide_eq_true_eq] at hm hx
      rw [Option.map_some, hu e.2 ((he _).mpr (Or.inr ⟨e, hm, rfl⟩)) hx]

/-- In the workspace above the names are those of the five packages. -/
example : ((build diaIdx (fun _ => true) diaText).map (fun st => (st.libs.get? (str! "my_base"),
    st.libs.get? (str! "app_2"), st.libs.get? (str! "other")))) =
    some (some (dia.id .base), some (dia.id .app2), none) := by decide +kernel

example := C80_providers dia diaIdx (fun _ => true) [.app, .app2] _ _ diaText dia_known dia_listing
  dia_printed (by decide)

end Cackle.LibTree
