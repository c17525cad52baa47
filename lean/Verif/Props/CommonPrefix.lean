import Verif.Model.CommonPrefix
import Verif.Props.EndToEnd
import Verif.Props.Edits
import Verif.Props.BuildScript

/-!
# C48, C79: prefixes of names, and the edits of API definitions that are offered with them
-/

namespace Cackle.Prefix
open Cackle Graph Config
open Cackle.Names hiding State
open Cackle.ApiMap (Api Classified PrefixOf)
open Cackle.Editor (Edit)
open Cackle.BuildScript (stripPrefix startsWith)

/-! ## Specification -/

/-- The names of a symbol or debug name. -/
def HasNames : SymOrDebug → List (List Str) → Prop
  | .symbol s, l => Gives s (.names l)
  | .debugName ns name, l => DebugGives ns name (.names l)

/-- The beginning of some name of each function. -/
def CommonPrefix (fs : List SymOrDebug) (p : List Str) : Prop :=
  fs ≠ [] ∧ p ≠ [] ∧ ∀ f ∈ fs, ∃ l, HasNames f l ∧ ∃ name ∈ l, p <+: name

/-- As a path. -/
def pathText (p : List Str) : Str := joinWith [':', ':'] p

/-- The functions that the usages are from or to. -/
def ends (from_ : Bool) (usages : List ApiUsage) : List SymOrDebug :=
  usages.map (fun u => if from_ then u.from_ else u.to)

/-- What users see: exactly the common prefixes, sorted and without duplicates. -/
def C48_Claim : Prop := ∀ (n : Nat) (order : List (List Str) → List (List Str)) (from_ : Bool) (usages : List ApiUsage)
  (out : List Str), (∀ l, (order l).Perm l) → commonPrefixes n order from_ usages = .ok out →
    (∀ s, s ∈ out ↔ ∃ p, CommonPrefix (ends from_ usages) p ∧ s = pathText p) ∧ out.Pairwise (· ≤ ·) ∧ out.Nodup

/-! ## Sets of prefixes -/

theorem mem_addPrefixes {x : List Str} : ∀ (name parts : List Str) (set : List (List Str)),
    x ∈ addPrefixes parts name set ↔ x ∈ set ∨ ∃ k, k ≠ [] ∧ k <+: name ∧ x = parts ++ k
  | [], parts, set => by
    simp only [addPrefixes]
    constructor
    · exact .inl
    · rintro (h | ⟨k, h1, h2, _⟩)
      · exact h
      · exact absurd (List.prefix_nil.mp h2) h1
  | p :: rest, parts, set => by
    simp only [addPrefixes]
    rw [mem_addPrefixes rest, mem_setInsert]
    constructor
    · rintro ((rfl | h) | ⟨k, h1, h2, rfl⟩)
      · exact .inr ⟨[p], by simp, by simp, rfl⟩
      · exact .inl h
      · exact .inr ⟨p :: k, by simp, by simpa using h2, by simp⟩
    · rintro (h | ⟨k, h1, h2, rfl⟩)
      · exact .inl (.inr h)
      · cases k with
        | nil => exact absurd rfl h1
        | cons q k =>
          obtain ⟨rfl, h2'⟩ := List.cons_prefix_cons.mp h2
          cases k with
          | nil => exact .inl (.inl rfl)
          | cons r k => exact .inr ⟨r :: k, by simp, h2', by simp⟩

theorem nodup_setInsert' {α : Type} [DecidableEq α] {a : α} {l : List α} (h : l.Nodup) : (setInsert a l).Nodup := by
  unfold setInsert
  split
  · exact h
  · rename_i hn
    first
      | exact List.nodup_cons.mpr ⟨hn, h⟩
      | exact List.nodup_append.mpr ⟨h, by simp, by simpa using fun x hx e => hn (e ▸ hx)⟩

theorem nodup_addPrefixes : ∀ (name parts : List Str) (set : List (List Str)), set.Nodup →
    (addPrefixes parts name set).Nodup
  | [], _, _, h => h
  | _ :: rest, _, _, h => nodup_addPrefixes rest _ _ (nodup_setInsert' h)

theorem mem_prefixSet {x : List Str} (names : List (List Str)) :
    x ∈ prefixSet names ↔ x ≠ [] ∧ ∃ name ∈ names, x <+: name := by
  have : ∀ (names : List (List Str)) (set : List (List Str)),
      x ∈ names.foldl (fun set name => addPrefixes [] name set) set ↔ x ∈ set ∨ (x ≠ [] ∧ ∃ name ∈ names, x <+: name) := by
    intro names
    induction names with
    | nil => simp
    | cons a names ih =>
      intro set
      simp only [List.foldl_cons]
      rw [ih, mem_addPrefixes]
      constructor
      · rintro ((h | ⟨k, h1, h2, rfl⟩) | ⟨h1, name, h2, h3⟩)
        · exact .inl h
        · exact .inr ⟨by simpa using h1, a, by simp, by simpa using h2⟩
        · exact .inr ⟨h1, name, by simp [h2], h3⟩
      · rintro (h | ⟨h1, name, h2, h3⟩)
        · exact .inl (.inl h)
        · rcases List.mem_cons.mp h2 with rfl | h2
          · exact .inl (.inr ⟨x, h1, h3, by simp⟩)
          · exact .inr ⟨h1, name, h2, h3⟩
  unfold prefixSet
  rw [this]
  simp

theorem nodup_prefixSet (names : List (List Str)) : (prefixSet names).Nodup := by
  have : ∀ (names : List (List Str)) (set : List (List Str)), set.Nodup →
      (names.foldl (fun set name => addPrefixes [] name set) set).Nodup := by
    intro names
    induction names with
    | nil => exact fun _ h => h
    | cons a names ih => exact fun set h => ih _ (nodup_addPrefixes a [] set h)
  exact this names [] (by simp)

theorem namesIn_has {n : Nat} {f : SymOrDebug} {l : List (List Str)} (h : namesIn n f = .ok l) : HasNames f l := by
  cases f with
  | symbol s => exact symbolNames_gives (readNames_ok h)
  | debugName ns name => exact debugNames_gives (readNames_ok h)

theorem HasNames.unique {f : SymOrDebug} {l l' : List (List Str)} (h : HasNames f l) (h' : HasNames f l') : l = l' := by
  cases f with
  | symbol s => cases gives_same h h'; rfl
  | debugName ns name => cases debugGives_same h h'; rfl

/-- The state of the loop. -/
theorem checkUsages_spec {n : Nat} {from_ : Bool} : ∀ (us done : List ApiUsage) (st st' : Nat × List (List Str)),
    Res.loop (checkUsage n from_) st us = .ok st' → st.1 = done.length → st.2.Nodup →
    (∀ p, p ∈ st.2 ↔ CommonPrefix (ends from_ done) p) →
    st'.2.Nodup ∧ ∀ p, p ∈ st'.2 ↔ CommonPrefix (ends from_ (done ++ us)) p
  | [], done, st, st', h, _, h2, h3 => by cases h; exact ⟨h2, by simpa using h3⟩
  | u :: us, done, st, st', h, h1, h2, h3 => by
    simp only [Res.loop] at h
    obtain ⟨st1, ha, hb⟩ := bind_ok h
    unfold checkUsage at ha
    obtain ⟨names, hn, ha⟩ := bind_ok ha
    cases ha
    have hn := namesIn_has hn
    have hone : ∀ p, p ∈ prefixSet names ↔ p ≠ [] ∧ ∃ l, HasNames (if from_ then u.from_ else u.to) l ∧ ∃ name ∈ l, p <+: name := by
      intro p
      rw [mem_prefixSet]
      constructor
      · rintro ⟨e1, e2⟩
        exact ⟨e1, names, hn, e2⟩
      · rintro ⟨e1, l, e2, e3⟩
        cases hn.unique e2
        exact ⟨e1, e3⟩
    have := checkUsages_spec us (done ++ [u]) _ st' hb (by simp [checkNames, h1]) (by
      simp only [checkNames]
      split
      · exact nodup_prefixSet names
      · exact h2.filter _) (by
      intro p
      simp only [checkNames]
      split
      · rename_i h0
        have : done = [] := by
          rw [h1] at h0
          exact List.eq_nil_of_length_eq_zero h0
        subst this
        rw [hone]
        simp [CommonPrefix, ends]
      · rename_i h0
        have : done ≠ [] := by
          intro e
          rw [h1, e] at h0
          exact h0 rfl
        rw [List.mem_filter, h3, decide_eq_true_eq, hone]
        unfold CommonPrefix ends
        rw [List.map_append]
        constructor
        · rintro ⟨⟨_, e2, e3⟩, _, e4⟩
          refine ⟨by simp, e2, fun f hf => ?_⟩
          rcases List.mem_append.mp hf with hf | hf
          · exact e3 f hf
          · cases List.mem_singleton.mp hf
            exact e4
        · rintro ⟨_, e2, e3⟩
          exact ⟨⟨by simpa using this, e2, fun f hf => e3 f (List.mem_append_left _ hf)⟩, e2,
            e3 _ (List.mem_append_right _ (by simp))⟩)
    simpa using this

/-! ## Sorting -/

theorem strLe_iff : ∀ (a b : Str), strLe a b = true ↔ a ≤ b
  | [], b => by simp [strLe]
  | x :: a, [] => by simp [strLe]
  | x :: a, y :: b => by
    simp only [strLe]
    rw [List.cons_le_cons_iff, ← strLe_iff a b]
    have hlt : x.val < y.val ↔ x < y := Iff.rfl
    by_cases h : x.val < y.val
    · simp [h, hlt.mp h]
    · by_cases e : x = y
      · simp [e]
      · simp [h, e, hlt]
        exact Char.not_lt.mp (fun h' => h (hlt.mpr h'))

theorem insertSorted_perm (a : Str) : ∀ l : List Str, (insertSorted a l).Perm (a :: l)
  | [] => .refl _
  | b :: l => by
    unfold insertSorted
    split
    · exact .refl _
    · exact ((insertSorted_perm a l).cons b).trans (List.Perm.swap a b l)

theorem sortStr_perm : ∀ l : List Str, (sortStr l).Perm l
  | [] => .refl _
  | a :: l => (insertSorted_perm a (sortStr l)).trans ((sortStr_perm l).cons a)

theorem insertSorted_sorted (a : Str) : ∀ l : List Str, l.Pairwise (fun x y => strLe x y = true) →
    (insertSorted a l).Pairwise (fun x y => strLe x y = true)
  | [], _ => by simp [insertSorted]
  | b :: l, h => by
    unfold insertSorted
    split
    · rename_i hab
      refine List.pairwise_cons.mpr ⟨fun y hy => ?_, h⟩
      rcases List.mem_cons.mp hy with rfl | hy
      · exact hab
      · exact Editor.strLe_trans hab (List.rel_of_pairwise_cons h hy)
    · rename_i hab
      refine List.pairwise_cons.mpr ⟨fun y hy => ?_, insertSorted_sorted a l (List.Pairwise.of_cons h)⟩
      rcases List.mem_cons.mp ((insertSorted_perm a l).mem_iff.mp hy) with rfl | hy
      · exact (Editor.strLe_total (by simpa using hab)).1
      · exact List.rel_of_pairwise_cons h hy

theorem sortStr_sorted : ∀ l : List Str, (sortStr l).Pairwise (fun x y => strLe x y = true)
  | [] => List.Pairwise.nil
  | a :: l => insertSorted_sorted a (sortStr l) (sortStr_sorted l)

/-! ## Paths -/

theorem splitColons_cons {c : Char} (h : c ≠ ':') (s : Str) : ∃ a l, splitColons s = a :: l ∧
    splitColons (c :: s) = (c :: a) :: l := by
  cases hs : splitColons s with
  | nil => exact absurd hs (ApiMap.splitColons_ne_nil s)
  | cons a l =>
    refine ⟨a, l, rfl, ?_⟩
    rw [splitColons.eq_def]
    split
    · rename_i heq; cases heq
    · rename_i heq; cases heq; exact absurd rfl h
    · rename_i heq
      cases heq
      rw [hs]

theorem splitColons_plain : ∀ (p : Str), ':' ∉ p → splitColons p = [p]
  | [], _ => rfl
  | c :: p, h => by
    simp only [List.mem_cons, not_or] at h
    obtain ⟨a, l, h1, h2⟩ := splitColons_cons (fun e => h.1 e.symm) p
    rw [splitColons_plain p h.2] at h1
    cases h1
    exact h2

theorem splitColons_append : ∀ (p s : Str), ':' ∉ p → splitColons (p ++ ':' :: ':' :: s) = p :: splitColons s
  | [], s, _ => by simp [splitColons]
  | c :: p, s, h => by
    simp only [List.mem_cons, not_or] at h
    obtain ⟨a, l, h1, h2⟩ := splitColons_cons (fun e => h.1 e.symm) (p ++ ':' :: ':' :: s)
    rw [splitColons_append p s h.2] at h1
    cases h1
    exact h2

/-- Reading a path gives its parts back. -/
theorem split_pathText : ∀ (p : List Str), p ≠ [] → (∀ a ∈ p, ':' ∉ a) → splitColons (pathText p) = p
  | [], h, _ => absurd rfl h
  | [a], _, h => splitColons_plain a (h a (by simp))
  | a :: b :: l, _, h => by
    have ih := split_pathText (b :: l) (by simp) (fun x hx => h x (List.mem_cons_of_mem _ hx))
    show splitColons (a ++ [':', ':'] ++ pathText (b :: l)) = _
    rw [List.append_assoc]
    show splitColons (a ++ ':' :: ':' :: pathText (b :: l)) = _
    rw [splitColons_append a _ (h a (by simp)), ih]

/-! ## C48 -/

/-- **C48.** For all usages, and in whatever order the set is gone through: what is returned is sorted and consists of
one text for each common prefix. -/
theorem C48_exact (n : Nat) (order : List (List Str) → List (List Str)) (from_ : Bool) (usages : List ApiUsage)
    (out : List Str) (ho : ∀ l, (order l).Perm l) (h : commonPrefixes n order from_ usages = .ok out) :
    out.Pairwise (· ≤ ·) ∧ ∃ ps : List (List Str), ps.Nodup ∧ (∀ p, p ∈ ps ↔ CommonPrefix (ends from_ usages) p) ∧
      out.Perm (ps.map pathText) := by
  unfold commonPrefixes at h
  obtain ⟨st, h1, h2⟩ := bind_ok h
  cases h2
  obtain ⟨g1, g2⟩ := checkUsages_spec usages [] (0, []) st h1 rfl (by simp) (by simp [CommonPrefix, ends])
  refine ⟨(sortStr_sorted _).imp (fun h => (strLe_iff _ _).mp h), order st.2, (ho _).nodup_iff.mpr g1, fun p => ?_,
    sortStr_perm _⟩
  rw [(ho _).mem_iff, g2]
  simp

/-- The parts of the names have no colons. -/
def Plain (f : SymOrDebug) : Prop := ∀ l, HasNames f l → ∀ name ∈ l, ∀ a ∈ name, ':' ∉ a

theorem CommonPrefix.plain {fs : List SymOrDebug} {p : List Str} (h : CommonPrefix fs p) (hp : ∀ f ∈ fs, Plain f) :
    ∀ a ∈ p, ':' ∉ a := by
  obtain ⟨h1, _, h2⟩ := h
  obtain ⟨f, hf⟩ := List.exists_mem_of_ne_nil _ h1
  obtain ⟨l, hl, name, hn, hpre⟩ := h2 f hf
  exact fun a ha => hp f hf l hl name hn a (hpre.subset ha)

/-- **C48.** If in addition the parts of the names have no colons, there are no duplicates.

What is missing: names in debug info whose namespaces contain `::`, see `C48_duplicates`. -/
theorem C48_prefixes_partial (n : Nat) (order : List (List Str) → List (List Str)) (from_ : Bool) (usages : List ApiUsage)
    (out : List Str) (ho : ∀ l, (order l).Perm l) (h : commonPrefixes n order from_ usages = .ok out)
    (hp : ∀ f ∈ ends from_ usages, Plain f) :
    (∀ s, s ∈ out ↔ ∃ p, CommonPrefix (ends from_ usages) p ∧ s = pathText p) ∧ out.Pairwise (· ≤ ·) ∧ out.Nodup := by
  obtain ⟨h1, ps, h2, h3, h4⟩ := C48_exact n order from_ usages out ho h
  refine ⟨fun s => ?_, h1, h4.nodup_iff.mpr ?_⟩
  · rw [h4.mem_iff, List.mem_map]
    constructor
    · rintro ⟨p, e1, e2⟩
      exact ⟨p, (h3 p).mp e1, e2.symm⟩
    · rintro ⟨p, e1, e2⟩
      exact ⟨p, (h3 p).mpr e1, e2.symm⟩
  · refine List.pairwise_map.mpr (List.Pairwise.imp_of_mem (R := (· ≠ ·)) ?_ h2)
    intro p q hpp hqq hne e
    apply hne
    have e1 := split_pathText p ((h3 p).mp hpp).2.1 (((h3 p).mp hpp).plain hp)
    have e2 := split_pathText q ((h3 q).mp hqq).2.1 (((h3 q).mp hqq).plain hp)
    rw [← e1, ← e2, e]

private def usage (f : SymOrDebug) : ApiUsage :=
  { address := 0, symbolStart := 0, binPath := [], scope := .all, loc := ⟨[], 0, none⟩, outer := none,
    from_ := f, to := f, toName := [], toSource := f }

/-- A method of the type `a::b`, with a type parameter in the module `a::b`: this path is returned twice. -/
theorem C48_duplicates : ¬ C48_Claim := by
  intro h
  have := (h 40 id true [usage (.debugName [str! "a::b"] (str! "f<a::b::c>"))]
    [str! "a", str! "a::b", str! "a::b", str! "a::b::c", str! "a::b::f"] (fun _ => .refl _) (by decide +kernel)).2.2
  revert this
  decide

/-! Non-vacuity of C48. -/

private def f1 : SymOrDebug := .debugName [str! "std", str! "fs"] (str! "read<foo::Bar>")
private def f2 : SymOrDebug := .debugName [str! "std"] (str! "fs::write")

example : commonPrefixes 40 id true [usage f1, usage f2] = .ok [str! "std", str! "std::fs"] := by decide +kernel

private theorem f1_names : HasNames f1 [[str! "std", str! "fs", str! "read"], [str! "foo", str! "Bar"], []] :=
  namesIn_has (n := 40) (by decide +kernel)
private theorem f2_names : HasNames f2 [[str! "std", str! "fs", str! "write"], []] :=
  namesIn_has (n := 40) (by decide +kernel)

example : ∀ f ∈ ends true [usage f1, usage f2], Plain f := by
  intro f hf l hl
  simp only [ends, usage, List.map_cons, List.map_nil, if_true, List.mem_cons, List.not_mem_nil, or_false] at hf
  rcases hf with rfl | rfl
  · cases hl.unique f1_names
    decide
  · cases hl.unique f2_names
    decide

/-! ## C79: edits of API definitions that are offered for uses of APIs -/

/-- The name belongs to an API with this definition. -/
def InDef (d : ApiCfg) (name : List Str) : Prop := (∃ p ∈ d.incl, PrefixOf p name) ∧ ¬ ∃ p ∈ d.excl, PrefixOf p name

/-- As in C01, if no API is defined twice. -/
theorem inDef_iff {apis : AMap Api ApiCfg} (hn : (AMap.keys apis).Nodup) (name : List Str) (a : Api) :
    Classified (defsOf apis) name a ↔ ∃ d, apis.get? a = some d ∧ InDef d name := by
  unfold Classified defsOf InDef
  constructor
  · rintro ⟨d, hm, h⟩
    obtain ⟨e, he, heq⟩ := List.mem_map.mp hm
    cases heq
    exact ⟨e.2, AMap.get?_of_mem hn he, h⟩
  · rintro ⟨d, hm, h⟩
    exact ⟨⟨d.incl, d.excl⟩, List.mem_map.mpr ⟨(a, d), AMap.mem_of_get? hm, rfl⟩, h⟩

/-- The situation: the file was loaded, the edit was offered for these usages and applied, and this is the new
definition. -/
structure Accepted (offered : AMap Api ApiCfg → ApiUsages → List Edit) (builtIns : AMap Api ApiCfg) (n : Nat)
    (doc : Toml.Entries) (r : Raw) (u : ApiUsages) (e : Edit) (doc' : Toml.Entries) : Prop where
  load : Editor.load builtIns (n + 2) doc = some r
  offered : e ∈ offered r.apis u
  applied : e.apply doc = some doc'

/-- The new definition of an API. -/
def NewDef (builtIns : AMap Api ApiCfg) (n : Nat) (doc' : Toml.Entries) (a : Api) (d : ApiCfg) : Prop :=
  ∃ r', Editor.load builtIns (n + 2) doc' = some r' ∧ r'.apis.get? a = some d

/-- What users expect: after an offered exclusion, the used names are not in the API any more. -/
def C79_ExcludeClaim : Prop := ∀ (k : Nat) (order : List (List Str) → List (List Str)) (builtIns : AMap Api ApiCfg) (n : Nat)
  (doc : Toml.Entries) (r : Raw) (u : ApiUsages) (e : Edit) (doc' : Toml.Entries), (∀ l, (order l).Perm l) →
  Accepted (excludeFixes k order) builtIns n doc r u e doc' → ∃ d, NewDef builtIns n doc' u.api d ∧
    ∀ x ∈ u.usages, ¬ InDef d x.toName

/-- What users expect: after an offered inclusion, the functions that use the API are themselves in it. -/
def C79_IncludeClaim : Prop := ∀ (k : Nat) (order : List (List Str) → List (List Str)) (builtIns : AMap Api ApiCfg) (n : Nat)
  (doc : Toml.Entries) (r : Raw) (u : ApiUsages) (e : Edit) (doc' : Toml.Entries), (∀ l, (order l).Perm l) →
  Accepted (includeFixes k order) builtIns n doc r u e doc' → ∃ d, NewDef builtIns n doc' u.api d ∧
    ∀ x ∈ u.usages, ∃ l, HasNames x.from_ l ∧ ∃ name ∈ l, InDef d name

theorem mem_excludeFixes {k : Nat} {order : List (List Str) → List (List Str)} {apis : AMap Api ApiCfg} {u : ApiUsages}
    {e : Edit} (ho : ∀ l, (order l).Perm l) (h : e ∈ excludeFixes k order apis u) :
    ∃ d p, apis.get? u.api = some d ∧ e = .excludeFromApi u.api (pathText p) ∧ CommonPrefix (ends false u.usages) p := by
  unfold excludeFixes at h
  split at h
  · rename_i d prefixes hd hp
    obtain ⟨s, hs, rfl⟩ := List.mem_map.mp h
    unfold excludePaths at hs
    obtain ⟨hs, _⟩ := List.mem_filter.mp hs
    obtain ⟨_, ps, _, h3, h4⟩ := C48_exact k order false u.usages prefixes ho hp
    obtain ⟨p, hp1, rfl⟩ := List.mem_map.mp (h4.mem_iff.mp hs)
    exact ⟨d, p, hd, rfl, (h3 p).mp hp1⟩
  · cases h

theorem mem_includeFixes {k : Nat} {order : List (List Str) → List (List Str)} {apis : AMap Api ApiCfg} {u : ApiUsages}
    {e : Edit} (ho : ∀ l, (order l).Perm l) (h : e ∈ includeFixes k order apis u) :
    ∃ d p, apis.get? u.api = some d ∧ e = .extendApi u.api (pathText p) ∧ CommonPrefix (ends true u.usages) p := by
  unfold includeFixes at h
  split at h
  · rename_i d prefixes hd hp
    obtain ⟨s, hs, rfl⟩ := List.mem_map.mp h
    unfold includePaths at hs
    obtain ⟨hs, _⟩ := List.mem_filter.mp hs
    obtain ⟨_, ps, _, h3, h4⟩ := C48_exact k order true u.usages prefixes ho hp
    obtain ⟨p, hp1, rfl⟩ := List.mem_map.mp (h4.mem_iff.mp hs)
    exact ⟨d, p, hd, rfl, (h3 p).mp hp1⟩
  · cases h

/-- **C79.** For all configuration files and usages: after an offered exclusion, the used names are not in the API any
more, provided that the used functions have no other names than the used one, whose parts have no colons.

What is missing: functions with several names, see `C79_other_name`. -/
theorem C79_exclude_partial (k : Nat) (order : List (List Str) → List (List Str)) (builtIns : AMap Api ApiCfg) (n : Nat)
    (doc : Toml.Entries) (r : Raw) (u : ApiUsages) (e : Edit) (doc' : Toml.Entries) (ho : ∀ l, (order l).Perm l)
    (ha : Accepted (excludeFixes k order) builtIns n doc r u e doc')
    (hone : ∀ x ∈ u.usages, ∀ l, HasNames x.to l → ∀ name ∈ l, name ≠ [] → name = x.toName)
    (hp : ∀ x ∈ u.usages, Plain x.to) :
    ∃ d, NewDef builtIns n doc' u.api d ∧ ∀ x ∈ u.usages, ¬ InDef d x.toName := by
  obtain ⟨d0, p, hd, rfl, hpre⟩ := mem_excludeFixes ho ha.offered
  obtain ⟨r', hl, hadd, _⟩ := Editor.C70_exact_edit builtIns n doc doc' r _ (.inl rfl) ha.load ha.applied
  obtain ⟨_, d, hd', _, hex, _⟩ := hadd
  refine ⟨d, ⟨r', hl, hd'⟩, fun x hx hin => hin.2 ⟨pathText p, (hex _).mpr (.inr (by simp)), ?_⟩⟩
  have hmem : x.to ∈ ends false u.usages := List.mem_map.mpr ⟨x, hx, rfl⟩
  obtain ⟨l, hl, name, hn, hpn⟩ := hpre.2.2 _ hmem
  have hne : name ≠ [] := by
    rintro rfl
    exact hpre.2.1 (List.prefix_nil.mp hpn)
  rw [← hone x hx l hl name hn hne]
  unfold PrefixOf
  rw [split_pathText p hpre.2.1 (hpre.plain (fun f hf => by
    obtain ⟨y, hy, rfl⟩ := List.mem_map.mp hf
    exact hp y hy))]
  exact hpn

/-- **C79.** For all configuration files and usages: after an offered inclusion, the functions that use the API are in
it, provided that the API excludes none of their names and that the parts of these have no colons.

What is missing: excluded names, see `C79_excluded`. -/
theorem C79_include_partial (k : Nat) (order : List (List Str) → List (List Str)) (builtIns : AMap Api ApiCfg) (n : Nat)
    (doc : Toml.Entries) (r : Raw) (u : ApiUsages) (e : Edit) (doc' : Toml.Entries) (ho : ∀ l, (order l).Perm l)
    (ha : Accepted (includeFixes k order) builtIns n doc r u e doc')
    (hex : ∀ d, r.apis.get? u.api = some d → ∀ x ∈ u.usages, ∀ l, HasNames x.from_ l → ∀ name ∈ l,
      ¬ ∃ p ∈ d.excl, PrefixOf p name)
    (hp : ∀ x ∈ u.usages, Plain x.from_) :
    ∃ d, NewDef builtIns n doc' u.api d ∧ ∀ x ∈ u.usages, ∃ l, HasNames x.from_ l ∧ ∃ name ∈ l, InDef d name := by
  obtain ⟨d0, p, hd, rfl, hpre⟩ := mem_includeFixes ho ha.offered
  obtain ⟨r', hl, hadd, _⟩ := Editor.C70_exact_edit builtIns n doc doc' r _ (.inl rfl) ha.load ha.applied
  obtain ⟨_, d, hd', hin, hexd, _⟩ := hadd
  rw [hd] at hin hexd
  refine ⟨d, ⟨r', hl, hd'⟩, fun x hx => ?_⟩
  have hmem : x.from_ ∈ ends true u.usages := List.mem_map.mpr ⟨x, hx, rfl⟩
  obtain ⟨l, hl, name, hn, hpn⟩ := hpre.2.2 _ hmem
  refine ⟨l, hl, name, hn, ⟨pathText p, (hin _).mpr (.inr (by simp)), ?_⟩, ?_⟩
  · unfold PrefixOf
    rw [split_pathText p hpre.2.1 (hpre.plain (fun f hf => by
      obtain ⟨y, hy, rfl⟩ := List.mem_map.mp hf
      exact hp y hy))]
    exact hpn
  · rintro ⟨q, hq, hqn⟩
    rcases (hexd q).mp hq with hq | hq
    · exact hex d0 hd x hx l hl name hn ⟨q, hq, hqn⟩
    · cases hq

theorem pathText_append : ∀ (a b : List Str), a ≠ [] → b ≠ [] → pathText (a ++ b) = pathText a ++ ':' :: ':' :: pathText b
  | [], _, h, _ => absurd rfl h
  | [_], _ :: _, _, _ => by simp [pathText, joinWith]
  | x :: y :: a, b, _, hb => by
    have ih := pathText_append (y :: a) b (by simp) hb
    show x ++ [':', ':'] ++ pathText (y :: a ++ b) = x ++ [':', ':'] ++ pathText (y :: a) ++ _
    rw [ih]
    simp [List.append_assoc]
  | [_], [], _, h => absurd rfl h

theorem split_append : ∀ (a : List Str) (s : Str), a ≠ [] → (∀ x ∈ a, ':' ∉ x) →
    splitColons (pathText a ++ ':' :: ':' :: s) = a ++ splitColons s
  | [], _, h, _ => absurd rfl h
  | [x], s, _, h => splitColons_append x s (h x (by simp))
  | x :: y :: a, s, _, h => by
    have ih := split_append (y :: a) s (by simp) (fun z hz => h z (List.mem_cons_of_mem _ hz))
    show splitColons (x ++ [':', ':'] ++ pathText (y :: a) ++ ':' :: ':' :: s) = _
    rw [show x ++ [':', ':'] ++ pathText (y :: a) ++ ':' :: ':' :: s =
      x ++ ':' :: ':' :: (pathText (y :: a) ++ ':' :: ':' :: s) by simp [List.append_assoc]]
    rw [splitColons_append x _ (h x (by simp)), ih]
    rfl

theorem extends_iff {q p : Str} : extends_ q p = true ↔ ∃ r, p = q ++ ':' :: ':' :: r := by
  unfold extends_
  split
  · rename_i remain h
    rw [BuildScript.stripPrefix_eq] at h
    rw [BuildScript.startsWith_iff]
    constructor
    · rintro ⟨r, rfl⟩
      exact ⟨r, h⟩
    · rintro ⟨r, e⟩
      rw [h] at e
      exact ⟨r, (List.append_cancel_left e).symm⟩
  · rename_i h
    simp only [Bool.false_eq_true, false_iff]
    rintro ⟨r, e⟩
    rw [BuildScript.stripPrefix_eq.mpr e] at h
    cases h

/-- **C79.** An inclusion is offered only for a path that is not included yet. -/
theorem C79_include_new (k : Nat) (order : List (List Str) → List (List Str)) (apis : AMap Api ApiCfg) (u : ApiUsages)
    (e : Edit) (ho : ∀ l, (order l).Perm l) (h : e ∈ includeFixes k order apis u) :
    ∃ d p, apis.get? u.api = some d ∧ e = .extendApi u.api (pathText p) ∧ CommonPrefix (ends true u.usages) p ∧
      ¬ ∃ q ∈ d.incl, PrefixOf q p := by
  unfold includeFixes at h
  split at h
  · rename_i d prefixes hd hp
    obtain ⟨s, hs, rfl⟩ := List.mem_map.mp h
    unfold includePaths at hs
    obtain ⟨hs, hc⟩ := List.mem_filter.mp hs
    obtain ⟨_, ps, _, h3, h4⟩ := C48_exact k order true u.usages prefixes ho hp
    obtain ⟨p, hp1, rfl⟩ := List.mem_map.mp (h4.mem_iff.mp hs)
    refine ⟨d, p, hd, rfl, (h3 p).mp hp1, ?_⟩
    rintro ⟨q, hq, t, ht⟩
    apply (of_decide_eq_true hc).2
    refine List.any_eq_true.mpr ⟨q, hq, ?_⟩
    have hj := ApiMap.C01_split_join q
    have hne := ApiMap.splitColons_ne_nil q
    rw [Bool.or_eq_true, beq_iff_eq, extends_iff]
    rw [← ht]
    cases t with
    | nil => exact .inl (by rw [List.append_nil]; exact hj.symm)
    | cons x t =>
      refine .inr ⟨pathText (x :: t), ?_⟩
      rw [pathText_append _ _ hne (by simp)]
      exact congrArg (· ++ _) hj
  · cases h

/-- **C79.** An exclusion is offered only for a proper part of something that is included, if no parts of included paths
and of used names have colons. -/
theorem C79_exclude_inside (k : Nat) (order : List (List Str) → List (List Str)) (apis : AMap Api ApiCfg) (u : ApiUsages)
    (e : Edit) (ho : ∀ l, (order l).Perm l) (h : e ∈ excludeFixes k order apis u)
    (hi : ∀ d, apis.get? u.api = some d → ∀ q ∈ d.incl, ∀ a ∈ splitColons q, ':' ∉ a)
    (hpl : ∀ x ∈ u.usages, Plain x.to) :
    ∃ d p, apis.get? u.api = some d ∧ e = .excludeFromApi u.api (pathText p) ∧ CommonPrefix (ends false u.usages) p ∧
      ∃ q ∈ d.incl, PrefixOf q p ∧ splitColons q ≠ p := by
  unfold excludeFixes at h
  split at h
  · rename_i d prefixes hd hp
    obtain ⟨s, hs, rfl⟩ := List.mem_map.mp h
    unfold excludePaths at hs
    obtain ⟨hs, hc⟩ := List.mem_filter.mp hs
    obtain ⟨_, ps, _, h3, h4⟩ := C48_exact k order false u.usages prefixes ho hp
    obtain ⟨p, hp1, rfl⟩ := List.mem_map.mp (h4.mem_iff.mp hs)
    have hcp := (h3 p).mp hp1
    refine ⟨d, p, hd, rfl, hcp, ?_⟩
    obtain ⟨q, hq, hx⟩ := List.any_eq_true.mp (of_decide_eq_true hc).2
    obtain ⟨r, hr⟩ := extends_iff.mp hx
    have h1 := split_append (splitColons q) r (ApiMap.splitColons_ne_nil q) (hi d hd q hq)
    rw [show pathText (splitColons q) = q from ApiMap.C01_split_join q, ← hr, split_pathText p hcp.2.1 (hcp.plain (fun f hf => by
      obtain ⟨y, hy, rfl⟩ := List.mem_map.mp hf
      exact hpl y hy))] at h1
    refine ⟨q, hq, ⟨_, h1.symm⟩, fun e => ?_⟩
    rw [e] at h1
    have : splitColons r = [] := by simpa using h1
    exact ApiMap.splitColons_ne_nil r this
  · cases h

/-! ## Witnesses -/

private def exDoc (incl excl : List Str) : Toml.Entries :=
  [(str! "common", .table [(str! "version", .int 3)]),
   (str! "api", .table [(str! "fs", .table [(str! "include", .array (incl.map .str)), (str! "exclude", .array (excl.map .str))])])]
private def exUsages (from_ to : SymOrDebug) (toName : List Str) : ApiUsages :=
  { pkg := ⟨str! "p", str! "1.0.0", true⟩, scope := .all, api := str! "fs",
    usages := [{ usage from_ with to := to, toName := toName }] }

private def loaded (doc : Toml.Entries) : Option ApiCfg := (Editor.load [] 2 doc).bind (fun r => r.apis.get? (str! "fs"))

private theorem newDef_eq {doc : Toml.Entries} {d d' : ApiCfg} (h : loaded doc = some d)
    (h' : NewDef [] 0 doc (str! "fs") d') : d' = d := by
  obtain ⟨r, h1, h2⟩ := h'
  unfold loaded at h
  rw [h1] at h
  simp only [Option.bind_some] at h
  rw [h2] at h
  exact Option.some.inj h

private theorem accepted {offered : AMap Api ApiCfg → ApiUsages → List Edit} {doc doc' : Toml.Entries} {u : ApiUsages}
    {e : Edit} (h : ((Editor.load [] 2 doc).map (fun r => decide (e ∈ offered r.apis u))) = some true)
    (ha : e.apply doc = some doc') : ∃ r, Accepted offered [] 0 doc r u e doc' := by
  obtain ⟨r, h1, h2⟩ := Option.map_eq_some_iff.mp h
  exact ⟨r, h1, of_decide_eq_true h2, ha⟩

private def generic : SymOrDebug := .debugName [str! "std", str! "fs"] (str! "write<std::path::Path>")
private def caller : SymOrDebug := .debugName [str! "foo", str! "bar"] (str! "f")
private def excl1 : ApiUsages := exUsages caller generic [str! "std", str! "fs", str! "write"]

/-- For the use of `std::fs::write<std::path::Path>`, to exclude `std::path::Path` is offered, although it is
`std::fs::write` that is in the API. -/
theorem C79_other_name : ¬ C79_ExcludeClaim := by
  intro h
  obtain ⟨r, ha⟩ := accepted (offered := excludeFixes 40 id) (doc := exDoc [str! "std::fs", str! "std::path"] [])
    (doc' := exDoc [str! "std::fs", str! "std::path"] [str! "std::path::Path"]) (u := excl1)
    (e := .excludeFromApi (str! "fs") (str! "std::path::Path")) (by decide +kernel) (by rfl)
  obtain ⟨d, hd, hno⟩ := h 40 id [] 0 _ r excl1 _ _ (fun _ => .refl _) ha
  cases newDef_eq (d := { incl := [str! "std::fs", str! "std::path"], excl := [str! "std::path::Path"] })
    (by decide +kernel) hd
  refine hno _ (List.mem_singleton.mpr rfl) ⟨⟨str! "std::fs", by decide, by unfold PrefixOf; decide +kernel⟩, ?_⟩
  unfold PrefixOf
  decide +kernel

private def incl1 : ApiUsages := exUsages caller f2 [str! "std", str! "fs", str! "write"]

private theorem caller_names : HasNames caller [[str! "foo", str! "bar", str! "f"], []] :=
  namesIn_has (n := 40) (by decide +kernel)

/-- If `foo` is excluded, to include `foo::bar` is offered, which has no effect. -/
theorem C79_excluded : ¬ C79_IncludeClaim := by
  intro h
  obtain ⟨r, ha⟩ := accepted (offered := includeFixes 40 id) (doc := exDoc [str! "std::fs"] [str! "foo"])
    (doc' := exDoc [str! "foo::bar", str! "std::fs"] [str! "foo"]) (u := incl1)
    (e := .extendApi (str! "fs") (str! "foo::bar")) (by decide +kernel) (by rfl)
  obtain ⟨d, hd, hall⟩ := h 40 id [] 0 _ r incl1 _ _ (fun _ => .refl _) ha
  cases newDef_eq (d := { incl := [str! "foo::bar", str! "std::fs"], excl := [str! "foo"] }) (by decide +kernel) hd
  obtain ⟨l, hl, name, hn, hin⟩ := hall _ (List.mem_singleton.mpr rfl)
  cases hl.unique caller_names
  revert hin
  unfold InDef PrefixOf
  revert name
  decide +kernel

/-! Non-vacuity of C79. -/

private def excl2 : ApiUsages := exUsages caller f2 [str! "std", str! "fs", str! "write"]

example : ∃ r, Accepted (excludeFixes 40 id) [] 0 (exDoc [str! "std"] []) r excl2
    (.excludeFromApi (str! "fs") (str! "std::fs")) (exDoc [str! "std"] [str! "std::fs"]) :=
  accepted (by decide +kernel) (by rfl)
example : ∀ x ∈ excl2.usages, ∀ l, HasNames x.to l → ∀ name ∈ l, name ≠ [] → name = x.toName := by
  intro x hx l hl
  cases List.mem_singleton.mp hx
  cases hl.unique f2_names
  decide
example : ∃ r, Accepted (includeFixes 40 id) [] 0 (exDoc [str! "std::fs"] [str! "foo::baz"]) r incl1
    (.extendApi (str! "fs") (str! "foo::bar")) (exDoc [str! "foo::bar", str! "std::fs"] [str! "foo::baz"]) :=
  accepted (by decide +kernel) (by rfl)
example : ∀ x ∈ incl1.usages, ∀ l, HasNames x.from_ l → ∀ name ∈ l, ¬ ∃ p ∈ [str! "foo::baz"], PrefixOf p name := by
  intro x hx l hl
  cases List.mem_singleton.mp hx
  cases hl.unique caller_names
  unfold PrefixOf
  decide +kernel

end Cackle.Prefix
