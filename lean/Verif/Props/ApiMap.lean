import Verif.Lemmas.ApiMap

/-!
# C01, C02: classification of names by API definitions

Specification, independent of the tree used by the code: an API classifies a name iff one of its
include paths is a component-wise prefix of the name and none of its exclude paths is.
-/

namespace Cackle.ApiMap

/-- `path` (text with `::` separators) is a component-wise prefix of `name`. -/
def PrefixOf (path : Str) (name : List Str) : Prop := splitColons path <+: name

/-- The English specification of C01. -/
def Classified (apis : List (Api × ApiDef)) (name : List Str) (a : Api) : Prop :=
  ∃ d, (a, d) ∈ apis ∧ (∃ p ∈ d.incl, PrefixOf p name) ∧ ¬ ∃ p ∈ d.excl, PrefixOf p name

/-- Splitting loses nothing: joining the components with `::` gives the text back. -/
theorem C01_split_join (s : Str) : joinWith [':', ':'] (splitColons s) = s := by
  fun_induction splitColons s with
  | case1 => rfl
  | case2 rest ih =>
    cases h : splitColons rest with
    | nil => exact absurd h (splitColons_ne_nil rest)
    | cons a l => rw [h] at ih; simp [joinWith, ih]
  | case3 c rest hne h ih => exact absurd h (splitColons_ne_nil rest)
  | case4 c rest hne h t heq ih =>
    rw [heq] at ih
    cases t with
    | nil => simp [joinWith] at ih ⊢; exact ih
    | cons b l => simp [joinWith] at ih ⊢; exact ih

/-- No component contains the separator. -/
theorem C01_split_components (s : Str) : ∀ part ∈ splitColons s, ¬ [':', ':'] <:+: part := by
  fun_induction splitColons s with
  | case1 => simp
  | case2 rest ih =>
    intro part hp
    rcases List.mem_cons.mp hp with rfl | hp
    · simp
    · exact ih part hp
  | case3 c rest hne h ih => exact absurd h (splitColons_ne_nil rest)
  | case4 c rest hne h t heq ih =>
    rw [heq] at ih
    intro part hp
    rcases List.mem_cons.mp hp with rfl | hp
    · intro hinf
      rcases List.infix_cons_iff.mp hinf with hpre | hinf
      · -- `c :: h` starts with `::`, so the text starts with `::`
        obtain ⟨l, hl⟩ := hpre
        simp only [List.cons_append, List.nil_append, List.cons.injEq] at hl
        obtain ⟨rfl, rfl⟩ := hl
        have := C01_split_join rest
        rw [heq] at this
        cases t with
        | nil =>
          simp [joinWith] at this
          exact hne _ rfl this.symm
        | cons b l' =>
          simp [joinWith] at this
          exact hne _ rfl this.symm
      · exact ih h (by simp) hinf
    · exact ih part (by simp [hp])

/-- **C01/C02.** Loading any API definitions, whatever was loaded before, never panics, and the APIs
found for a name are exactly those the specification gives. -/
theorem C01_classification (apis : List (Api × ApiDef)) (hkeys : (apis.map Prod.fst).Nodup)
    (previous : Trie) :
    ∃ t, loadApis apis previous = some t ∧
      ∀ name a, a ∈ t.get name ↔ Classified apis name a := by
  obtain ⟨c1, _, c3⟩ := createAll_spec apis Trie.empty
  obtain ⟨t1, e1, e2, e3⟩ := applyIncludes_spec apis (createAll apis Trie.empty)
    (fun ad had p hp => c1 ad had p (by simp [hp]))
  obtain ⟨t2, d1, _, d3⟩ := applyExcludes_spec apis t1
    (fun ad had p hp => by rw [e2]; exact c1 ad had p (by simp [hp]))
  refine ⟨t2, by simp [loadApis, e1, d1], fun name a => ?_⟩
  rw [d3, e3, c3 name (empty_get name)]
  have huniq : ∀ d d', (a, d) ∈ apis → (a, d') ∈ apis → d = d' := by
    intro d d' h h'
    have := AMap.get?_of_mem (m := apis) hkeys h
    have h2 := AMap.get?_of_mem (m := apis) hkeys h'
    rw [this] at h2
    exact Option.some.inj h2
  constructor
  · rintro ⟨h | ⟨⟨b, d⟩, h1, rfl, h3⟩, hn⟩
    · simp at h
    · exact ⟨d, h1, h3, fun hx => hn ⟨(b, d), h1, rfl, hx⟩⟩
  · rintro ⟨d, h1, h2, h3⟩
    refine ⟨Or.inr ⟨(a, d), h1, rfl, h2⟩, ?_⟩
    rintro ⟨⟨b, d'⟩, g1, rfl, g3⟩
    rw [huniq d' d g1 h1] at g3
    exact h3 g3

/-- **C02.** The result of loading depends neither on the order of the API table, nor on the order
of the paths of each API, nor on what was loaded before. Two tables are equivalent when they define
the same APIs with the same sets of include and exclude paths. -/
theorem C02_order_independent (apis apis' : List (Api × ApiDef))
    (hkeys : (apis.map Prod.fst).Nodup) (hkeys' : (apis'.map Prod.fst).Nodup)
    (heq : ∀ a, (∃ d, (a, d) ∈ apis) ↔ ∃ d, (a, d) ∈ apis')
    (hsame : ∀ a d d', (a, d) ∈ apis → (a, d') ∈ apis' →
      (∀ p, p ∈ d.incl ↔ p ∈ d'.incl) ∧ (∀ p, p ∈ d.excl ↔ p ∈ d'.excl))
    (previous previous' : Trie) :
    ∃ t t', loadApis apis previous = some t ∧ loadApis apis' previous' = some t' ∧
      ∀ name a, a ∈ t.get name ↔ a ∈ t'.get name := by
  obtain ⟨t, h, ht⟩ := C01_classification apis hkeys previous
  obtain ⟨t', h', ht'⟩ := C01_classification apis' hkeys' previous'
  refine ⟨t, t', h, h', fun name a => ?_⟩
  rw [ht, ht']
  constructor
  · rintro ⟨d, h1, ⟨p, h2, h3⟩, h4⟩
    obtain ⟨d', h1'⟩ := (heq a).mp ⟨d, h1⟩
    obtain ⟨s1, s2⟩ := hsame a d d' h1 h1'
    exact ⟨d', h1', ⟨p, (s1 p).mp h2, h3⟩, fun ⟨q, h5, h6⟩ => h4 ⟨q, (s2 q).mpr h5, h6⟩⟩
  · rintro ⟨d', h1, ⟨p, h2, h3⟩, h4⟩
    obtain ⟨d, h1'⟩ := (heq a).mpr ⟨d', h1⟩
    obtain ⟨s1, s2⟩ := hsame a d d' h1' h1
    exact ⟨d, h1', ⟨p, (s1 p).mpr h2, h3⟩, fun ⟨q, h5, h6⟩ => h4 ⟨q, (s2 q).mp h5, h6⟩⟩

/-! Non-vacuity: overlapping, nested includes and excludes. -/

private def demo : List (Api × ApiDef) :=
  [(str! "fs", { incl := [str! "std::fs", str! "std::path"], excl := [str! "std::path::Path"] }),
   (str! "all", { incl := [str! "std"], excl := [] })]

private def classify (apis : List (Api × ApiDef)) (name : Str) : Option (List Api) :=
  (loadApis apis Trie.empty).map (fun t => t.get (splitColons name))

example : (demo.map Prod.fst).Nodup := by decide
example : classify demo (str! "std::fs::write") = some [str! "all", str! "fs"] := by decide
example : classify demo (str! "std::path::Path::exists") = some [str! "all"] := by decide
example : classify demo (str! "std::fsx") = some [str! "all"] := by decide
example : classify demo (str! "core::fs") = some [] := by decide
example : Classified demo (splitColons (str! "std::fs::write")) (str! "fs") := by
  refine ⟨_, List.mem_cons_self .., ⟨_, List.mem_cons_self .., ?_⟩, ?_⟩
  · unfold PrefixOf; decide
  · unfold PrefixOf; decide

end Cackle.ApiMap
