import Verif.Lemmas.SymbolGraph

/-!
# C32: skipping symbols known to have no APIs
-/

namespace Cackle.Graph
open Cackle Checker
open Cackle.ApiMap (Trie)

/-! ## Specification -/

/-- The usages found in a binary if the symbols in `cache` can be marked as having no APIs. -/
def usagesWith (c : State) (t : Trie) (n : Nat) (b : Bin) (cache : AMap Str Bool) (refs : List Ref) :
    Res (AMap Key (List Single)) :=
  (collect c t n b cache refs).bind fun st => .ok st.groups

/-- What users rely on: marking symbols changes nothing. With an empty map no symbol can be marked. -/
def C32_Claim : Prop := ∀ (c : State) (t : Trie) (n : Nat) (b : Bin) (objs : List Obj) (refs : List Ref),
  allRefs b objs = .ok refs → usagesWith c t n b (initialCache b.debug) refs = usagesWith c t n b [] refs

/-- The name that debug info gives for a function agrees with the one it gives for the function's symbol. -/
def Agrees (b : Bin) (x : SymName) : Prop :=
  ∀ s info, x.symbol = some s → b.debug.get? s = some info → x.debug = info.name

/-! ## Proofs -/

/-- Symbols are marked only if they have no APIs. -/
def CacheInv (t : Trie) (n : Nat) (b : Bin) (cache : AMap Str Bool) : Prop :=
  ∀ s v, cache.get? s = some v → ∃ info, b.debug.get? s = some info ∧
    (v = true → allHits t n ⟨some s, info.name⟩ = .ok [])

theorem initialCache_get (debug : AMap Str DebugInfo) (s : Str) :
    (initialCache debug).get? s = (debug.get? s).map (fun _ => false) := by
  unfold initialCache
  induction debug with
  | nil => rfl
  | cons e l ih =>
    simp only [List.map_cons, AMap.get?]
    split
    · rfl
    · exact ih

theorem initial_inv (t : Trie) (n : Nat) (b : Bin) : CacheInv t n b (initialCache b.debug) := by
  intro s v h
  rw [initialCache_get] at h
  cases hg : b.debug.get? s with
  | none => rw [hg] at h; cases h
  | some info =>
    rw [hg] at h
    simp at h
    subst h
    exact ⟨info, rfl, by simp⟩

theorem empty_names (t : Trie) (n : Nat) (x : SymName) :
    namesAndApis t n [] x = (allHits t n x).bind fun hits => .ok (hits, []) := by
  have h1 : known [] x = false := by unfold known; cases x.symbol <;> rfl
  have h2 : ∀ hits, remember [] x hits = [] := by
    intro hits; unfold remember; cases x.symbol <;> simp
  simp only [namesAndApis, h1, h2]
  rfl

/-- One look-up with marks finds what one without finds. -/
theorem names_same {t : Trie} {n : Nat} {b : Bin} {cache : AMap Str Bool} {x : SymName} (hi : CacheInv t n b cache)
    (hx : Agrees b x) :
    match allHits t n x with
    | .ok hits => ∃ cache', namesAndApis t n cache x = .ok (hits, cache') ∧ CacheInv t n b cache'
    | .err => namesAndApis t n cache x = .err
    | .panic => namesAndApis t n cache x = .panic
    | .stuck => namesAndApis t n cache x = .stuck := by
  unfold namesAndApis
  by_cases hk : known cache x = true
  · rw [if_pos hk]
    unfold known at hk
    cases hs : x.symbol with
    | none => rw [hs] at hk; cases hk
    | some s =>
      rw [hs] at hk
      simp only [] at hk
      cases hg : cache.get? s with
      | none => rw [hg] at hk; cases hk
      | some v =>
        rw [hg] at hk
        simp only [Option.getD_some] at hk
        subst hk
        obtain ⟨info, h1, h2⟩ := hi s true hg
        have : x = ⟨some s, info.name⟩ := by
          have := hx s info hs h1
          cases x
          simp only [] at hs this
          rw [hs, this]
        rw [this, h2 rfl]
        exact ⟨cache, rfl, hi⟩
  · rw [if_neg hk]
    cases hh : allHits t n x with
    | ok hits =>
      refine ⟨_, rfl, ?_⟩
      unfold remember
      cases hs : x.symbol with
      | none => exact hi
      | some s =>
        simp only []
        split
        · rename_i hc
          intro q v hq
          rw [AMap.get?_insert] at hq
          by_cases hsq : s = q
          · subst hsq
            obtain ⟨w, hw⟩ := Option.isSome_iff_exists.mp hc.2
            obtain ⟨info, h1, _⟩ := hi s w hw
            refine ⟨info, h1, fun _ => ?_⟩
            have : x = ⟨some s, info.name⟩ := by
              have := hx s info hs h1
              cases x
              simp only [] at hs this
              rw [hs, this]
            rw [← this, hh, hc.1]
          · rw [if_neg hsq] at hq
            exact hi q v hq
        · exact hi
    | err => rfl
    | panic => rfl
    | stuck => rfl

/-- One reference. -/
theorem reference_same {c : State} {t : Trie} {n : Nat} {b : Bin} {st : Coll} {r : Ref} (hi : CacheInv t n b st.cache)
    (hf : Agrees b r.from_.names) (ht : Agrees b r.target) :
    match processReference c t n b.path b.crate ⟨[], st.groups⟩ r with
    | .ok st' => st'.cache = [] ∧ ∃ cache', processReference c t n b.path b.crate st r = .ok ⟨cache', st'.groups⟩ ∧
        CacheInv t n b cache'
    | .err => processReference c t n b.path b.crate st r = .err
    | .panic => processReference c t n b.path b.crate st r = .panic
    | .stuck => processReference c t n b.path b.crate st r = .stuck := by
  unfold processReference
  simp only [empty_names]
  have h1 := names_same hi hf
  cases e1 : allHits t n r.from_.names with
  | err => rw [e1] at h1; simp only [] at h1; rw [h1]; rfl
  | panic => rw [e1] at h1; simp only [] at h1; rw [h1]; rfl
  | stuck => rw [e1] at h1; simp only [] at h1; rw [h1]; rfl
  | ok hits =>
    rw [e1] at h1
    obtain ⟨cache1, h1, hi1⟩ := h1
    rw [h1]
    have h2 := names_same hi1 ht
    simp only [Res.bind, empty_names]
    cases e2 : allHits t n r.target with
    | err => rw [e2] at h2; simp only [] at h2; rw [h2]
    | panic => rw [e2] at h2; simp only [] at h2; rw [h2]
    | stuck => rw [e2] at h2; simp only [] at h2; rw [h2]
    | ok hits2 =>
      rw [e2] at h2
      obtain ⟨cache2, h2, hi2⟩ := h2
      rw [h2]
      simp only []
      cases Res.loop (onHit c b.path b.crate r (hits.flatMap Hit.apis)) st.groups hits2 with
      | ok g => exact ⟨rfl, cache2, rfl, hi2⟩
      | err => rfl
      | panic => rfl
      | stuck => rfl

theorem loop_same {c : State} {t : Trie} {n : Nat} {b : Bin} : ∀ (refs : List Ref) (st : Coll),
    CacheInv t n b st.cache → (∀ r ∈ refs, Agrees b r.from_.names ∧ Agrees b r.target) →
    ((Res.loop (processReference c t n b.path b.crate) st refs).bind fun st => .ok st.groups) =
      ((Res.loop (processReference c t n b.path b.crate) ⟨[], st.groups⟩ refs).bind fun st => .ok st.groups)
  | [], st, _, _ => rfl
  | r :: refs, st, hi, hr => by
    have h1 := reference_same (c := c) hi (hr r (by simp)).1 (hr r (by simp)).2
    simp only [Res.loop]
    revert h1
    cases hp : processReference c t n b.path b.crate ⟨[], st.groups⟩ r with
    | ok st' =>
      simp only []
      rintro ⟨h0, cache', h1, hi'⟩
      rw [h1]
      simp only [Res.bind]
      have := loop_same (c := c) refs ⟨cache', st'.groups⟩ hi' (fun x hx => hr x (by simp [hx]))
      simp only [] at this
      rw [show st' = ⟨[], st'.groups⟩ by cases st'; simp only [] at h0; rw [h0]]
      exact this
    | err => intro h1; simp only [] at h1; rw [h1]
    | panic => intro h1; simp only [] at h1; rw [h1]
    | stuck => intro h1; simp only [] at h1; rw [h1]

theorem symName_agrees (b : Bin) (s : Str) : Agrees b (b.symName s) := by
  intro s' info h1 h2
  simp only [Bin.symName, Option.some.injEq] at h1 ⊢
  rw [h1, h2]
  rfl

/-- The names of references for relocations always agree. -/
theorem refs_agree {b : Bin} {objs : List Obj} {refs : List Ref} (h : allRefs b objs = .ok refs)
    (hin : ∀ f ∈ b.inlined, Agrees b f.from_ ∧ Agrees b f.to) :
    ∀ r ∈ refs, Agrees b r.from_.names ∧ Agrees b r.target := by
  obtain ⟨addresses, _, _, _, hall⟩ := mem_allRefs h
  intro r hr
  rcases hall r hr with ⟨f, hf, rfl⟩ | ⟨o, _, infos, _, s, _, l, hl, hx⟩
  · exact hin f hf
  · obtain ⟨first, start, info, _, _, _, rel, _, l', hrel, hx'⟩ := of_sectionRefs hl hx
    unfold relocRefs at hrel
    obtain ⟨ts, _, hrel⟩ := bind_ok hrel
    obtain ⟨fr, _, hrel⟩ := bind_ok hrel
    cases hrel
    obtain ⟨x, _, rfl⟩ := List.mem_map.mp hx'
    exact ⟨symName_agrees b _, symName_agrees b _⟩

/-! ## The property -/

/-- **C32.** For all binaries and references, and also if reading a name fails: marking symbols changes nothing, provided
that debug info gives inlined functions the same names as the functions' symbols.

What is missing: names that differ, see `C32_other_name`. -/
theorem C32_cache_partial (c : State) (t : Trie) (n : Nat) (b : Bin) (objs : List Obj) (refs : List Ref)
    (h : allRefs b objs = .ok refs) (hin : ∀ f ∈ b.inlined, Agrees b f.from_ ∧ Agrees b f.to) :
    usagesWith c t n b (initialCache b.debug) refs = usagesWith c t n b [] refs :=
  loop_same refs ⟨initialCache b.debug, []⟩ (initial_inv t n b) (refs_agree h hin)

/-! ## The witness -/

private def loc : SourceLoc := ⟨str! "/p/a.rs", 1, none⟩
private def pkg : Perm.PkgId := ⟨str! "p", str! "1.0.0", true⟩
private def st : State := { paths := [(pathOf (str! "/p/a.rs"), [pkg])] }
private def tree : Trie := .node [] (.cons (str! "std") (.node [str! "fs"] .nil) .nil)

/-- Two inlined functions with the same symbol; the name of the first one has lost its namespace. -/
private def bin : Bin where
  path := str! "/bin"
  crate := ⟨pkg, .primary⟩
  symbols := []
  debug := [(str! "s", ⟨loc, some ⟨[], str! "read"⟩⟩)]
  inlined := [⟨8, 4, ⟨some (str! "f"), none⟩, ⟨some (str! "s"), some ⟨[], str! "read"⟩⟩, some loc⟩,
    ⟨8, 4, ⟨some (str! "f"), none⟩, ⟨some (str! "s"), some ⟨[str! "std"], str! "read"⟩⟩, some loc⟩]
  frame _ := some (none, none)

/-- The number of groups. -/
private def count : Res (AMap Key (List Single)) → Nat
  | .ok g => g.length
  | _ => 0

/-- If debug info gives two names for one symbol, a use of an API is lost: with the marks, nothing is found; without
them, the use of `std::read` is. -/
theorem C32_other_name : ¬ C32_Claim := by
  intro h
  have h1 := congrArg count (h st tree 20 bin [] (bin.inlined.map inlinedRef) rfl)
  revert h1
  decide +kernel

/-! ## Non-vacuity -/

/-- Here the names agree. The symbol `s` is referenced twice and marked; the use of `std::read` is found. -/
private def good : Bin :=
  { bin with
    inlined := [⟨8, 4, ⟨some (str! "f"), none⟩, ⟨some (str! "s"), some ⟨[], str! "read"⟩⟩, some loc⟩,
      ⟨9, 4, ⟨some (str! "f"), none⟩, ⟨some (str! "s"), some ⟨[], str! "read"⟩⟩, some loc⟩,
      ⟨10, 4, ⟨some (str! "f"), none⟩, ⟨none, some ⟨[str! "std"], str! "read"⟩⟩, some loc⟩] }

private theorem good_agrees : ∀ f ∈ good.inlined, Agrees good f.from_ ∧ Agrees good f.to := by
  have hd : good.debug = [(str! "s", ⟨loc, some ⟨[], str! "read"⟩⟩)] := rfl
  have hf : Agrees good ⟨some (str! "f"), none⟩ := by
    intro s info h1 h2
    cases h1
    rw [hd] at h2
    cases h2
  intro f h
  simp only [good, List.mem_cons, List.not_mem_nil, or_false] at h
  rcases h with rfl | rfl | rfl
  · refine ⟨hf, fun s info h1 h2 => ?_⟩
    cases h1; rw [hd] at h2; cases h2; rfl
  · refine ⟨hf, fun s info h1 h2 => ?_⟩
    cases h1; rw [hd] at h2; cases h2; rfl
  · exact ⟨hf, fun s info h1 _ => by cases h1⟩

example : usagesWith st tree 20 good (initialCache good.debug) (good.inlined.map inlinedRef) =
    usagesWith st tree 20 good [] (good.inlined.map inlinedRef) :=
  C32_cache_partial st tree 20 good [] _ rfl good_agrees

example : count (usagesWith st tree 20 good (initialCache good.debug) (good.inlined.map inlinedRef)) = 1 := by
  decide +kernel

/-- The symbol was marked. -/
example : (match collect st tree 20 good (initialCache good.debug) (good.inlined.map inlinedRef) with
    | .ok x => x.cache.get? (str! "s")
    | _ => none) = some true := by
  decide +kernel

end Cackle.Graph
