import Verif.Lemmas.SymbolGraph
import Verif.Props.DemangleV0

/-!
# C47: possible exports
-/

namespace Cackle.Graph
open Cackle Checker Demangle
open Cackle.Names hiding State
open Cackle.Perm (PkgId)
open Cackle.ApiMap (Api)

/-! ## Specification -/

/-- A symbol made by Rust for a path, in either of the two mangling schemes. -/
def PathSymbol (path : List Str) (s : Str) : Prop :=
  (LegacySymbol path s ∧ ∀ i ∈ path, LegacyIdent i) ∨
    ∃ d, s = str! "_R" ++ d ∧ V0Path path d ∧ ∀ i ∈ path, V0Readable i

/-- The crate and the module directly in it that the symbol is read as being in. -/
def ReadIn (s crate mod : Str) : Prop := symCrate s = .ok (some crate) ∧ symModule s = .ok (some mod)

/-- The source file of the symbol belongs to the package. -/
def LocatedIn (c : State) (p : PkgId) (info : DebugInfo) : Prop :=
  ∃ ids, pkgIdsFromPath c (pathOf info.loc.file) = some ids ∧ p ∈ ids

/-- The symbol shows that the package has a module directly in its crate with the name of a configured API. -/
def Shows (c : State) (p : PkgId) (a : Api) (e : Str × DebugInfo) : Prop :=
  a ∈ AMap.keys c.cfg.apis ∧ ReadIn e.1 (p.name.map (fun ch => if ch = '-' then '_' else ch)) a ∧ LocatedIn c p e.2

/-- What users rely on: a package is said to possibly export an API iff some symbol shows it, in whatever order the symbols
are looked at. -/
def C47_Claim : Prop := ∀ (c : State) (debug : List (Str × DebugInfo)) (out : List (PkgId × Api × Str)) (p : PkgId) (a : Api),
  possibleExports c debug = .ok out → ((∃ s, (p, a, s) ∈ out) ↔ ∃ e ∈ debug, Shows c p a e)

/-! ## Proofs -/

/-- The invariant for what was found: `seen` are the symbols so far. -/
structure Found (c : State) (seen : List (Str × DebugInfo)) (st : ExportState) : Prop where
  shown : ∀ p a s, (p, a, s) ∈ st.2 → ∃ e ∈ seen, e.1 = s ∧ Shows c p a e
  listed : ∀ p a s, (p, a, s) ∈ st.2 → (p, a) ∈ st.1
  once : (st.2.map (fun x => (x.1, x.2.1))).Nodup
  tried : ∀ p a, (p, a) ∈ st.1 → (∃ s, (p, a, s) ∈ st.2) ∨
    ∃ e ∈ seen, symModule e.1 = .ok (some a) ∧ LocatedIn c p e.2 ∧ ¬ Shows c p a e
  all : ∀ p a, ∀ e ∈ seen, Shows c p a e → (p, a) ∈ st.1

theorem exportIds_found {c : State} {seen : List (Str × DebugInfo)} {e : Str × DebugInfo} {crate : Option Str} {m : Str}
    (hc : symCrate e.1 = .ok crate) (hm : symModule e.1 = .ok (some m)) (ha : m ∈ AMap.keys c.cfg.apis) (he : e ∈ seen) :
    ∀ (ids : List PkgId) (st : ExportState), (∀ p ∈ ids, LocatedIn c p e.2) →
      (∀ p a s, (p, a, s) ∈ st.2 → ∃ e ∈ seen, e.1 = s ∧ Shows c p a e) →
      (∀ p a s, (p, a, s) ∈ st.2 → (p, a) ∈ st.1) → (st.2.map (fun x => (x.1, x.2.1))).Nodup →
      (∀ p a, (p, a) ∈ st.1 → (∃ s, (p, a, s) ∈ st.2) ∨
        ∃ e ∈ seen, symModule e.1 = .ok (some a) ∧ LocatedIn c p e.2 ∧ ¬ Shows c p a e) →
      let st' := exportIds crate e.1 m st ids
      (∀ p a s, (p, a, s) ∈ st'.2 → ∃ e ∈ seen, e.1 = s ∧ Shows c p a e) ∧
      (∀ p a s, (p, a, s) ∈ st'.2 → (p, a) ∈ st'.1) ∧ (st'.2.map (fun x => (x.1, x.2.1))).Nodup ∧
      (∀ p a, (p, a) ∈ st'.1 → (∃ s, (p, a, s) ∈ st'.2) ∨
        ∃ e ∈ seen, symModule e.1 = .ok (some a) ∧ LocatedIn c p e.2 ∧ ¬ Shows c p a e) ∧
      (∀ x ∈ st.1, x ∈ st'.1) ∧ ∀ p ∈ ids, (p, m) ∈ st'.1
  | [], st, _, h1, h2, h3, h4 => ⟨h1, h2, h3, h4, fun _ h => h, by simp⟩
  | p :: ps, st, hl, h1, h2, h3, h4 => by
    simp only [exportIds]
    split
    · rename_i hin
      obtain ⟨g1, g2, g3, g4, g5, g6⟩ := exportIds_found hc hm ha he ps st (fun q hq => hl q (by simp [hq])) h1 h2 h3 h4
      refine ⟨g1, g2, g3, g4, g5, fun q hq => ?_⟩
      rcases List.mem_cons.mp hq with rfl | hq
      · exact g5 _ hin
      · exact g6 q hq
    · rename_i hin
      split
      · rename_i hne
        obtain ⟨g1, g2, g3, g4, g5, g6⟩ := exportIds_found hc hm ha he ps ((p, m) :: st.1, st.2)
          (fun q hq => hl q (by simp [hq])) h1 (fun q a s h => List.mem_cons_of_mem _ (h2 q a s h)) h3 (by
            intro q a h
            rcases List.mem_cons.mp h with h | h
            · cases h
              refine .inr ⟨e, he, hm, hl p (by simp), fun hs => hne ?_⟩
              have := hs.2.1.1
              rw [hc] at this
              exact Res.ok.inj this
            · exact h4 q a h)
        refine ⟨g1, g2, g3, g4, fun x hx => g5 x (List.mem_cons_of_mem _ hx), fun q hq => ?_⟩
        rcases List.mem_cons.mp hq with rfl | hq
        · exact g5 _ (by simp)
        · exact g6 q hq
      · rename_i heq
        have heq : crate = some (crateName p) := Classical.byContradiction heq
        have hshow : Shows c p m e := ⟨ha, ⟨by rw [hc, heq]; rfl, hm⟩, hl p (by simp)⟩
        obtain ⟨g1, g2, g3, g4, g5, g6⟩ := exportIds_found hc hm ha he ps ((p, m) :: st.1, st.2 ++ [(p, m, e.1)])
          (fun q hq => hl q (by simp [hq]))
          (by
            intro q a s h
            rcases List.mem_append.mp h with h | h
            · exact h1 q a s h
            · cases List.mem_singleton.mp h
              exact ⟨e, he, rfl, hshow⟩)
          (by
            intro q a s h
            rcases List.mem_append.mp h with h | h
            · exact List.mem_cons_of_mem _ (h2 q a s h)
            · cases List.mem_singleton.mp h
              simp)
          (by
            rw [List.map_append, List.nodup_append]
            refine ⟨h3, by simp, ?_⟩
            intro x hx y hy
            simp only [List.map_cons, List.map_nil, List.mem_singleton] at hy
            subst hy
            rintro rfl
            obtain ⟨⟨q, a, s⟩, hq, e1⟩ := List.mem_map.mp hx
            cases e1
            exact hin (h2 _ _ _ hq))
          (by
            intro q a h
            rcases List.mem_cons.mp h with h | h
            · cases h
              exact .inl ⟨e.1, List.mem_append_right _ (List.mem_singleton.mpr rfl)⟩
            · rcases h4 q a h with ⟨s, hs⟩ | h
              · exact .inl ⟨s, List.mem_append_left _ hs⟩
              · exact .inr h)
        refine ⟨g1, g2, g3, g4, fun x hx => g5 x (List.mem_cons_of_mem _ hx), fun q hq => ?_⟩
        rcases List.mem_cons.mp hq with rfl | hq
        · exact g5 _ (by simp)
        · exact g6 q hq

theorem Found.weaken {c : State} {seen : List (Str × DebugInfo)} {st : ExportState} (h : Found c seen st)
    (e : Str × DebugInfo) (hn : ∀ p a, ¬ Shows c p a e) : Found c (seen ++ [e]) st where
  shown p a s hs := by
    obtain ⟨e', h1, h2⟩ := h.shown p a s hs
    exact ⟨e', List.mem_append_left _ h1, h2⟩
  listed := h.listed
  once := h.once
  tried p a hp := by
    rcases h.tried p a hp with h | ⟨e', h1, h2⟩
    · exact .inl h
    · exact .inr ⟨e', List.mem_append_left _ h1, h2⟩
  all p a e' he' hs := by
    rcases List.mem_append.mp he' with he' | he'
    · exact h.all p a e' he' hs
    · cases List.mem_singleton.mp he'
      exact absurd hs (hn p a)

theorem keys_isSome {α : Type} {m : AMap Str α} {k : Str} : (m.get? k).isSome = true ↔ k ∈ AMap.keys m := by
  induction m with
  | nil => simp [AMap.get?, AMap.keys]
  | cons e l ih =>
    simp only [AMap.get?, AMap.keys, List.map_cons, List.mem_cons]
    by_cases h : e.1 = k
    · simp [h]
    · rw [if_neg h, ih]
      constructor
      · exact fun h' => Or.inr h'
      · rintro (h' | h')
        · exact absurd h'.symm h
        · exact h'

theorem exportStep_found {c : State} {seen : List (Str × DebugInfo)} {st st' : ExportState} {e : Str × DebugInfo}
    (h : Found c seen st) (hs : exportStep c st e = .ok st') : Found c (seen ++ [e]) st' := by
  unfold exportStep at hs
  obtain ⟨om, hm, hs⟩ := bind_ok hs
  cases om with
  | none =>
    cases hs
    refine h.weaken e (fun p a hh => ?_)
    have := hh.2.1.2
    rw [hm] at this
    cases this
  | some m =>
    simp only [] at hs
    split at hs
    · rename_i ha
      obtain ⟨crate, hc, hs⟩ := bind_ok hs
      cases hs
      have ha := keys_isSome.mp ha
      have hids : ∀ p, p ∈ (pkgIdsFromPath c (pathOf e.2.loc.file)).getD [] ↔ LocatedIn c p e.2 := by
        intro p
        unfold LocatedIn
        cases pkgIdsFromPath c (pathOf e.2.loc.file) <;> simp
      obtain ⟨g1, g2, g3, g4, g5, g6⟩ := exportIds_found (seen := seen ++ [e]) hc hm ha (by simp)
        ((pkgIdsFromPath c (pathOf e.2.loc.file)).getD []) st (fun p hp => (hids p).mp hp)
        (by
          intro p a s hp
          obtain ⟨e', h1, h2⟩ := h.shown p a s hp
          exact ⟨e', List.mem_append_left _ h1, h2⟩)
        h.listed h.once
        (by
          intro p a hp
          rcases h.tried p a hp with h | ⟨e', h1, h2⟩
          · exact .inl h
          · exact .inr ⟨e', List.mem_append_left _ h1, h2⟩)
      refine ⟨g1, g2, g3, g4, fun p a e' he' hsh => ?_⟩
      rcases List.mem_append.mp he' with he' | he'
      · exact g5 _ (h.all p a e' he' hsh)
      · cases List.mem_singleton.mp he'
        have : a = m := by
          have := hsh.2.1.2
          rw [hm] at this
          exact (Option.some.inj (Res.ok.inj this)).symm
        subst this
        exact g6 p ((hids p).mpr hsh.2.2)
    · rename_i ha
      cases hs
      refine h.weaken e (fun p a hh => ha ?_)
      have := hh.2.1.2
      rw [hm] at this
      rw [Option.some.inj (Res.ok.inj this)]
      exact keys_isSome.mpr hh.1

theorem exports_found {c : State} : ∀ (debug seen : List (Str × DebugInfo)) (st st' : ExportState), Found c seen st →
    Res.loop (exportStep c) st debug = .ok st' → Found c (seen ++ debug) st'
  | [], seen, st, st', h, hl => by
    cases hl
    rw [List.append_nil]
    exact h
  | e :: debug, seen, st, st', h, hl => by
    simp only [Res.loop] at hl
    obtain ⟨st1, h1, h2⟩ := bind_ok hl
    have := exports_found debug (seen ++ [e]) st1 st' (exportStep_found h h1) h2
    rwa [List.append_assoc] at this

theorem found_all {c : State} {debug : List (Str × DebugInfo)} {out : List (PkgId × Api × Str)}
    (h : possibleExports c debug = .ok out) : ∃ tried, Found c debug (tried, out) := by
  unfold possibleExports at h
  obtain ⟨st, h1, h2⟩ := bind_ok h
  cases h2
  have := exports_found debug [] ([], []) st ⟨by simp, by simp, by simp, by simp, by simp⟩ h1
  exact ⟨st.1, this⟩

/-! ## The property -/

/-- What is reported is shown by the symbol it names, and every package is reported at most once for each API, in
whatever order the symbols are looked at. -/
theorem C47_sound (c : State) (debug : List (Str × DebugInfo)) (out : List (PkgId × Api × Str))
    (h : possibleExports c debug = .ok out) :
    (∀ p a s, (p, a, s) ∈ out → ∃ e ∈ debug, e.1 = s ∧ Shows c p a e) ∧
      out.Pairwise (fun x y => (x.1, x.2.1) ≠ (y.1, y.2.1)) := by
  obtain ⟨tried, hf⟩ := found_all h
  exact ⟨hf.shown, List.pairwise_map.mp hf.once⟩

/-- A package is said to possibly export an API iff some symbol shows it, in whatever order the symbols are looked at,
provided that all symbols located in the package that are in a module with the name of the API are in the package's crate.

What is missing: symbols of other crates that are located in the package, such as those made by the package's macros.
See `C47_macro`. -/
theorem C47_exports_partial (c : State) (debug : List (Str × DebugInfo)) (out : List (PkgId × Api × Str)) (p : PkgId)
    (a : Api) (h : possibleExports c debug = .ok out)
    (hu : ∀ e ∈ debug, symModule e.1 = .ok (some a) → LocatedIn c p e.2 →
      symCrate e.1 = .ok (some (p.name.map (fun ch => if ch = '-' then '_' else ch)))) :
    (∃ s, (p, a, s) ∈ out) ↔ ∃ e ∈ debug, Shows c p a e := by
  obtain ⟨tried, hf⟩ := found_all h
  constructor
  · rintro ⟨s, hs⟩
    obtain ⟨e, he, _, hsh⟩ := hf.shown p a s hs
    exact ⟨e, he, hsh⟩
  · rintro ⟨e, he, hsh⟩
    rcases hf.tried p a (hf.all p a e he hsh) with h' | ⟨e', he', hm, hl, hn⟩
    · exact h'
    · exact absurd ⟨hsh.1, ⟨hu e' he' hm hl, hm⟩, hl⟩ hn

theorem texts_two {l : List Tok} {crate mod : Str} {rest : List Str} (h : Texts l (crate :: mod :: rest)) :
    ∃ p q l', l = .text crate p :: .text mod q :: l' := by
  obtain ⟨ps, rfl, hp⟩ := h
  match ps, hp with
  | p :: q :: ps, _ => exact ⟨p, q, _, rfl⟩

theorem readIn_of_toks {s crate mod : Str} {p q n : Nat} {l : List Tok} {e : End}
    (h : toks Iter.next n (Iter.new s) = (.text crate p :: .text mod q :: l, e)) : ReadIn s crate mod := by
  unfold ReadIn symCrate symModule
  cases n with
  | zero => cases h
  | succ n =>
    rw [toks] at h
    cases h1 : (Iter.new s).next with
    | done => rw [h1] at h; cases h
    | panic => rw [h1] at h; cases h
    | stuck => rw [h1] at h; cases h
    | tok t it =>
      rw [h1] at h
      simp only [Prod.mk.injEq, List.cons.injEq] at h
      obtain ⟨⟨rfl, h2⟩, _⟩ := h
      refine ⟨rfl, ?_⟩
      simp only []
      cases n with
      | zero => cases h2
      | succ n =>
        rw [toks] at h2
        cases h3 : it.next with
        | done => rw [h3] at h2; cases h2
        | panic => rw [h3] at h2; cases h2
        | stuck => rw [h3] at h2; cases h2
        | tok t it' =>
          rw [h3] at h2
          simp only [List.cons.injEq] at h2
          obtain ⟨rfl, _⟩ := h2
          rfl

/-- A symbol that Rust makes for a path is read as being in the crate and in the module that the path begins with. -/
theorem C47_paths (crate mod : Str) (rest : List Str) (s : Str) (h : PathSymbol (crate :: mod :: rest) s) :
    ReadIn s crate mod := by
  rcases h with ⟨⟨d, hash, hc, _, _, rfl⟩, hp⟩ | ⟨d, rfl, hv, hp⟩
  · have hnew : Iter.new (str! "_ZN" ++ d ++ str! "17h" ++ hash ++ str! "E") =
        .legacy { outer := d ++ (str! "17" ++ ('h' :: hash) ++ []) } := by
      have e : str! "_ZN" ++ d ++ str! "17h" ++ hash ++ str! "E" =
          '_' :: 'Z' :: 'N' :: ((d ++ (str! "17" ++ ('h' :: hash) ++ [])) ++ ['E']) := by simp
      rw [e]
      unfold Iter.new
      simp only [stripText, if_true, Option.bind_some, stripLast]
      rw [if_neg (by decide), List.getLast?_concat, if_pos rfl, List.dropLast_concat]
    obtain ⟨l, h1, h2⟩ := toks_components hc hp (str! "17" ++ ('h' :: hash) ++ [])
    obtain ⟨p, q, l', rfl⟩ := texts_two h1
    have := h2 0
    rw [← hnew] at this
    exact readIn_of_toks this
  · obtain ⟨l, h1, h2⟩ := (v0Toks_path hv).2 hp []
    obtain ⟨p, q, l', rfl⟩ := texts_two h1
    have := h2 0
    unfold v0Toks at this
    rw [List.append_nil, ← new_v0] at this
    exact readIn_of_toks this

/-! ## The witness -/

private def loc : SourceLoc := ⟨str! "/p/a.rs", 1, none⟩
private def pkg : PkgId := ⟨str! "my-p", str! "1.0.0", true⟩
private def st : State := { paths := [(pathOf (str! "/p/a.rs"), [pkg])], cfg := { apis := [(str! "fs", {})] } }

/-- `my_p::fs::f` -/
private def own : Str := str! "_RNvNtC4my_p2fs1f"

/-- `q::fs::f`, made in the crate `q` by a macro of the package. -/
private def other : Str := str! "_RNvNtC1q2fs1f"

/-- If a symbol of another crate that is located in the package comes first, then the package is not reported. -/
theorem C47_macro : ¬ C47_Claim := by
  intro h
  have h1 : Shows st pkg (str! "fs") (own, ⟨loc, none⟩) :=
    ⟨by simp [st, AMap.keys], ⟨by decide +kernel, by decide +kernel⟩, [pkg], by decide +kernel, by simp⟩
  obtain ⟨s, hs⟩ := (h st [(other, ⟨loc, none⟩), (own, ⟨loc, none⟩)] [] pkg (str! "fs") (by decide +kernel)).mpr
    ⟨_, by simp, h1⟩
  cases hs

/-- The same symbols in two orders: in one the package is reported, in the other it is not. -/
theorem C47_order :
    possibleExports st [(other, ⟨loc, none⟩), (own, ⟨loc, none⟩)] = .ok [] ∧
      possibleExports st [(own, ⟨loc, none⟩), (other, ⟨loc, none⟩)] = .ok [(pkg, str! "fs", own)] := by
  decide +kernel

/-! ## Non-vacuity -/

example : ReadIn own (str! "my_p") (str! "fs") := by
  refine C47_paths _ _ [str! "f"] _ (.inr ⟨str! "NvNtC4my_p2fs1f", rfl, ?_, ?_⟩)
  · exact .nested (p := [str! "my_p"] ++ [str! "fs"]) (s := 'N' :: 't' :: ('C' :: ([] ++ (str! "4" ++ str! "my_p")) ++ [] ++
        (str! "2" ++ str! "fs"))) (d := []) (e := str! "1" ++ str! "f") (Or.inr rfl)
      (.nested (Or.inl rfl) (.crate .none (.plain (numeral_digit rfl rfl) (by decide))) .none
        (.plain (numeral_digit rfl rfl) (by decide))) .none (.plain (numeral_digit rfl rfl) (by decide))
  · intro i hi
    simp only [List.mem_cons, List.not_mem_nil, or_false] at hi
    rcases hi with rfl | rfl | rfl <;>
      exact ⟨ident_lower (by simp) (by decide), by decide, not_hashLike (by decide), by decide⟩

/-- A package that is reported, and one symbol that is in another module. -/
example : (∃ s, (pkg, str! "fs", s) ∈ [(pkg, str! "fs", own)]) ↔
    ∃ e ∈ [(str! "_RNvNtC1q2gs1f", ⟨loc, none⟩), (own, ⟨loc, none⟩)], Shows st pkg (str! "fs") e := by
  refine C47_exports_partial st _ _ pkg (str! "fs") (by decide +kernel) ?_
  intro e he hm _
  simp only [List.mem_cons, List.not_mem_nil, or_false] at he
  rcases he with rfl | rfl
  · revert hm
    decide +kernel
  · decide +kernel

end Cackle.Graph
