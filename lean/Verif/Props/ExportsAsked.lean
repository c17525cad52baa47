import Verif.Props.Exports

/-!
# C182: packages that provide a restricted API are asked about
-/

namespace Cackle.Graph
open Cackle Checker Demangle
open Cackle.Names hiding State
open Cackle.Perm (PkgId)
open Cackle.ApiMap (Api)

/-! ## Specification -/

/-- The user has not answered yet whether the package provides the API. -/
def Undecided (c : State) (p : PkgId) (a : Api) : Prop :=
  (∀ k, c.permissions.get? ⟨p.name, .all⟩ = some k → k.perms.imports = none) ∧
  ∀ d, c.cfg.apis.get? a = some d → p.name ∉ d.noAutoDetect ∧ p.name ++ str! "::" ++ a ∉ d.incl

/-- The user is asked whether the package provides the API. -/
def AskedAbout (c : State) (out : List (PkgId × Api × Str)) (p : PkgId) (a : Api) : Prop :=
  ∃ s, Problem.possibleExportedApi p a s ∈ out.flatMap (exportProblem c)

/-- The English claim C182. `libOf` is the name of the library of a package, as its manifest says. -/
def C182_Claim : Prop :=
  ∀ (libOf : PkgId → Str) (c : State) (debug : List (Str × DebugInfo)) (out : List (PkgId × Api × Str)) (p : PkgId) (a f : Str)
    (rest : List Str) (s : Str) (info : DebugInfo),
    possibleExports c debug = .ok out → (s, info) ∈ debug → PathSymbol (libOf p :: a :: f :: rest) s → LocatedIn c p info →
    a ∈ AMap.keys c.cfg.apis → Undecided c p a → AskedAbout c out p a

/-! ## C182 -/

theorem asked_of_mem {c : State} {out : List (PkgId × Api × Str)} {p : PkgId} {a : Api} {s : Str} (h : (p, a, s) ∈ out)
    (hu : Undecided c p a) : AskedAbout c out p a := by
  refine ⟨s, List.mem_flatMap.mpr ⟨_, h, ?_⟩⟩
  unfold exportProblem
  simp only
  have h1 : ((c.permissions.get? ⟨p.name, .all⟩).any (fun p => p.perms.imports.isSome)) = false := by
    cases hp : c.permissions.get? ⟨p.name, .all⟩ with
    | none => rfl
    | some k => simp [hu.1 k hp]
  have h2 : ((c.cfg.apis.get? a).any (fun d => decide (p.name ∈ d.noAutoDetect) ||
      decide (p.name ++ [':', ':'] ++ a ∈ d.incl))) = false := by
    cases ha : c.cfg.apis.get? a with
    | none => rfl
    | some d =>
      have := hu.2 d ha
      simp only [Option.any_some, Bool.or_eq_false_iff, decide_eq_false_iff_not]
      exact this
  rw [h1, h2]
  simp

/-- **C182 (partial).** If a function in a module with the name of a restricted API is linked, the module is directly in
the library of the package that the source file belongs to, and that library has the name of the package, then the
user is asked about the package, unless they have answered before. This is so if no symbols of other crates in a
module of that name come from source files of the package. Missing: libraries with other names, see `C182_lib`;
symbols of other crates, see `C47_macro`; other functions than plain ones, see `C182_generic`. -/
theorem C182_partial (c : State) (debug : List (Str × DebugInfo)) (out : List (PkgId × Api × Str)) (p : PkgId) (a f : Str)
    (rest : List Str) (s : Str) (info : DebugInfo) (h : possibleExports c debug = .ok out) (hm : (s, info) ∈ debug)
    (hs : PathSymbol (p.name.map (fun ch => if ch = '-' then '_' else ch) :: a :: f :: rest) s) (hl : LocatedIn c p info)
    (ha : a ∈ AMap.keys c.cfg.apis) (hu : Undecided c p a)
    (ho : ∀ e ∈ debug, symModule e.1 = .ok (some a) → LocatedIn c p e.2 →
      symCrate e.1 = .ok (some (p.name.map (fun ch => if ch = '-' then '_' else ch)))) : AskedAbout c out p a := by
  obtain ⟨sym, hsym⟩ := (C47_exports_partial c debug out p a h ho).mpr ⟨_, hm, ha, C47_paths _ _ _ _ hs, hl⟩
  exact asked_of_mem hsym hu

private def loc : SourceLoc := ⟨str! "/p/a.rs", 1, none⟩
private def pkg : PkgId := ⟨str! "my-p", str! "1.0.0", true⟩
private def st : State := { paths := [(pathOf (str! "/p/a.rs"), [pkg])], cfg := { apis := [(str! "fs", {})] } }

private theorem undecided : Undecided st pkg (str! "fs") := by
  constructor
  · intro k hk
    cases hk
  · intro d hd
    simp only [st, AMap.get?, if_true, Option.some.injEq] at hd
    subst hd
    simp

private theorem located : LocatedIn st pkg ⟨loc, none⟩ := ⟨[pkg], by decide +kernel, by simp⟩

private theorem path_symbol (lib num : Str) (h1 : V0Path [lib] ('C' :: ([] ++ (num ++ lib)))) (hr : V0Readable lib) :
    PathSymbol [lib, str! "fs", str! "f"] (str! "_R" ++ ('N' :: 'v' :: (('N' :: 't' :: (('C' :: ([] ++ (num ++ lib))) ++ [] ++
      (str! "2" ++ str! "fs"))) ++ [] ++ (str! "1" ++ str! "f")))) := by
  refine .inr ⟨_, rfl, ?_, ?_⟩
  · exact .nested (p := [lib] ++ [str! "fs"]) (Or.inr rfl)
      (.nested (p := [lib]) (Or.inl rfl) h1 .none (.plain (numeral_digit rfl rfl) (by decide))) .none
      (.plain (numeral_digit rfl rfl) (by decide))
  · intro i hi
    simp only [List.mem_cons, List.not_mem_nil, or_false] at hi
    rcases hi with rfl | rfl | rfl
    · exact hr
    · exact ⟨ident_lower (by simp) (by decide), by decide, not_hashLike (by decide), by decide⟩
    · exact ⟨ident_lower (by simp) (by decide), by decide, not_hashLike (by decide), by decide⟩

/-- **C182, disagreement.** The library of the package `my-p` is called `pp`. Its function `pp::fs::f` is linked, and
nothing else, and the user is not asked. -/
theorem C182_lib : ∃ s, PathSymbol [str! "pp", str! "fs", str! "f"] s ∧ LocatedIn st pkg ⟨loc, none⟩ ∧
    str! "fs" ∈ AMap.keys st.cfg.apis ∧ Undecided st pkg (str! "fs") ∧
    possibleExports st [(s, ⟨loc, none⟩)] = .ok [] := by
  refine ⟨_, path_symbol (str! "pp") (str! "2") (.crate .none (.plain (numeral_digit rfl rfl) (by decide))) ?_, located,
    by simp [st, AMap.keys], undecided, by decide +kernel⟩
  exact ⟨ident_lower (by simp) (by decide), by decide, not_hashLike (by decide), by decide⟩

/-- **C182, disagreement.** -/
theorem C182_refuted : ¬ C182_Claim := by
  intro hc
  obtain ⟨s, h1, h2, h3, h4, h5⟩ := C182_lib
  obtain ⟨x, hx⟩ := hc (fun _ => str! "pp") st _ [] pkg (str! "fs") (str! "f") [] s _ h5 (by simp) h1 h2 h3 h4
  cases hx

/-- **C182, disagreement (other functions).** Neither the generic function `my_p::fs::f::<usize>`, nor the method
`my_p::fs::File::new` of an `impl` other than the first, nor the method `fmt` of the trait `Debug` for `my_p::fs::File` in
the old mangling scheme make the package known as a provider of `fs`. -/
theorem C182_generic : possibleExports st [(str! "_RINvNtC4my_p2fs1fjEB4_", ⟨loc, none⟩),
    (str! "_RNvMs_NtC4my_p2fsNtB4_4File3new", ⟨loc, none⟩),
    (str! "_ZN48_$LT$my_p..fs..File$u20$as$u20$core..fmt..Debug$GT$3fmt17h0123456789abcdefE", ⟨loc, none⟩)] = .ok [] := by
  decide +kernel

/-! ## Non-vacuity -/

example : ∃ s, PathSymbol [str! "my_p", str! "fs", str! "f"] s ∧
    possibleExports st [(str! "_RNvNtC1q2gs1f", ⟨loc, none⟩), (s, ⟨loc, none⟩)] = .ok [(pkg, str! "fs", s)] ∧
    AskedAbout st [(pkg, str! "fs", s)] pkg (str! "fs") := by
  have hp := path_symbol (str! "my_p") (str! "4") (.crate .none (.plain (numeral_digit rfl rfl) (by decide)))
    ⟨ident_lower (by simp) (by decide), by decide, not_hashLike (by decide), by decide⟩
  have ho : possibleExports st [(str! "_RNvNtC1q2gs1f", ⟨loc, none⟩), (str! "_RNvNtC4my_p2fs1f", ⟨loc, none⟩)] =
      .ok [(pkg, str! "fs", str! "_RNvNtC4my_p2fs1f")] := by decide +kernel
  refine ⟨_, hp, ho, C182_partial st _ _ pkg (str! "fs") (str! "f") [] _ ⟨loc, none⟩ ho (by simp) hp located
    (by simp [st, AMap.keys]) undecided ?_⟩
  intro e he hm _
  simp only [List.mem_cons, List.not_mem_nil, or_false] at he
  rcases he with rfl | rfl
  · revert hm
    decide +kernel
  · decide +kernel

end Cackle.Graph
