import Verif.Model.Identity
import Verif.Props.BuildScript

/-!
# C34, C57: package identity and crate kind in sub-processes
-/

namespace Cackle.Identity
open Cackle Perm BuildScript

/-! ## Specification -/

/-- Whether `p` is the only package with its name. -/
def Unique (pkgs : List Package) (p : Package) : Prop := pkgs.filter (fun q => q.name = p.name) = [p]

/-- `id` is what the main process calls package `p`. -/
def IsIdOf (pkgs : List Package) (p : Package) (id : PkgId) : Prop :=
  id.name = p.name ∧ id.version = p.version ∧ (id.nameIsUnique = true ↔ Unique pkgs p)

/-- The environment has cargo's variables for `p` and the list of ambiguous names made by the main
process, which iterates over its packages in any order. -/
def ForPackage (pkgs : List Package) (p : Package) (env : AMap Str Str) : Prop :=
  env.get? (str! "CARGO_PKG_NAME") = some p.name ∧ env.get? (str! "CARGO_PKG_VERSION") = some p.version ∧
  ∃ ids : List PkgId, (∀ id, id ∈ ids ↔ ∃ q ∈ pkgs, id = indexId pkgs q) ∧
    env.get? envMultiple = some (multipleNames ids)

/-- Package names are not empty and have no comma (cargo only admits letters, digits, `-` and `_`). -/
def NamesOk (pkgs : List Package) : Prop := ∀ q ∈ pkgs, q.name ≠ [] ∧ ',' ∉ q.name

/-- The English claim C34: the rustc wrapper, the linker wrapper it starts, and the wrapper of the binary
that was linked all use one selector, whose package is the one the main process knows. -/
def C34_Claim : Prop :=
  ∀ (pkgs : List Package) (p : Package) (env env' : AMap Str Str) (crateName : Str) (args : List Str),
    NamesOk pkgs → p ∈ pkgs →
    ForPackage pkgs p env → env.get? (str! "CARGO_CRATE_NAME") = some crateName → env.get? envCrateKind = none →
    ForPackage pkgs p env' → env'.get? envCrateKind = none →
    ∃ c : CrateSel, IsIdOf pkgs p c.pkgId ∧ c.pkgId = indexId pkgs p ∧ rustcCrate env args = some c ∧
      linkerCrate env args = some c ∧ binCrate env' c = some c

/-! ## Lemmas -/

theorem splitChar_joinWith {ns : List Str} (hne : ns ≠ []) (h : ∀ n ∈ ns, ',' ∉ n) :
    splitChar ',' (joinWith (str! ",") ns) = ns := by
  induction ns with
  | nil => exact absurd rfl hne
  | cons a rest ih =>
    cases rest with
    | nil => exact splitChar_last (h a (by simp))
    | cons b rest =>
      have := ih (by simp) (fun n hn => h n (by simp [hn]))
      simp only [joinWith, List.append_assoc, List.cons_append, List.nil_append]
      rw [splitChar_line (h a (by simp)), this]

theorem all_splitChar {ns : List Str} {n : Str} (hn : n ≠ []) (h : ∀ n ∈ ns, ',' ∉ n) :
    (splitChar ',' (joinWith (str! ",") ns)).all (fun p => p ≠ n) = true ↔ n ∉ ns := by
  by_cases he : ns = []
  · subst he
    simp [joinWith, splitChar]
    exact fun e => hn e
  · rw [splitChar_joinWith he h]
    simp only [List.all_eq_true, decide_eq_true_eq]
    exact ⟨fun hall hm => hall n hm rfl, fun hm x hx e => hm (e ▸ hx)⟩

theorem indexId_isId {pkgs : List Package} {p : Package} (hp : p ∈ pkgs) :
    IsIdOf pkgs p (indexId pkgs p) := by
  refine ⟨rfl, rfl, ?_⟩
  simp only [indexId, decide_eq_true_eq, Unique]
  constructor
  · intro h
    obtain ⟨a, ha⟩ := List.length_eq_one_iff.mp h
    have : p ∈ pkgs.filter (fun q => q.name = p.name) := by simp [hp]
    rw [ha] at this
    rw [ha, List.mem_singleton.mp this]
  · intro h
    rw [h]; rfl

theorem mem_multiple {pkgs : List Package} {p : Package} {ids : List PkgId} (hp : p ∈ pkgs)
    (hids : ∀ id, id ∈ ids ↔ ∃ q ∈ pkgs, id = indexId pkgs q) :
    p.name ∈ ids.filterMap (fun id => if id.nameIsUnique then none else some id.name) ↔
      (indexId pkgs p).nameIsUnique = false := by
  simp only [List.mem_filterMap]
  constructor
  · rintro ⟨id, hid, he⟩
    obtain ⟨q, hq, rfl⟩ := (hids id).mp hid
    split at he
    · simp at he
    · rename_i hu
      have hname : q.name = p.name := by simpa [indexId] using he
      simpa [indexId, hname] using hu
  · intro h
    refine ⟨indexId pkgs p, (hids _).mpr ⟨p, hp, rfl⟩, ?_⟩
    rw [h]; rfl

theorem pkgFromEnv_eq {pkgs : List Package} {p : Package} {env : AMap Str Str} (hok : NamesOk pkgs)
    (hp : p ∈ pkgs) (he : ForPackage pkgs p env) : pkgFromEnv env = some (indexId pkgs p) := by
  obtain ⟨hn, hv, ids, hids, hm⟩ := he
  replace hn : env.get? envPkgName = some p.name := hn
  replace hv : env.get? envPkgVersion = some p.version := hv
  unfold pkgFromEnv
  simp only [hn, hv, hm]
  have hall := all_splitChar (n := p.name)
    (ns := ids.filterMap (fun id => if id.nameIsUnique then none else some id.name)) (hok p hp).1 (by
      intro n hn
      obtain ⟨id, hid, he⟩ := List.mem_filterMap.mp hn
      obtain ⟨q, hq, rfl⟩ := (hids id).mp hid
      split at he
      · simp at he
      · have : q.name = n := by simpa [indexId] using he
        exact this ▸ (hok q hq).2)
  have hmem := mem_multiple hp hids
  rw [hmem] at hall
  have : (splitChar ',' (multipleNames ids)).all (fun p_1 => p_1 ≠ p.name) = (indexId pkgs p).nameIsUnique := by
    unfold multipleNames
    cases hb : (indexId pkgs p).nameIsUnique with
    | true => rw [hb] at hall; exact hall.mpr (by simp)
    | false =>
      rw [hb] at hall
      exact Bool.eq_false_iff.mpr (fun h => absurd rfl (hall.mp h))
  rw [this]
  rfl

theorem token_round_trip (k : CrateKind) : fromToken (toToken k) = some k := by
  cases k <;> decide

theorem get?_linkerEnv {env : AMap Str Str} {c : CrateSel} :
    (linkerEnv env c).get? envPkgName = env.get? envPkgName ∧
    (linkerEnv env c).get? envPkgVersion = env.get? envPkgVersion ∧
    (linkerEnv env c).get? envMultiple = env.get? envMultiple ∧
    (linkerEnv env c).get? envCrateName = env.get? envCrateName ∧
    (linkerEnv env c).get? envCrateKind = some (toToken c.kind) := by
  unfold linkerEnv
  simp only [AMap.get?_insert]
  refine ⟨if_neg (by decide), if_neg (by decide), if_neg (by decide), if_neg (by decide), if_pos trivial⟩

theorem pkgFromEnv_linkerEnv (env : AMap Str Str) (c : CrateSel) :
    pkgFromEnv (linkerEnv env c) = pkgFromEnv env := by
  unfold pkgFromEnv
  obtain ⟨h1, h2, h3, _, _⟩ := get?_linkerEnv (env := env) (c := c)
  rw [h1, h2, h3]

/-! ## C34 -/

private def demoPkgs : List Package :=
  [⟨str! "a", str! "1.0.0"⟩, ⟨str! "b", str! "1.0.0"⟩, ⟨str! "a", str! "2.0.0"⟩]

private def demoEnv (p : Package) (crateName : Str) : AMap Str Str :=
  [(envPkgName, p.name), (envPkgVersion, p.version), (envMultiple, str! "a,a"),
   (envCrateName, crateName)]

private theorem demoFor {p : Package} {n : Str} : ForPackage demoPkgs p (demoEnv p n) := by
  refine ⟨rfl, rfl, demoPkgs.map (indexId demoPkgs), ?_, rfl⟩
  intro id
  simp only [List.mem_map]
  exact ⟨fun ⟨q, hq, e⟩ => ⟨q, hq, e.symm⟩, fun ⟨q, hq, e⟩ => ⟨q, hq, e.symm⟩⟩

/-- **C34, disagreement.** For a package whose library is called `build_script_file_gen`, compiled with
`--test`, the rustc wrapper reports a test and the linker wrapper a build script. -/
theorem C34_build_script_name : ¬ C34_Claim := by
  intro h
  obtain ⟨c, -, -, h1, h2, -⟩ := h demoPkgs ⟨str! "b", str! "1.0.0"⟩
    (demoEnv ⟨str! "b", str! "1.0.0"⟩ (str! "build_script_file_gen"))
    (demoEnv ⟨str! "b", str! "1.0.0"⟩ []) (str! "build_script_file_gen") [str! "--test"]
    (by unfold NamesOk; decide) (by decide) demoFor rfl rfl demoFor rfl
  have e : rustcCrate (demoEnv ⟨str! "b", str! "1.0.0"⟩ (str! "build_script_file_gen")) [str! "--test"] =
      some ⟨⟨str! "b", str! "1.0.0", true⟩, .test⟩ := by decide +kernel
  have e2 : linkerCrate (demoEnv ⟨str! "b", str! "1.0.0"⟩ (str! "build_script_file_gen")) [str! "--test"] =
      some ⟨⟨str! "b", str! "1.0.0", true⟩, .buildScript⟩ := by decide +kernel
  rw [e] at h1
  rw [e2] at h2
  rw [← h1] at h2
  exact absurd h2 (by decide)

/-- **C34 (all but test builds of crates called `build_script_…`).** The wrappers agree on the selector,
its package is the one the main process knows, and the token survives the trip through the environment
and the command line. Missing: a crate whose name starts with `build_script_` compiled with `--test`,
for which the claim is false. -/
theorem C34_identity_partial (pkgs : List Package) (p : Package) (env env' : AMap Str Str)
    (crateName : Str) (args : List Str) (hok : NamesOk pkgs) (hp : p ∈ pkgs)
    (he : ForPackage pkgs p env) (hc : env.get? (str! "CARGO_CRATE_NAME") = some crateName)
    (hk : env.get? envCrateKind = none) (he' : ForPackage pkgs p env')
    (hk' : env'.get? envCrateKind = none)
    (hts : str! "build_script_" <+: crateName → str! "--test" ∉ args) :
    ∃ c : CrateSel, IsIdOf pkgs p c.pkgId ∧ c.pkgId = indexId pkgs p ∧ rustcCrate env args = some c ∧
      linkerCrate env args = some c ∧ binCrate env' c = some c := by
  replace hc : env.get? envCrateName = some crateName := hc
  have hpkg := pkgFromEnv_eq hok hp he
  have hpkg' := pkgFromEnv_eq hok hp he'
  have hbin : ∀ k, binCrate env' ⟨indexId pkgs p, k⟩ = some ⟨indexId pkgs p, k⟩ := by
    intro k
    unfold binCrate crateFromEnv
    rw [hpkg', hk']
    simp only
    split <;> simp [withToken, token_round_trip]
  by_cases hb : startsWith crateName (str! "build_script_") = true
  · have hnt := hts (startsWith_iff.mp hb)
    have hr : rustcCrate env args = some ⟨indexId pkgs p, .buildScript⟩ := by
      unfold rustcCrate crateFromEnv
      rw [hpkg]
      simp [hc, hb, hnt]
    refine ⟨_, indexId_isId hp, rfl, hr, ?_, hbin _⟩
    unfold linkerCrate
    rw [hr]
    simp only [Option.bind_some, crateFromEnv, pkgFromEnv_linkerEnv, hpkg, get?_linkerEnv.2.2.2.1, hc,
      Option.map_some, Option.getD_some, hb, if_true]
  · have hr : rustcCrate env args =
        some ⟨indexId pkgs p, if str! "--test" ∈ args then .test else .primary⟩ := by
      unfold rustcCrate crateFromEnv
      rw [hpkg]
      simp only [hc, Option.map_some, Option.getD_some, hb, hk]
      split <;> simp_all
    refine ⟨_, indexId_isId hp, rfl, hr, ?_, hbin _⟩
    unfold linkerCrate
    rw [hr]
    simp only [Option.bind_some, crateFromEnv, pkgFromEnv_linkerEnv, hpkg, get?_linkerEnv.2.2.2.1, hc,
      Option.map_some, Option.getD_some, get?_linkerEnv.2.2.2.2]
    simp only [hb, withToken, token_round_trip]
    simp

/-- Non-vacuity: one of two versions of a package, compiled as a test. -/
example : ∃ c : CrateSel, c.kind = .test ∧ c.pkgId.nameIsUnique = false ∧
    rustcCrate (demoEnv ⟨str! "a", str! "2.0.0"⟩ (str! "a")) [str! "--test"] = some c ∧
    linkerCrate (demoEnv ⟨str! "a", str! "2.0.0"⟩ (str! "a")) [str! "--test"] = some c := by
  obtain ⟨c, -, h, h1, h2, -⟩ := C34_identity_partial demoPkgs ⟨str! "a", str! "2.0.0"⟩
    (demoEnv ⟨str! "a", str! "2.0.0"⟩ (str! "a")) (demoEnv ⟨str! "a", str! "2.0.0"⟩ (str! "a")) (str! "a")
    [str! "--test"] (by unfold NamesOk; decide) (by decide) demoFor rfl rfl demoFor rfl
    (fun h => absurd h (by decide))
  refine ⟨c, ?_, ?_, h1, h2⟩
  · have : rustcCrate (demoEnv ⟨str! "a", str! "2.0.0"⟩ (str! "a")) [str! "--test"] =
      some ⟨⟨str! "a", str! "2.0.0", false⟩, .test⟩ := by decide +kernel
    rw [this] at h1
    rw [← Option.some.inj h1]
  · rw [h]; decide +kernel

/-! ## C57: what counts as a build script -/

/-- What cargo compiles. -/
inductive Target where
  /-- A library or binary crate with this name. -/
  | normal (name : Str)
  /-- The build script in the file with this stem. -/
  | buildScript (stem : Str)

/-- The crate name cargo gives to a target (cargo's naming, from memory: a build script gets the target
name `build-script-` followed by the stem of its file). -/
def Target.crateName : Target → Str
  | .normal n => n
  | .buildScript stem => str! "build_script_" ++ stem

/-- The English claim C57. -/
def C57_Claim : Prop :=
  ∀ (pkgs : List Package) (p : Package) (env : AMap Str Str) (t : Target) (args : List Str),
    NamesOk pkgs → p ∈ pkgs → ForPackage pkgs p env → env.get? (str! "CARGO_CRATE_NAME") = some t.crateName →
    env.get? envCrateKind = none → str! "--test" ∉ args →
    rustcCrate env args =
      some ⟨indexId pkgs p, match t with | .normal _ => .primary | .buildScript _ => .buildScript⟩

/-- **C57, disagreement.** A library called `build_script_file_gen` is taken for a build script. -/
theorem C57_library_taken_for_build_script : ¬ C57_Claim := by
  intro h
  have := h demoPkgs ⟨str! "b", str! "1.0.0"⟩
    (demoEnv ⟨str! "b", str! "1.0.0"⟩ (str! "build_script_file_gen"))
    (.normal (str! "build_script_file_gen")) [] (by unfold NamesOk; decide) (by decide) demoFor rfl rfl
    (by decide)
  revert this
  decide +kernel

/-- **C57 (crates with other names).** Missing: libraries and binaries whose crate name starts with
`build_script_`, for which the claim is false. -/
theorem C57_kind_partial (pkgs : List Package) (p : Package) (env : AMap Str Str) (t : Target)
    (args : List Str) (hok : NamesOk pkgs) (hp : p ∈ pkgs) (he : ForPackage pkgs p env)
    (hc : env.get? (str! "CARGO_CRATE_NAME") = some t.crateName) (hk : env.get? envCrateKind = none)
    (hname : ∀ n, t = .normal n → ¬ str! "build_script_" <+: n) :
    rustcCrate env args =
      some ⟨indexId pkgs p, if str! "--test" ∈ args then .test else
        match t with | .normal _ => .primary | .buildScript _ => .buildScript⟩ := by
  replace hc : env.get? envCrateName = some t.crateName := hc
  unfold rustcCrate crateFromEnv
  rw [pkgFromEnv_eq hok hp he]
  cases t with
  | normal n =>
    have hb : startsWith n (str! "build_script_") = false := by
      exact Bool.eq_false_iff.mpr (fun h => hname n rfl (startsWith_iff.mp h))
    simp only [hc, Target.crateName, Option.map_some, Option.getD_some, hb, hk]
    split <;> simp_all
  | buildScript stem =>
    have hb : startsWith (str! "build_script_" ++ stem) (str! "build_script_") = true :=
      startsWith_iff.mpr ⟨stem, rfl⟩
    simp only [hc, Target.crateName, Option.map_some, Option.getD_some, hb]
    split <;> simp_all

/-- Non-vacuity: the build script of a package. -/
example : rustcCrate (demoEnv ⟨str! "b", str! "1.0.0"⟩ (str! "build_script_build")) [] =
    some ⟨indexId demoPkgs ⟨str! "b", str! "1.0.0"⟩, .buildScript⟩ :=
  C57_kind_partial demoPkgs ⟨str! "b", str! "1.0.0"⟩ _ (.buildScript (str! "build")) []
    (by unfold NamesOk; decide) (by decide) demoFor rfl rfl (fun _ h => nomatch h)

end Cackle.Identity
