import Verif.Model.NewVersion
import Verif.Props.Setup
import Verif.Props.ConfigFile
import Verif.Model.Validation

/-!
# C153: newer versions of the configuration
-/

namespace Cackle.NewVersion
open Cackle Config Perm Toml
open Cackle.ApiMap (Api)
open Cackle.Editor (load)
open Cackle.Fixes (Fix)

/-! ## Specification -/

/-- The table at the path is one with a header, if there is one. -/
def Header (doc : Entries) (k : Str) : Prop := ∀ it, doc.get? k = some it → ∃ es, it = .table es

/-- The document can be edited: the tables `common`, `rustc` and `rustc.sandbox` are not written with braces. -/
def Editable (doc : Entries) : Prop :=
  Header doc (str! "common") ∧ Header doc (str! "rustc") ∧
  ∀ es, doc.get? (str! "rustc") = some (.table es) → Header es (str! "sandbox")

/-- One run in which the user is told of a newer version and accepts one of the two offered edits: the plain one, or the one that
preserves the old behaviour. Nothing happens if there is nothing to tell. -/
def round (k : Nat) (builtIns : AMap Api ApiCfg) (preserving : Bool) (doc : Entries) : Option Entries :=
  (load builtIns k doc).bind fun cfg =>
  match check cfg with
  | [] => some doc
  | p :: _ => (Fixes.fixes k id (fun _ => {}) cfg.apis p).bind fun fs =>
    (fs[if preserving then 1 else 0]?).bind fun f => f.apply true doc

/-- Several runs. -/
def rounds (k : Nat) (builtIns : AMap Api ApiCfg) : List Bool → Entries → Option Entries
  | [], doc => some doc
  | b :: bs, doc => (round k builtIns b doc).bind (rounds k builtIns bs)

/-- **C153, what is said.** For every supported configuration: there is a message if and only if the version is not 3, and then
exactly one, a warning that names the next version; it comes with the two edits to that version. -/
theorem C153_said (k : Nat) (order : List (List Str) → List (List Str)) (sandboxOf : Str → Sandbox) (cfg : Raw)
    (h1 : 1 ≤ cfg.common.version) (h3 : cfg.common.version ≤ 3) :
    (check cfg = [] ↔ cfg.common.version = 3) ∧
    (cfg.common.version ≠ 3 → ∃ n : Nat, (n : Int) = cfg.common.version + 1 ∧
      check cfg = [.newConfigVersionAvailable n] ∧ (Problem.newConfigVersionAvailable n).severity = .warning ∧
      Fixes.fixes k order sandboxOf cfg.apis (.newConfigVersionAvailable n) = some [.updateVersion n, .updatePreserving n]) := by
  have hv : cfg.common.version = 1 ∨ cfg.common.version = 2 ∨ cfg.common.version = 3 := by omega
  rcases hv with e | e | e
  · refine ⟨by simp [check, e, maxVersion], fun _ => ⟨2, by rw [e]; rfl, ?_, rfl, rfl⟩⟩
    unfold check
    rw [e]
    rfl
  · refine ⟨by simp [check, e, maxVersion], fun _ => ⟨3, by rw [e]; rfl, ?_, rfl, rfl⟩⟩
    unfold check
    rw [e]
    rfl
  · exact ⟨by simp [check, e, maxVersion], fun h => absurd e h⟩

/-- The English claim C153: with every choice of edits, the newest version is reached after as many runs as there are newer
versions. -/
def C153_Claim : Prop :=
  ∀ (k : Nat) (builtIns : AMap Api ApiCfg) (doc : Entries) (c : Raw) (choices : List Bool), load builtIns k doc = some c →
    validate c = [] → c.common.version + choices.length = 3 →
    ∃ doc' c', rounds k builtIns choices doc = some doc' ∧ load builtIns k doc' = some c' ∧ validate c' = [] ∧
      c'.common.version = 3 ∧ check c' = []

/-- **C153, disagreement.** If the table `common` is written with braces, neither edit can be applied. -/
theorem C153_refuted : ¬ C153_Claim := by
  intro h
  obtain ⟨doc', c', h1, _⟩ := h 2 [] [(str! "common", .inline [(str! "version", .int 2)])] { common := { version := 2 } } [true]
    rfl rfl rfl
  exact absurd h1 (by rw [show rounds 2 [] [true] [(str! "common", .inline [(str! "version", .int 2)])] = none from rfl]; simp)

/-! ## Lemmas -/

theorem parse_change {b : AMap Api ApiCfg} {r c : Raw} (h : parseRaw b r = some c) (r' : Raw)
    (hs : r'.common.importStd = r.common.importStd) (ha : r'.apis = r.apis) (hp : r'.packages = r.packages) :
    ∃ c', parseRaw b r' = some c' ∧ c'.apis = c.apis ∧ c'.packages = c.packages ∧ c'.common.version = r'.common.version := by
  have hc1 := (ConfigFile.parseRaw_keeps h).1
  unfold parseRaw mergeBuiltIns at h
  simp only [Option.bind_eq_bind, Option.pure_def, Option.bind_eq_some_iff, Option.some.injEq] at h
  obtain ⟨m, ⟨apis, hm, rfl⟩, hc⟩ := h
  have hex : ∃ c', parseRaw b r' = some c' ∧ c'.apis = apis := by
    unfold parseRaw mergeBuiltIns
    simp only [Option.bind_eq_bind, Option.pure_def, Option.bind_eq_some_iff, Option.some.injEq]
    refine ⟨_, ⟨_, ⟨apis, by rw [hs, ha]; exact hm, rfl⟩, rfl⟩, ?_⟩
    exact (Editor.applyRuntimePatches_apis _ []).2
  obtain ⟨c', h1, h2⟩ := hex
  have k := ConfigFile.parseRaw_keeps h1
  refine ⟨c', h1, ?_, by rw [k.1, hp, hc1], k.2.2.1⟩
  rw [h2, ← hc]
  exact ((Editor.applyRuntimePatches_apis { r with apis := apis, common := { r.common with importStd := [] } } []).2).symm

theorem get_insert_self (m : Entries) (k : Str) (v : Item) : (m.insert k v).get? k = some v := by
  rw [AMap.get?_insert]
  simp

theorem get_insert_ne (m : Entries) {k k' : Str} (h : k' ≠ k) (v : Item) : (m.insert k v).get? k' = m.get? k' := by
  rw [AMap.get?_insert]
  simp [Ne.symm h]

theorem common_ne_rustc : str! "rustc" ≠ str! "common" := by decide

/-- A table with a header can be edited. -/
theorem header_cases {doc : Entries} {k : Str} (h : Header doc k) : ∃ es, (doc.get? k).getD (.table []) = .table es := by
  cases hg : doc.get? k with
  | none => exact ⟨[], rfl⟩
  | some it =>
    obtain ⟨es, rfl⟩ := h it hg
    exact ⟨es, rfl⟩

theorem setVersion_ok {doc : Entries} (n : Int) (h : Editable doc) :
    ∃ doc', Editor.setVersion n doc = some doc' ∧ Editable doc' := by
  obtain ⟨es, he⟩ := header_cases h.1
  refine ⟨doc.insert (str! "common") (.table (AMap.insert es (str! "version") (.int n))), ?_, ?_, ?_, ?_⟩
  · simp only [Editor.setVersion, Editor.withTable, he, Editor.setValue, Option.map_some]
  · intro it hit
    rw [get_insert_self] at hit
    exact ⟨_, (Option.some.inj hit).symm⟩
  · intro it hit
    rw [get_insert_ne _ common_ne_rustc] at hit
    exact h.2.1 it hit
  · intro es' hes
    rw [get_insert_ne _ common_ne_rustc] at hes
    exact h.2.2 es' hes

theorem preserving_ok {doc : Entries} (n : Nat) (h : Editable doc) :
    ∃ doc', Editor.updatePreserving n doc = some doc' ∧ Editable doc' := by
  unfold Editor.updatePreserving
  by_cases hn : n = 2
  · rw [if_pos hn]
    obtain ⟨es, he⟩ := header_cases h.2.1
    have hsb : Header es (str! "sandbox") := by
      cases hg : doc.get? (str! "rustc") with
      | none =>
        rw [hg] at he
        cases he
        intro it hit
        cases hit
      | some it =>
        rw [hg] at he
        have e : it = .table es := he
        rw [e] at hg
        exact h.2.2 es hg
    obtain ⟨es2, he2⟩ := header_cases hsb
    have hd : ∃ d, Editor.withTable (fun t => some (if (t.get? (str! "kind")).isSome then t
        else t.insert (str! "kind") (.str (str! "Disabled")))) [str! "rustc", str! "sandbox"] doc = some d ∧ Editable d := by
      refine ⟨doc.insert (str! "rustc") (.table (AMap.insert es (str! "sandbox") (.table (if (AMap.get? es2 (str! "kind")).isSome then es2
        else AMap.insert es2 (str! "kind") (.str (str! "Disabled")))))), ?_, ?_, ?_, ?_⟩
      · simp only [Editor.withTable, he, he2, Option.map_some]
      · intro it hit
        rw [get_insert_ne _ (Ne.symm common_ne_rustc)] at hit
        exact h.1 it hit
      · intro it hit
        rw [get_insert_self] at hit
        exact ⟨_, (Option.some.inj hit).symm⟩
      · intro es' hes it hit
        rw [get_insert_self] at hes
        have e := Option.some.inj hes
        injection e with e
        rw [← e, get_insert_self] at hit
        exact ⟨_, (Option.some.inj hit).symm⟩
    obtain ⟨d, h1, h2⟩ := hd
    rw [h1]
    exact setVersion_ok n h2
  · rw [if_neg hn]
    exact setVersion_ok n h

theorem validate_version {c : Raw} (h : validate c = []) : 1 ≤ c.common.version ∧ c.common.version ≤ 3 := by
  unfold validate at h
  have := (List.append_eq_nil_iff.mp h).1
  by_cases hv : c.common.version < 1 ∨ c.common.version > maxVersion
  · rw [if_pos hv] at this
    cases this
  · simp only [maxVersion] at hv
    omega

theorem validate_keep {c c' : Raw} (h : validate c = []) (ha : c'.apis = c.apis) (hp : c'.packages = c.packages)
    (h1 : 1 ≤ c'.common.version) (h3 : c'.common.version ≤ 3) : validate c' = [] := by
  unfold validate at h ⊢
  have h2 := (List.append_eq_nil_iff.mp h).2
  have hf : fromConfig c' = fromConfig c := by simp [fromConfig, hp]
  rw [if_neg (by simp only [maxVersion]; omega), ha, hf, h2]
  rfl

theorem round_ok {k : Nat} {b : AMap Api ApiCfg} {doc : Entries} {c : Raw} (choice : Bool) (hl : load b k doc = some c)
    (hv : validate c = []) (he : Editable doc) (hn : c.common.version ≠ 3) :
    ∃ doc' c', round k b choice doc = some doc' ∧ load b k doc' = some c' ∧ validate c' = [] ∧ Editable doc' ∧
      c'.common.version = c.common.version + 1 := by
  obtain ⟨h1, h3⟩ := validate_version hv
  obtain ⟨n, hn1, hn2, _, hn4⟩ := (C153_said k id (fun _ => {}) c h1 h3).2 hn
  obtain ⟨r, hr, hp⟩ := Option.bind_eq_some_iff.mp hl
  have hround : ∀ f : Fix, [Fix.updateVersion n, .updatePreserving n][if choice then 1 else 0]? = some f →
      round k b choice doc = f.apply true doc := by
    intro f hf
    unfold round
    rw [hl]
    dsimp only [Option.bind]
    rw [hn2]
    dsimp only
    rw [hn4]
    dsimp only
    rw [hf]
  have hend : ∀ (doc' : Entries) (r' : Raw), readDoc k doc' = some r' → r'.common.importStd = r.common.importStd →
      r'.apis = r.apis → r'.packages = r.packages → r'.common.version = (n : Int) → Editable doc' →
      ∃ c', load b k doc' = some c' ∧ validate c' = [] ∧ Editable doc' ∧ c'.common.version = c.common.version + 1 := by
    intro doc' r' e1 e2 e3 e4 e5 e6
    obtain ⟨c', p1, p2, p3, p4⟩ := parse_change hp r' e2 e3 e4
    have e7 : c'.common.version = c.common.version + 1 := by rw [p4, e5, hn1]
    exact ⟨c', by unfold load; rw [e1]; exact p1, validate_keep hv p2 p3 (by omega) (by omega), e6, e7⟩
  cases choice with
  | false =>
    obtain ⟨doc', d1, d2⟩ := setVersion_ok (n : Int) he
    obtain ⟨c', q⟩ := hend doc' _ (Editor.readDoc_setVersion hr d1) rfl rfl rfl rfl d2
    exact ⟨doc', c', (hround _ rfl).trans d1, q⟩
  | true =>
    obtain ⟨doc', d1, d2⟩ := preserving_ok n he
    have hk : ∀ r : Raw, (Config.updatePreserving n r).common.importStd = r.common.importStd ∧
        (Config.updatePreserving n r).apis = r.apis ∧ (Config.updatePreserving n r).packages = r.packages := by
      intro r
      unfold Config.updatePreserving patch2
      by_cases h : n = 2
      · rw [if_pos h]
        by_cases h' : r.rustcSandbox.kind.isNone
        · rw [if_pos h']; exact ⟨rfl, rfl, rfl⟩
        · rw [if_neg h']; exact ⟨rfl, rfl, rfl⟩
      · rw [if_neg h]; exact ⟨rfl, rfl, rfl⟩
    obtain ⟨c', q⟩ := hend doc' _ (Editor.readDoc_updatePreserving hr d1) (hk r).1 (hk r).2.1 (hk r).2.2 rfl d2
    exact ⟨doc', c', (hround _ rfl).trans d1, q⟩

/-- **C153 (partial).** For every configuration that is accepted and whose tables `common`, `rustc` and `rustc.sandbox` are not
written with braces, and for every choice of edits: after as many runs as there are newer versions, the configuration is accepted,
has the newest version, and nothing more is said. Missing: tables with braces (see `C153_refuted`). -/
theorem C153_reaches_newest_partial (k : Nat) (builtIns : AMap Api ApiCfg) (choices : List Bool) :
    ∀ (doc : Entries) (c : Raw), load builtIns k doc = some c → validate c = [] → Editable doc →
      c.common.version + choices.length = 3 →
      ∃ doc' c', rounds k builtIns choices doc = some doc' ∧ load builtIns k doc' = some c' ∧ validate c' = [] ∧
        c'.common.version = 3 ∧ check c' = [] := by
  induction choices with
  | nil =>
    intro doc c hl hv _ hn
    have h3 : c.common.version = 3 := by simpa using hn
    exact ⟨doc, c, rfl, hl, hv, h3, by simp [check, h3, maxVersion]⟩
  | cons b bs ih =>
    intro doc c hl hv he hn
    have hne : c.common.version ≠ 3 := by
      simp only [List.length_cons] at hn
      omega
    obtain ⟨d1, c1, r1, r2, r3, r4, r5⟩ := round_ok b hl hv he hne
    obtain ⟨d2, c2, q⟩ := ih d1 c1 r2 r3 r4 (by simp only [List.length_cons] at hn; omega)
    refine ⟨d2, c2, ?_, q.2⟩
    show (round k builtIns b doc).bind (rounds k builtIns bs) = some d2
    rw [r1]
    exact q.1

/-! Non-vacuity. -/
private def old : Entries :=
  [(str! "common", .table [(str! "version", .int 1), (str! "import_std", .array [.str (str! "fs")])]),
   (str! "pkg", .table [(str! "p", .table [(str! "allow_apis", .array [.str (str! "fs")])])])]
example : (load builtIns 2 old).map (fun c => (decide (validate c = []), c.common.version)) = some (true, 1) := by decide +kernel
example : Editable old := by
  refine ⟨?_, ?_, ?_⟩
  · intro it h
    exact ⟨_, (Option.some.inj h).symm⟩
  · intro it h
    cases h
  · intro es h
    cases h
example : ((rounds 2 builtIns [true, false] old).bind (load builtIns 2)).map (fun c => c.common.version) = some 3 := by
  decide +kernel

end Cackle.NewVersion
