import Verif.Props.Exports
import Verif.Props.Fixes

/-!
# C169: accepting that a package provides an API restricts it
-/

namespace Cackle.Fixes
open Cackle Config Perm Toml
open Cackle.ApiMap (Api PrefixOf)
open Cackle.Prefix (InDef split_pathText)

/-! ## Specification -/

/-- The symbol was found in a program, and because of it the package was reported as possibly providing the API. -/
def Reported (c : Checker.State) (p : PkgId) (a : Api) (s : Str) : Prop :=
  ∃ debug out, Graph.possibleExports c debug = .ok out ∧ (p, a, s) ∈ out ∧
    Checker.exportProblem c (p, a, s) = [.possibleExportedApi p a s]

/-- A package name as cargo allows it, and the name of a module. -/
def NoColon (p : PkgId) (a : Api) : Prop := ':' ∉ p.name ∧ ':' ∉ a

/-- The English claim C169: if the first edit offered for such a report is accepted (which says that it includes a path in
the API), then from then on all functions in that module of that crate are in the API, apart from those that the API
excludes. -/
def C169_Claim : Prop :=
  ∀ (k : Nat) (order : List (List Str) → List (List Str)) (sandboxOf : Str → Sandbox) (bwrap : Bool)
    (builtIns : AMap Api ApiCfg) (n : Nat) (doc doc' : Entries) (r : Raw) (c : Checker.State) (p : PkgId) (a : Api) (s : Str)
    (f : Fix) (fs : List Fix), NoColon p a → Editor.load builtIns (n + 2) doc = some r → c.cfg = r → Reported c p a s →
    fixes k order sandboxOf r.apis (.possibleExportedApi p a s) = some (f :: fs) → f.apply bwrap doc = some doc' →
    ∃ r' d, Editor.load builtIns (n + 2) doc' = some r' ∧ r'.apis.get? a = some d ∧
      ∀ crate rest, Graph.ReadIn s crate a → (¬ ∃ x ∈ d.excl, PrefixOf x (crate :: a :: rest)) →
        InDef d (crate :: a :: rest)

/-- The English claim C169, second part: a package is not reported if that module of its crate is included in the API
already. -/
def C169_IncludedClaim : Prop :=
  ∀ (c : Checker.State) (p : PkgId) (a : Api) (s crate : Str) (d : ApiCfg), NoColon p a → Graph.ReadIn s crate a →
    c.cfg.apis.get? a = some d → crate ++ str! "::" ++ a ∈ d.incl → ¬ Reported c p a s

/-! ## C169 -/

theorem crate_eq {p : PkgId} (h : '-' ∉ p.name) : p.name.map (fun ch => if ch = '-' then '_' else ch) = p.name := by
  refine (List.map_congr_left (g := id) fun x hx => ?_).trans (List.map_id _)
  rw [if_neg]
  · rfl
  · rintro rfl
    exact h hx

theorem reported_crate {c : Checker.State} {p : PkgId} {a : Api} {s crate : Str} (h : Reported c p a s)
    (hr : Graph.ReadIn s crate a) : crate = p.name.map (fun ch => if ch = '-' then '_' else ch) := by
  obtain ⟨debug, out, h1, h2, -⟩ := h
  obtain ⟨e, -, rfl, h3⟩ := (Graph.C47_sound c debug out h1).1 p a s h2
  have := h3.2.1.1.symm.trans hr.1
  cases this
  rfl

/-- **C169 (partial).** The claim for packages without a hyphen in their name. Missing: the others, see `C169_hyphen`. -/
theorem C169_restricted_partial (k : Nat) (order : List (List Str) → List (List Str)) (sandboxOf : Str → Sandbox)
    (bwrap : Bool) (builtIns : AMap Api ApiCfg) (n : Nat) (doc doc' : Entries) (r : Raw) (c : Checker.State) (p : PkgId)
    (a : Api) (s : Str) (f : Fix) (fs : List Fix) (hh : '-' ∉ p.name) (hn : NoColon p a)
    (hl : Editor.load builtIns (n + 2) doc = some r) (hrep : Reported c p a s)
    (hf : fixes k order sandboxOf r.apis (.possibleExportedApi p a s) = some (f :: fs))
    (ha : f.apply bwrap doc = some doc') :
    ∃ r' d, Editor.load builtIns (n + 2) doc' = some r' ∧ r'.apis.get? a = some d ∧
      ∀ crate rest, Graph.ReadIn s crate a → (¬ ∃ x ∈ d.excl, PrefixOf x (crate :: a :: rest)) →
        InDef d (crate :: a :: rest) := by
  cases hf
  obtain ⟨r', h1, hadd, _⟩ := Editor.C70_exact_edit builtIns n doc doc' r
    (.extendApi a (p.name ++ [':', ':'] ++ a)) (.inl rfl) hl ha
  obtain ⟨_, d, hd, hin, _⟩ := hadd
  refine ⟨r', d, h1, hd, fun crate rest hr hx => ⟨⟨p.name ++ [':', ':'] ++ a, (hin _).mpr (.inr (by simp)), ?_⟩, hx⟩⟩
  rw [reported_crate hrep hr, crate_eq hh]
  unfold PrefixOf
  have := split_pathText [p.name, a] (by simp) (by
    intro x hx
    simp only [List.mem_cons, List.not_mem_nil, or_false] at hx
    rcases hx with rfl | rfl
    · exact hn.1
    · exact hn.2)
  have e : Prefix.pathText [p.name, a] = p.name ++ [':', ':'] ++ a := by simp [Prefix.pathText, joinWith]
  rw [e] at this
  rw [this]
  exact ⟨rest, rfl⟩

/-- **C169, second part (partial).** Missing: packages with a hyphen in their name, see `C169_included_hyphen`. -/
theorem C169_included_partial (c : Checker.State) (p : PkgId) (a : Api) (s crate : Str) (d : ApiCfg) (hh : '-' ∉ p.name)
    (hr : Graph.ReadIn s crate a) (hd : c.cfg.apis.get? a = some d) (hi : crate ++ str! "::" ++ a ∈ d.incl) :
    ¬ Reported c p a s := by
  intro hrep
  have hc := reported_crate hrep hr
  rw [crate_eq hh] at hc
  subst hc
  obtain ⟨-, -, -, -, h⟩ := hrep
  unfold Checker.exportProblem at h
  simp only at h
  split at h
  · cases h
  · rw [hd, Option.any_some, if_pos] at h
    · cases h
    · rw [Bool.or_eq_true, decide_eq_true_iff, decide_eq_true_iff]
      exact .inr hi

private def pkg : PkgId := ⟨str! "my-p", str! "1.0.0", true⟩
private def own : Str := str! "_RNvNtC4my_p2fs1f"
private def exDoc (path : Str) : Entries :=
  [(str! "common", .table [(str! "version", .int 3)]),
   (str! "api", .table [(str! "fs", .table [(str! "include", .array [.str path])])])]
private def exRaw (path : Str) : Raw := (Editor.load [] 2 (exDoc path)).getD {}
private def exState (p : PkgId) (path : Str) : Checker.State :=
  { paths := [(pathOf (str! "/p/a.rs"), [p])], cfg := exRaw path }
private def exDebug (s : Str) : List (Str × Graph.DebugInfo) := [(s, ⟨⟨str! "/p/a.rs", 1, none⟩, none⟩)]

/-- **C169, disagreement.** The edit that is offered for the package `my-p` with the crate `my_p` includes `my-p::fs`, which is
the name of nothing. The report is gone (C71), and the functions in `my_p::fs` are not restricted. -/
theorem C169_hyphen : ¬ C169_Claim := by
  intro h
  obtain ⟨r', d, h1, h2, h3⟩ := h 0 id (fun _ => {}) false [] 0 (exDoc (str! "std::fs"))
    (((Fix.extendApi (str! "fs") (str! "my-p::fs")).apply false (exDoc (str! "std::fs"))).getD []) (exRaw (str! "std::fs"))
    (exState pkg (str! "std::fs")) pkg (str! "fs") own _ _ ⟨by decide, by decide⟩ rfl rfl
    ⟨exDebug own, [(pkg, str! "fs", own)], by decide +kernel, by simp, by decide +kernel⟩ rfl rfl
  cases h1
  cases h2
  obtain ⟨⟨x, hx, hp⟩, -⟩ := h3 (str! "my_p") [str! "f"] ⟨by decide +kernel, by decide +kernel⟩ (by simp)
  have hx : x ∈ [str! "my-p::fs", str! "std::fs"] := hx
  simp only [List.mem_cons, List.not_mem_nil, or_false] at hx
  unfold PrefixOf at hp
  rcases hx with rfl | rfl <;> revert hp <;> decide +kernel

/-- **C169, disagreement in the second part.** The package `my-p` is reported although `my_p::fs` is included in the API. -/
theorem C169_included_hyphen : ¬ C169_IncludedClaim := by
  intro h
  exact h (exState pkg (str! "my_p::fs")) pkg (str! "fs") own (str! "my_p") _ ⟨by decide, by decide⟩
    ⟨by decide +kernel, by decide +kernel⟩ rfl (by decide)
    ⟨exDebug own, [(pkg, str! "fs", own)], by decide +kernel, by simp, by decide +kernel⟩

/-! Non-vacuity: the package `q` with the crate `q`. -/
private def qPkg : PkgId := ⟨str! "q", str! "1.0.0", true⟩
private def qSym : Str := str! "_RNvNtC1q2fs1f"

example : Reported (exState qPkg (str! "std::fs")) qPkg (str! "fs") qSym :=
  ⟨exDebug qSym, [(qPkg, str! "fs", qSym)], by decide +kernel, by simp, by decide +kernel⟩
example : Graph.ReadIn qSym (str! "q") (str! "fs") := ⟨by decide +kernel, by decide +kernel⟩
example : ((Fix.extendApi (str! "fs") (str! "q::fs")).apply false (exDoc (str! "std::fs"))).isSome = true := rfl

end Cackle.Fixes
