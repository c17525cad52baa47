import Verif.Model.BuiltIn
import Verif.Props.ApiMap

/-!
# C53: what the built-in `process` API covers
-/

namespace Cackle.Config
open Cackle.ApiMap

/-- The API table as `update_config` sees it (checker.rs:170-190). -/
def defsOf (apis : AMap Api ApiCfg) : List (Api × ApiDef) :=
  apis.map (fun e => (e.1, { incl := e.2.incl, excl := e.2.excl }))

/-- A configuration that imports only the built-in API `process`. -/
def processOnly : Raw := { common := { importStd := [str! "process"] } }

/-- The English claim C53: with `import_std = ["process"]`, a name below `std::process` other than
`abort` and `exit`, or below `std::os::unix::process`, is classified as `process`. -/
def C53_Claim : Prop :=
  ∀ (cfg : Raw) (t : Trie), mergeBuiltIns builtIns processOnly = some cfg →
    loadApis (defsOf cfg.apis) Trie.empty = some t →
    ∀ name, ([str! "std", str! "os", str! "unix", str! "process"] <+: name ∨
        ([str! "std", str! "process"] <+: name ∧ ¬ [str! "std", str! "process", str! "abort"] <+: name ∧
          ¬ [str! "std", str! "process", str! "exit"] <+: name)) →
      str! "process" ∈ t.get name

private def merged : Raw :=
  { apis := [(str! "process", { incl := [str! "std::process", str! "std::os::linux::process",
      str! "std::unix::process"], excl := [str! "std::process::abort", str! "std::process::exit"] })] }

theorem merged_eq : mergeBuiltIns builtIns processOnly = some merged := by rfl

/-- Which names the built-in API classifies, for all names. -/
theorem process_iff (t : Trie) (ht : loadApis (defsOf merged.apis) Trie.empty = some t)
    (name : List Str) : str! "process" ∈ t.get name ↔
      ([str! "std", str! "process"] <+: name ∨ [str! "std", str! "os", str! "linux", str! "process"] <+: name ∨
        [str! "std", str! "unix", str! "process"] <+: name) ∧
      ¬ ([str! "std", str! "process", str! "abort"] <+: name ∨
        [str! "std", str! "process", str! "exit"] <+: name) := by
  obtain ⟨t', h1, h2⟩ := C01_classification (defsOf merged.apis) (by decide) Trie.empty
  rw [ht] at h1
  cases h1
  rw [h2]
  have e1 : splitColons (str! "std::process") = [str! "std", str! "process"] := by decide
  have e2 : splitColons (str! "std::os::linux::process") =
    [str! "std", str! "os", str! "linux", str! "process"] := by decide
  have e3 : splitColons (str! "std::unix::process") = [str! "std", str! "unix", str! "process"] := by decide
  have e4 : splitColons (str! "std::process::abort") = [str! "std", str! "process", str! "abort"] := by decide
  have e5 : splitColons (str! "std::process::exit") = [str! "std", str! "process", str! "exit"] := by decide
  simp only [Classified, defsOf, merged, List.map_cons, List.map_nil, Prod.mk.injEq,
    true_and, exists_eq_left, PrefixOf, List.mem_cons, List.not_mem_nil, or_false, exists_eq_or_imp,
    e1, e2, e3, e4, e5]

/-- **C53, disagreement.** `std::os::unix::process` is not covered: the table says `std::unix::process`,
a module that does not exist. -/
theorem C53_unix_process_missed : ¬ C53_Claim := by
  intro h
  obtain ⟨t, ht, _⟩ := C01_classification (defsOf merged.apis) (by decide) Trie.empty
  have := h merged t merged_eq ht
    [str! "std", str! "os", str! "unix", str! "process", str! "CommandExt", str! "exec"]
    (.inl ⟨_, rfl⟩)
  rw [process_iff t ht] at this
  revert this
  decide

/-- **C53 (partial).** Every name below `std::process` other than `abort` and `exit` is classified as
`process`, and so is every name below `std::os::linux::process`. Missing: `std::os::unix::process`. -/
theorem C53_process_partial (cfg : Raw) (t : Trie) (hc : mergeBuiltIns builtIns processOnly = some cfg)
    (ht : loadApis (defsOf cfg.apis) Trie.empty = some t) (name : List Str)
    (h : [str! "std", str! "os", str! "linux", str! "process"] <+: name ∨
      ([str! "std", str! "process"] <+: name ∧ ¬ [str! "std", str! "process", str! "abort"] <+: name ∧
        ¬ [str! "std", str! "process", str! "exit"] <+: name)) :
    str! "process" ∈ t.get name := by
  rw [merged_eq] at hc
  cases hc
  rw [process_iff t ht]
  rcases h with h | ⟨h1, h2, h3⟩
  · refine ⟨.inr (.inl h), ?_⟩
    obtain ⟨r, rfl⟩ := h
    simp
  · exact ⟨.inl h1, by simp [h2, h3]⟩

example : ¬ [str! "std", str! "process", str! "exit"] <+: splitColons (str! "std::process::Command::spawn") := by
  decide

end Cackle.Config
