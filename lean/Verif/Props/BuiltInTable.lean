import Verif.Props.BuiltIn
import Verif.Props.Imports
import Verif.Lemmas.Editor

/-!
# C53: what the built-in APIs cover, for every configuration that imports them
-/

namespace Cackle.Config
open Cackle.ApiMap

/-- The modules that a user who imports a built-in API relies on being covered, with the exceptions. -/
def promised : List (Api × List Str × List (List Str)) :=
  [(str! "fs", [str! "std", str! "fs"], []),
   (str! "fs", [str! "std", str! "path"], []),
   (str! "fs", [str! "std", str! "os", str! "unix", str! "fs"], []),
   (str! "fs", [str! "std", str! "os", str! "unix", str! "io"], []),
   (str! "fs", [str! "std", str! "os", str! "linux", str! "fs"], []),
   (str! "env", [str! "std", str! "env"], []),
   (str! "net", [str! "std", str! "net"], []),
   (str! "net", [str! "std", str! "os", str! "linux", str! "net"], []),
   (str! "unix_sockets", [str! "std", str! "os", str! "unix", str! "net"], []),
   (str! "process", [str! "std", str! "process"],
     [[str! "std", str! "process", str! "abort"], [str! "std", str! "process", str! "exit"]]),
   (str! "process", [str! "std", str! "os", str! "linux", str! "process"], []),
   (str! "terminate", [str! "std", str! "process", str! "abort"], []),
   (str! "terminate", [str! "std", str! "process", str! "exit"], [])]

/-- Every promised module is in the table, and the exceptions are the ones in the table that overlap with it. -/
def inTable (e : Api × List Str × List (List Str)) : Bool :=
  match AMap.get? builtIns e.1 with
  | none => false
  | some b => b.incl.any (fun p => splitColons p == e.2.1) &&
      b.excl.all (fun p => e.2.2.contains (splitColons p) ||
        !(e.2.1.isPrefixOf (splitColons p)) && !((splitColons p).isPrefixOf e.2.1))

theorem promised_inTable : promised.all inTable = true := by decide

theorem prefix_total {a b c : List Str} (h1 : a <+: c) (h2 : b <+: c) : a <+: b ∨ b <+: a := by
  rcases Nat.le_total a.length b.length with h | h
  · exact .inl (List.prefix_of_prefix_length_le h1 h2 h)
  · exact .inr (List.prefix_of_prefix_length_le h2 h1 h)

theorem mergeBuiltIns_nodup {b : AMap Api ApiCfg} {doc cfg : Raw} (hn : doc.apis.keys.Nodup)
    (h : mergeBuiltIns b doc = some cfg) : cfg.apis.keys.Nodup := by
  unfold mergeBuiltIns at h
  simp only [Option.bind_eq_bind, Option.pure_def, Option.bind_eq_some_iff, Option.some.injEq] at h
  obtain ⟨m, hm, rfl⟩ := h
  show m.keys.Nodup
  have key : ∀ (l : List Str) (m m' : AMap Api ApiCfg), m.keys.Nodup →
      l.foldlM (fun apis imp => (AMap.get? b imp).bind fun b => some (AMap.insert apis imp
        { (AMap.get? apis imp).getD {} with
          incl := ((AMap.get? apis imp).getD {}).incl ++ b.incl,
          excl := ((AMap.get? apis imp).getD {}).excl ++ b.excl })) m = some m' → m'.keys.Nodup := by
    intro l
    induction l with
    | nil => intro m m' hn h; cases h; exact hn
    | cons i l ih =>
      intro m m' hn h
      simp only [List.foldlM_cons, Option.bind_eq_bind, Option.bind_eq_some_iff] at h
      obtain ⟨x, ⟨y, _, hx⟩, h⟩ := h
      cases hx
      exact ih _ _ (Editor.nodup_insert hn) h
  exact key _ _ _ hn hm

/-- **C53, all built-in APIs.** Whatever else a configuration defines: if it imports a built-in API, every name
below the modules that the API stands for is classified as that API, except for the listed exceptions and what
the configuration itself excludes. -/
theorem C53_coverage (doc cfg : Raw) (t previous : Trie) (hn : doc.apis.keys.Nodup)
    (hc : mergeBuiltIns builtIns doc = some cfg) (ht : loadApis (defsOf cfg.apis) previous = some t)
    (api : Api) (path : List Str) (except : List (List Str)) (hp : (api, path, except) ∈ promised)
    (hi : api ∈ doc.common.importStd) (name : List Str) (hname : path <+: name)
    (hexc : ∀ x ∈ except, ¬ x <+: name) (hown : ∀ p ∈ (defOf doc.apis api).excl, ¬ PrefixOf p name) :
    api ∈ t.get name := by
  have hk := mergeBuiltIns_nodup hn hc
  have hk' : ((defsOf cfg.apis).map Prod.fst).Nodup := by
    have : (defsOf cfg.apis).map Prod.fst = cfg.apis.keys := by
      simp [defsOf, AMap.keys, Function.comp_def]
    rw [this]; exact hk
  obtain ⟨t', h1, h2⟩ := C01_classification (defsOf cfg.apis) hk' previous
  rw [ht] at h1
  cases h1
  rw [h2]
  have hin := List.all_eq_true.mp promised_inTable _ hp
  unfold inTable at hin
  simp only [] at hin
  split at hin
  · cases hin
  · rename_i b hb
    rw [Bool.and_eq_true, List.any_eq_true, List.all_eq_true] at hin
    obtain ⟨⟨p, hpb, hpe⟩, hall⟩ := hin
    have hpe : splitColons p = path := by simpa using hpe
    have key := (C39_import_std builtIns doc).2 cfg hc api
    have hbd : defOf builtIns api = b := by simp [defOf, hb]
    rw [hbd] at key
    have hmem : p ∈ (defOf cfg.apis api).incl := (key.1 p).mpr (.inr ⟨hi, hpb⟩)
    cases hg : AMap.get? cfg.apis api with
    | none => simp [defOf, hg] at hmem
    | some d =>
      have hd : defOf cfg.apis api = d := by simp [defOf, hg]
      rw [hd] at hmem key
      refine ⟨{ incl := d.incl, excl := d.excl }, ?_, ⟨p, hmem, ?_⟩, ?_⟩
      · exact List.mem_map.mpr ⟨(api, d), AMap.mem_of_get? hg, rfl⟩
      · unfold PrefixOf; rw [hpe]; exact hname
      · rintro ⟨q, hq, hpre⟩
        rcases (key.2.1 q).mp hq with h | ⟨_, h⟩
        · exact hown q h hpre
        · have := hall q h
          rw [Bool.or_eq_true] at this
          rcases this with h | h
          · exact hexc _ (by simpa using h) hpre
          · simp only [Bool.and_eq_true, Bool.not_eq_true', Bool.eq_false_iff, ne_eq,
              List.isPrefixOf_iff_prefix] at h
            rcases prefix_total hname hpre with h' | h'
            · exact h.1 h'
            · exact h.2 h'

/-- A configuration that imports all built-in APIs. -/
def allStd : Raw := { common := { importStd := builtIns.keys } }

example : (mergeBuiltIns builtIns allStd).isSome = true := rfl
example : ∃ p ∈ promised, p.1 ∈ allStd.common.importStd ∧
    p.2.1 <+: splitColons (str! "std::process::Command::spawn") ∧
    ∀ x ∈ p.2.2, ¬ x <+: splitColons (str! "std::process::Command::spawn") := by decide

end Cackle.Config
