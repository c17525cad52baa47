import Verif.Model.Summary
import Verif.Props.Permissions

/-!
# C49, C81: the summary of permissions

The specification of what a package may do is that of C03: what the sections of the config file list, and
the documented inheritance.
-/

namespace Cackle.Summary
open Cackle Perm Config

/-- The permissions that the summary is about. -/
inductive Special where
  | procMacro | unsafeCode | externCode | api (a : Str)

/-- How they are written. -/
def Special.text : Special → Str
  | .procMacro => str! "proc_macro"
  | .unsafeCode => str! "unsafe"
  | .externCode => str! "extern"
  | .api a => a

/-- A section of the config file lists the permission. -/
def Lists (p : Perms) : Special → Prop
  | .procMacro => p.allowProcMacro = true
  | .unsafeCode => p.allowUnsafe = true
  | .externCode => p.allowExtern = true
  | .api a => a ∈ p.allowApis

/-- The permission is granted to the package at a scope that exists, directly or by inheritance. -/
def Granted (cfg : Raw) (idx : List IdxPkg) (pkg : Str) (s : Scope) (k : Special) : Prop :=
  Exists cfg idx pkg s ∧ ∃ s' ∈ chain s, ∃ p, listed cfg pkg s' = some p ∧ Lists p k

/-- The package or its build script is granted nothing. -/
def NothingSpecial (cfg : Raw) (idx : List IdxPkg) (pkg : Str) : Prop :=
  ∀ k, ¬ Granted cfg idx pkg .all k ∧ ¬ Granted cfg idx pkg .build k

/-- The package may be a proc macro, and is granted something else besides, not counting what only its
build script may do. -/
def ImpureMacro (cfg : Raw) (idx : List IdxPkg) (pkg : Str) : Prop :=
  (Granted cfg idx pkg .all .procMacro ∨ Granted cfg idx pkg .build .procMacro) ∧
    ∃ k, k ≠ .procMacro ∧ Granted cfg idx pkg .all k

/-! ## The entries -/

theorem not_exists_build {cfg : Raw} (hn : cfg.packages.keys.Nodup) {idx : List IdxPkg} {pkg : Str}
    (h : ¬ Exists cfg idx pkg .build) : (withInheritance cfg idx).get? ⟨pkg, .build⟩ = none := by
  simp only [Perm.Exists, not_or] at h
  have hb : (base cfg idx).get? ⟨pkg, .build⟩ = none := by
    rw [base_get cfg hn]
    have h1 := h.1
    rw [listed_eq, Option.isSome_map] at h1
    rw [if_neg (fun hm => h.2 ((mem_indexSelectors_build idx pkg).mp hm))]
    cases hc : (cfg.packages.get? pkg).bind (fun c => sectionOf c .build) with
    | none => rfl
    | some c => exact absurd (by simp [hc]) h1
  rw [withInheritance_eq, applyInheritance_get]
  simp [hb]

theorem mem_permTexts {cfg : Raw} (hn : cfg.packages.keys.Nodup) {idx : List IdxPkg} {pkg : Str}
    (hidx : Indexed idx pkg) (s : Scope) (hs : s = .all ∨ s = .build) (suffix t : Str) :
    t ∈ permTexts (withInheritance cfg idx) ⟨pkg, s⟩ suffix ↔
      ∃ k, Granted cfg idx pkg s k ∧ t = k.text ++ suffix := by
  by_cases he : Exists cfg idx pkg s
  · obtain ⟨c, hc, h1, _, h2, h3, h4⟩ := C03_inheritance cfg hn idx pkg hidx s he
    have hg : ∀ k, Granted cfg idx pkg s k ↔ Lists c.perms k := by
      intro k
      unfold Granted
      cases k with
      | procMacro => simp only [Lists, he, true_and, h4]
      | unsafeCode => simp only [Lists, he, true_and, h2]
      | externCode => simp only [Lists, he, true_and, h3]
      | api a => simp only [Lists, he, true_and, h1]
    unfold permTexts
    rw [hc]
    simp only [List.mem_append, List.mem_map]
    constructor
    · rintro (h | h | h | ⟨a, ha, rfl⟩)
      · by_cases e : c.perms.allowProcMacro = true
        · rw [if_pos e] at h
          exact ⟨.procMacro, (hg _).mpr e, List.mem_singleton.mp h⟩
        · rw [if_neg e] at h; exact absurd h (by simp)
      · by_cases e : c.perms.allowUnsafe = true
        · rw [if_pos e] at h
          exact ⟨.unsafeCode, (hg _).mpr e, List.mem_singleton.mp h⟩
        · rw [if_neg e] at h; exact absurd h (by simp)
      · by_cases e : c.perms.allowExtern = true
        · rw [if_pos e] at h
          exact ⟨.externCode, (hg _).mpr e, List.mem_singleton.mp h⟩
        · rw [if_neg e] at h; exact absurd h (by simp)
      · exact ⟨.api a, (hg _).mpr ha, rfl⟩
    · rintro ⟨k, hk, rfl⟩
      rw [hg] at hk
      cases k with
      | procMacro => exact Or.inl (by simp only [Lists] at hk; rw [if_pos hk]; exact List.mem_singleton.mpr rfl)
      | unsafeCode => exact Or.inr (Or.inl (by simp only [Lists] at hk; rw [if_pos hk]; exact List.mem_singleton.mpr rfl))
      | externCode => exact Or.inr (Or.inr (Or.inl (by simp only [Lists] at hk; rw [if_pos hk]; exact List.mem_singleton.mpr rfl)))
      | api a => exact Or.inr (Or.inr (Or.inr ⟨a, hk, rfl⟩))
  · have hb : s = .build := by
      rcases hs with rfl | rfl
      · exact absurd trivial he
      · rfl
    subst hb
    unfold permTexts
    rw [not_exists_build hn he]
    simp [Granted, he]

/-- The permissions shown for a package. -/
def Describes (cfg : Raw) (idx : List IdxPkg) (e : Entry) : Prop :=
  ∀ t, t ∈ e.permissions ↔ ∃ k, (Granted cfg idx e.name .all k ∧ t = k.text) ∨
    (Granted cfg idx e.name .build k ∧ t = k.text ++ str! "[build]")

theorem entryFor_describes {cfg : Raw} (hn : cfg.packages.keys.Nodup) {idx : List IdxPkg} {id : PkgId}
    (hidx : Indexed idx id.name) : Describes cfg idx (entryFor (withInheritance cfg idx) id) := by
  intro t
  have h1 := mem_permTexts hn hidx .all (Or.inl rfl) [] t
  have h2 := mem_permTexts hn hidx .build (Or.inr rfl) buildSuffix t
  simp only [entryFor, List.mem_append, h1, h2, List.append_nil]
  constructor
  · rintro (⟨k, h, e⟩ | ⟨k, h, e⟩)
    · exact ⟨k, Or.inl ⟨h, e⟩⟩
    · exact ⟨k, Or.inr ⟨h, e⟩⟩
  · rintro ⟨k, ⟨h, e⟩ | ⟨h, e⟩⟩
    · exact Or.inl ⟨k, h, e⟩
    · exact Or.inr ⟨k, h, e⟩

/-! ## Sorting -/

theorem insertEntry_perm (a : Entry) (l : List Entry) : (insertEntry a l).Perm (a :: l) := by
  induction l with
  | nil => exact .refl _
  | cons b bs ih =>
    unfold insertEntry
    split
    · exact .refl _
    · exact (ih.cons b).trans (List.Perm.swap a b bs)

theorem sortEntries_perm (l : List Entry) : (l.foldr insertEntry []).Perm l := by
  induction l with
  | nil => exact .refl _
  | cons a l ih => exact (insertEntry_perm a _).trans (ih.cons a)

theorem strLe_total (a b : Str) : strLe a b = true ∨ strLe b a = true := by
  induction a generalizing b with
  | nil => simp [strLe]
  | cons x a ih =>
    cases b with
    | nil => simp [strLe]
    | cons y b =>
      simp only [strLe]
      by_cases h1 : x.val < y.val
      · simp [h1]
      · by_cases h2 : y.val < x.val
        · simp [h2]
        · have e : x = y := Char.ext (by
            have h1' : ¬ x.val.toNat < y.val.toNat := h1
            have h2' : ¬ y.val.toNat < x.val.toNat := h2
            exact UInt32.toNat_inj.mp (by omega))
          subst e
          simp [h1, ih b]

theorem strLe_trans {a b c : Str} (h1 : strLe a b = true) (h2 : strLe b c = true) :
    strLe a c = true := by
  induction a generalizing b c with
  | nil => simp [strLe]
  | cons x a ih =>
    cases b with
    | nil => simp [strLe] at h1
    | cons y b =>
      cases c with
      | nil => simp [strLe] at h2
      | cons z c =>
        simp only [strLe] at h1 h2 ⊢
        by_cases hxy : x.val < y.val
        · by_cases hyz : y.val < z.val
          · have : x.val < z.val := by
              have a1 : x.val.toNat < y.val.toNat := hxy
              have a2 : y.val.toNat < z.val.toNat := hyz
              show x.val.toNat < z.val.toNat
              omega
            simp [this]
          · by_cases e : y = z
            · subst e; simp [hxy]
            · simp [hyz, e] at h2
        · by_cases e : x = y
          · subst e
            by_cases hyz : x.val < z.val
            · simp [hyz]
            · by_cases e' : x = z
              · subst e'
                simp only [hxy, if_false, if_true] at h1 h2 ⊢
                exact ih h1 h2
              · simp [hyz, e'] at h2
          · simp [hxy, e] at h1

/-- In order of name. -/
def Sorted : List Entry → Prop
  | [] => True
  | e :: rest => (∀ f ∈ rest, strLe e.name f.name = true) ∧ Sorted rest

theorem insertEntry_sorted {a : Entry} {l : List Entry} (h : Sorted l) : Sorted (insertEntry a l) := by
  induction l with
  | nil => simp [insertEntry, Sorted]
  | cons b bs ih =>
    unfold insertEntry
    split
    · rename_i hab
      refine ⟨fun f hf => ?_, h⟩
      rcases List.mem_cons.mp hf with rfl | hf
      · exact hab
      · exact strLe_trans hab (h.1 f hf)
    · rename_i hab
      refine ⟨fun f hf => ?_, ih h.2⟩
      rcases List.mem_cons.mp ((insertEntry_perm a bs).mem_iff.mp hf) with rfl | hf
      · exact (strLe_total b.name _).resolve_right hab
      · exact h.1 f hf

theorem sortEntries_sorted (l : List Entry) : Sorted (l.foldr insertEntry []) := by
  induction l with
  | nil => trivial
  | cons a l ih => exact insertEntry_sorted ih

theorem summarize_perm (m : PermMap) (ids : List PkgId) :
    (summarize m ids).Perm (ids.map (entryFor m)) := sortEntries_perm _

/-! ## C49 -/

/-- **C49, the lists.** There is one entry for each package of the crate index, in order of name, and an
entry shows exactly the effective permissions of the package and of its build script. -/
theorem C49_lists (cfg : Raw) (hn : cfg.packages.keys.Nodup) (idx : List IdxPkg) (ids : List PkgId)
    (hids : ∀ id ∈ ids, Indexed idx id.name) :
    ((summarize (withInheritance cfg idx) ids).map Entry.name).Perm (ids.map PkgId.name) ∧
      Sorted (summarize (withInheritance cfg idx) ids) ∧
      ∀ e ∈ summarize (withInheritance cfg idx) ids, Describes cfg idx e := by
  refine ⟨?_, sortEntries_sorted _, ?_⟩
  · have := (summarize_perm (withInheritance cfg idx) ids).map Entry.name
    rw [List.map_map] at this
    exact this
  · intro e he
    rw [(summarize_perm _ _).mem_iff, List.mem_map] at he
    obtain ⟨id, hid, rfl⟩ := he
    exact entryFor_describes hn (hids id hid)

theorem startsWith_iff (s p : Str) : startsWith s p = true ↔ p <+: s := by
  induction s generalizing p with
  | nil =>
    cases p with
    | nil => simp [startsWith]
    | cons a p => simp [startsWith]
  | cons c s ih =>
    cases p with
    | nil => simp [startsWith]
    | cons a p =>
      simp only [startsWith, Bool.and_eq_true, decide_eq_true_eq, ih, List.cons_prefix_cons]
      constructor
      · rintro ⟨rfl, h⟩; exact ⟨rfl, h⟩
      · rintro ⟨rfl, h⟩; exact ⟨rfl, h⟩

theorem endsWith_iff (s p : Str) : endsWith s p = true ↔ p <:+ s := by
  unfold endsWith
  rw [startsWith_iff, List.reverse_prefix]

/-- No API in use has a name that can be mistaken in the lists: none begins with `proc_macro` or ends in
`[build]`. -/
def PlainApis (cfg : Raw) : Prop :=
  ∀ pkg s p a, listed cfg pkg s = some p → a ∈ p.allowApis →
    ¬ str! "proc_macro" <+: a ∧ ¬ str! "[build]" <:+ a

theorem plain_text {cfg : Raw} (hpl : PlainApis cfg) {idx : List IdxPkg} {pkg : Str} {s : Scope}
    {k : Special} (h : Granted cfg idx pkg s k) :
    (str! "proc_macro" <+: k.text ↔ k = .procMacro) ∧ ¬ str! "[build]" <:+ k.text := by
  cases k with
  | procMacro => exact ⟨by simp [Special.text], by decide⟩
  | unsafeCode => exact ⟨by simp [Special.text], by decide⟩
  | externCode => exact ⟨by simp [Special.text], by decide⟩
  | api a =>
    obtain ⟨_, s', _, p, hp, hl⟩ := h
    obtain ⟨h1, h2⟩ := hpl pkg s' p a hp hl
    exact ⟨by simp [Special.text, h1], h2⟩

theorem prefix_append_short {p a b : Str} (h : p <+: a ++ b) (hne : ¬ p <+: a) : a.length < p.length := by
  rcases Nat.lt_or_ge a.length p.length with h' | h'
  · exact h'
  · exact absurd (List.prefix_of_prefix_length_le h (List.prefix_append a b) h') hne

/-- A text followed by `[build]` begins with `proc_macro` only if the text does. -/
theorem prefix_build {a : Str} : str! "proc_macro" <+: a ++ str! "[build]" ↔ str! "proc_macro" <+: a := by
  constructor
  · intro h
    rcases Nat.lt_or_ge a.length 10 with hl | hl
    · exfalso
      obtain ⟨r, hr⟩ := h
      have hx : (str! "proc_macro" ++ r)[a.length]? = (a ++ str! "[build]")[a.length]? := by rw [hr]
      rw [List.getElem?_append_left (by simpa using hl),
        List.getElem?_append_right (Nat.le_refl _), Nat.sub_self] at hx
      generalize a.length = n at hl hx
      have : ∀ n < 10, (str! "proc_macro")[n]? ≠ (str! "[build]")[0]? := by decide
      exact this n hl hx
    · exact List.prefix_of_prefix_length_le h (List.prefix_append _ _) (by simpa using hl)
  · exact fun h => h.trans (List.prefix_append _ _)

theorem impure_iff {cfg : Raw} (hpl : PlainApis cfg) {idx : List IdxPkg} {e : Entry}
    (h : Describes cfg idx e) : e.impure = true ↔ ImpureMacro cfg idx e.name := by
  unfold Entry.impure ImpureMacro
  simp only [Bool.and_eq_true, List.any_eq_true, Bool.not_eq_true', startsWith_iff,
    ← Bool.not_eq_true, endsWith_iff, h _]
  constructor
  · rintro ⟨⟨t, ⟨k, hk⟩, ht⟩, ⟨t', ⟨k', hk'⟩, ht'⟩⟩
    constructor
    · rcases hk with ⟨hg, rfl⟩ | ⟨hg, rfl⟩
      · rw [(plain_text hpl hg).1] at ht
        subst ht
        exact Or.inl hg
      · rw [prefix_build, (plain_text hpl hg).1] at ht
        subst ht
        exact Or.inr hg
    · rcases hk' with ⟨hg, rfl⟩ | ⟨hg, rfl⟩
      · refine ⟨k', ?_, hg⟩
        rintro rfl
        exact ht'.1 ((plain_text hpl hg).1.mpr rfl)
      · exact absurd (List.suffix_append _ _) ht'.2
  · rintro ⟨hp, k, hne, hg⟩
    refine ⟨?_, k.text, ⟨k, Or.inl ⟨hg, rfl⟩⟩, ?_, (plain_text hpl hg).2⟩
    · rcases hp with hp | hp
      · exact ⟨_, ⟨_, Or.inl ⟨hp, rfl⟩⟩, (plain_text hpl hp).1.mpr rfl⟩
      · exact ⟨_, ⟨_, Or.inr ⟨hp, rfl⟩⟩, prefix_build.mpr ((plain_text hpl hp).1.mpr rfl)⟩
    · rw [(plain_text hpl hg).1]; exact hne

theorem nothing_iff {cfg : Raw} {idx : List IdxPkg} {e : Entry} (h : Describes cfg idx e) :
    e.permissions.isEmpty = true ↔ NothingSpecial cfg idx e.name := by
  rw [List.isEmpty_iff, List.eq_nil_iff_forall_not_mem]
  unfold NothingSpecial
  constructor
  · intro hn k
    constructor
    · intro hg; exact hn _ ((h _).mpr ⟨k, Or.inl ⟨hg, rfl⟩⟩)
    · intro hg; exact hn _ ((h _).mpr ⟨k, Or.inr ⟨hg, rfl⟩⟩)
  · intro hn t ht
    obtain ⟨k, ⟨hg, _⟩ | ⟨hg, _⟩⟩ := (h t).mp ht
    · exact (hn k).1 hg
    · exact (hn k).2 hg

open Classical in
/-- The full English claim about the counts: a package is counted as having no special permissions
exactly if nothing is granted to it at any scope, and as an impure proc macro if it is one. -/
def C49_Claim : Prop :=
  ∀ (cfg : Raw) (_ : cfg.packages.keys.Nodup) (idx : List IdxPkg) (ids : List PkgId)
    (_ : ∀ id ∈ ids, Indexed idx id.name),
    counts (summarize (withInheritance cfg idx) ids) =
      ⟨ids.length,
        (ids.filter (fun id => decide (∀ s k, ¬ Granted cfg idx id.name s k))).length,
        (ids.filter (fun id => decide (ImpureMacro cfg idx id.name))).length⟩

open Classical in
/-- **C49, the counts, partial.** The counts are the numbers of packages; of packages of which neither
the code nor the build script is granted anything special; and, if no API has a name beginning with
`proc_macro` or ending in `[build]`, of proc macros that are granted something else. Missing:
permissions of tests are not looked at (`C49_tests_ignored`), and APIs with such names are mistaken
(`C49_api_name`). -/
theorem C49_counts_partial (cfg : Raw) (hn : cfg.packages.keys.Nodup) (idx : List IdxPkg)
    (ids : List PkgId) (hids : ∀ id ∈ ids, Indexed idx id.name) :
    (counts (summarize (withInheritance cfg idx) ids)).packages = ids.length ∧
    (counts (summarize (withInheritance cfg idx) ids)).noSpecial =
      (ids.filter (fun id => decide (NothingSpecial cfg idx id.name))).length ∧
    (PlainApis cfg → (counts (summarize (withInheritance cfg idx) ids)).impure =
      (ids.filter (fun id => decide (ImpureMacro cfg idx id.name))).length) := by
  have hp := summarize_perm (withInheritance cfg idx) ids
  refine ⟨?_, ?_, fun hpl => ?_⟩
  · simp only [counts]
    rw [hp.length_eq, List.length_map]
  · simp only [counts]
    rw [(hp.filter _).length_eq, List.filter_map, List.length_map]
    congr 1
    refine List.filter_congr (fun id hid => ?_)
    have := nothing_iff (entryFor_describes hn (hids id hid))
    simp only [Function.comp]
    rw [Bool.eq_iff_iff, this, decide_eq_true_eq]
    rfl
  · simp only [counts]
    rw [(hp.filter _).length_eq, List.filter_map, List.length_map]
    congr 1
    refine List.filter_congr (fun id hid => ?_)
    have := impure_iff hpl (entryFor_describes hn (hids id hid))
    simp only [Function.comp]
    rw [Bool.eq_iff_iff, this, decide_eq_true_eq]
    rfl

/-- A package may be a proc macro and use `fs`; its build script may use `net`; another package has
nothing. -/
def exCfg : Raw :=
  { packages := [(str! "m", .mk { allowProcMacro := true, allowApis := [str! "fs"] }
      (some (.leaf { allowApis := [str! "net"] })) none none)] }

def exIdx : List IdxPkg := [⟨str! "m", true, false⟩, ⟨str! "b", false, false⟩]

def exIds : List PkgId := [⟨str! "m", str! "1.0.0", true⟩, ⟨str! "b", str! "1.0.0", true⟩]

example : summarize (withInheritance exCfg exIdx) exIds =
    [⟨str! "b", []⟩, ⟨str! "m", [str! "proc_macro", str! "fs", str! "proc_macro[build]",
      str! "fs[build]", str! "net[build]"]⟩] := by decide +kernel

example : counts (summarize (withInheritance exCfg exIdx) exIds) = ⟨2, 1, 1⟩ := by decide +kernel

theorem exIds_indexed : ∀ id ∈ exIds, Indexed exIdx id.name := by
  intro id h
  simp only [exIds, List.mem_cons, List.not_mem_nil, or_false] at h
  rcases h with rfl | rfl
  · exact ⟨_, List.mem_cons_self, rfl⟩
  · exact ⟨_, List.mem_cons_of_mem _ (List.mem_singleton.mpr rfl), rfl⟩

example := C49_lists exCfg (by decide) exIdx exIds exIds_indexed

example := C49_counts_partial exCfg (by decide) exIdx exIds exIds_indexed

/-- **C49, the full claim fails.** A package whose tests are granted an API is counted as having no
special permissions. -/
theorem C49_tests_ignored : ¬ C49_Claim := by
  intro h
  have := h { packages := [(str! "a", .mk {} none (some (.leaf { allowApis := [str! "fs"] })) none)] }
    (by decide) [⟨str! "a", false, true⟩] [⟨str! "a", str! "1.0.0", true⟩] (by
      intro id hid
      simp only [List.mem_singleton] at hid
      subst hid
      exact ⟨_, List.mem_singleton.mpr rfl, rfl⟩)
  have hc : counts (summarize (withInheritance
      { packages := [(str! "a", .mk {} none (some (.leaf { allowApis := [str! "fs"] })) none)] }
      [⟨str! "a", false, true⟩]) [⟨str! "a", str! "1.0.0", true⟩]) = ⟨1, 1, 0⟩ := by decide +kernel
  rw [hc] at this
  simp only [Counts.mk.injEq] at this
  obtain ⟨_, h1, _⟩ := this
  have hg : Granted { packages := [(str! "a", .mk {} none (some (.leaf { allowApis := [str! "fs"] })) none)] }
      [⟨str! "a", false, true⟩] (str! "a") .test (.api (str! "fs")) :=
    ⟨Or.inl rfl, .test, by simp [chain], { allowApis := [str! "fs"] }, rfl, List.mem_singleton.mpr rfl⟩
  rw [List.filter_cons_of_neg] at h1
  · exact absurd h1 (by simp)
  · simp only [decide_eq_true_eq]
    exact fun hh => hh _ _ hg

/-- **C49, APIs named after `proc_macro`.** A package that may not be a proc macro is counted as a proc
macro with other permissions if it may use an API whose name begins with `proc_macro`. -/
theorem C49_api_name : ∃ (cfg : Raw) (idx : List IdxPkg) (ids : List PkgId),
    cfg.packages.keys.Nodup ∧ (∀ id ∈ ids, Indexed idx id.name) ∧
    (∀ id ∈ ids, ¬ ImpureMacro cfg idx id.name) ∧
    (counts (summarize (withInheritance cfg idx) ids)).impure = 1 := by
  refine ⟨{ packages := [(str! "a", .leaf { allowApis := [str! "fs", str! "proc_macro_server"] })] },
    [⟨str! "a", false, false⟩], [⟨str! "a", str! "1.0.0", true⟩], by decide, ?_, ?_, by decide +kernel⟩
  · intro id hid
    simp only [List.mem_singleton] at hid
    subst hid
    exact ⟨_, List.mem_singleton.mpr rfl, rfl⟩
  · intro id hid
    simp only [List.mem_singleton] at hid
    subst hid
    rintro ⟨hp, _⟩
    have key : ∀ s' p, listed { packages := [(str! "a",
        .leaf { allowApis := [str! "fs", str! "proc_macro_server"] })] } (str! "a") s' = some p →
        p.allowProcMacro = false := by
      intro s' p h
      cases s' <;> simp [listed, AMap.get?, PkgCfg.leaf, PkgCfg.perms, PkgCfg.build, PkgCfg.test,
        PkgCfg.from_] at h
      subst h
      rfl
    rcases hp with ⟨_, s', _, p, hl, hx⟩ | ⟨_, s', _, p, hl, hx⟩
    · have := key s' p hl
      rw [Lists, this] at hx
      exact absurd hx (by simp)
    · have := key s' p hl
      rw [Lists, this] at hx
      exact absurd hx (by simp)

/-! ## C81 -/

/-- The kinds of summary, in the order of printing. -/
inductive Kind where
  | byPackage | byPermission | impure | counts
deriving DecidableEq

def kinds : List Kind := [.byPackage, .byPermission, .impure, .counts]

/-- The flag for a kind. -/
def Options.flag (o : Options) : Kind → Bool
  | .byPackage => o.byPackage
  | .byPermission => o.byPermission
  | .impure => o.impureProcMacros
  | .counts => o.counts

/-- A kind is asked for by its flag, by `--full`, or by asking for nothing in particular. -/
def Asked (o : Options) (k : Kind) : Prop :=
  o.flag k = true ∨ o.full = true ∨ ∀ k', o.flag k' = false

instance (o : Options) : Decidable (∀ k', o.flag k' = false) :=
  decidable_of_iff (∀ k' ∈ kinds, o.flag k' = false)
    ⟨fun h k => h k (by cases k <;> simp [kinds]), fun h k _ => h k⟩

instance (o : Options) (k : Kind) : Decidable (Asked o k) := by
  unfold Asked; infer_instance

/-- Headings are printed if wanted, and whenever there is more than one kind. -/
def Headed (o : Options) : Prop :=
  o.printHeaders = true ∨ (kinds.filter (fun k => decide (Asked o k))).length > 1

instance (o : Options) : Decidable (Headed o) := by unfold Headed; infer_instance

/-- The heading of a kind. -/
def heading : Kind → Str
  | .byPackage => str! "=== Permissions by package ==="
  | .byPermission => str! "=== Packages by permission ==="
  | .impure => str! "=== Proc macros with other permissions ==="
  | .counts => str! "=== Permission counts ==="

/-- The lines of a kind; what `byPermissionLines` holds is said by `C49_by_permission`. -/
def body (s : List Entry) : Kind → List Str
  | .byPackage => s.map (fun e => e.name ++ ':' :: ' ' :: joinWith (str! ", ") e.permissions)
  | .byPermission => byPermissionLines s
  | .impure => (s.filter Entry.impure).map (fun e => e.name ++ ':' :: ' ' :: joinWith (str! ", ") e.permissions)
  | .counts => [str! "num_packages: " ++ Nat.toDigits 10 s.length,
      str! "no_special_permissions: " ++ Nat.toDigits 10 (s.filter (fun e => e.permissions.isEmpty)).length,
      str! "proc_macros_with_other_permissions: " ++ Nat.toDigits 10 (s.filter Entry.impure).length, []]

theorem line_eq (name : Str) (items : List Str) : line name items = name ++ ':' :: ' ' :: joinWith (str! ", ") items := by
  simp [line]

theorem body_eq (s : List Entry) : body s .byPackage = byPackageLines s ∧ body s .byPermission = byPermissionLines s ∧
    body s .impure = impureLines s ∧ body s .counts = countLines s := by
  refine ⟨?_, rfl, ?_, rfl⟩
  · simp only [body, byPackageLines, line_eq]
  · simp only [body, impureLines, line_eq]

theorem withDefaults_flag (o : Options) (k : Kind) : o.withDefaults.flag k = decide (Asked o k) := by
  obtain ⟨a, b, c, d, e, f, g⟩ := o
  cases g <;> cases a <;> cases b <;> cases c <;> cases d <;> cases e <;> cases f <;> cases k <;> decide

theorem withDefaults_headers (o : Options) : o.withDefaults.printHeaders = decide (Headed o) := by
  obtain ⟨a, b, c, d, e, f, g⟩ := o
  cases g <;> cases a <;> cases b <;> cases c <;> cases d <;> cases e <;> cases f <;> decide

/-- **C81, for people.** The output consists of the kinds of summary asked for, each once, in a fixed
order, with headings if wanted or if there is more than one. -/
theorem C81_human (s : List Entry) (o : Options) :
    printHuman s o = (kinds.filter (fun k => decide (Asked o k))).flatMap
      (fun k => (if Headed o then [heading k] else []) ++ body s k) := by
  have h1 := withDefaults_flag o
  have h2 := withDefaults_headers o
  have e1 := h1 .byPackage
  have e2 := h1 .byPermission
  have e3 := h1 .impure
  have e4 := h1 .counts
  simp only [Options.flag] at e1 e2 e3 e4
  unfold printHuman
  simp only [e1, e2, e3, e4, h2, humanSection, decide_eq_true_eq, kinds]
  obtain ⟨b1, b2, b3, b4⟩ := body_eq s
  by_cases a1 : Asked o .byPackage <;> by_cases a2 : Asked o .byPermission <;>
    by_cases a3 : Asked o .impure <;> by_cases a4 : Asked o .counts <;>
    simp only [a1, a2, a3, a4, if_true, if_false, decide_true, decide_false, List.filter,
      List.flatMap_cons, List.flatMap_nil, List.append_nil, List.nil_append, heading, b1, b2, b3, b4]

example : printHuman [⟨str! "a", [str! "fs"]⟩, ⟨str! "b", []⟩] { counts := true, byPermission := true } =
    [str! "=== Packages by permission ===", str! "fs: a", str! "=== Permission counts ===",
      str! "num_packages: 2", str! "no_special_permissions: 1",
      str! "proc_macros_with_other_permissions: 0", []] := by decide +kernel

/-! ### What the maps hold -/

theorem push_get (m : AMap Str (List Str)) (p n q : Str) :
    (push m p n).get? q = if p = q then some ((m.get? p).getD [] ++ [n]) else m.get? q := by
  unfold push
  rw [AMap.get?_insert]

theorem pushes_get (ps : List Str) (n : Str) (m : AMap Str (List Str)) (q : Str) :
    (ps.foldl (fun m p => push m p n) m).get? q =
      if q ∈ ps then some ((m.get? q).getD [] ++ List.replicate (ps.count q) n) else m.get? q := by
  induction ps generalizing m with
  | nil => simp
  | cons p ps ih =>
    rw [List.foldl_cons, ih, push_get]
    by_cases hp : p = q
    · subst hp
      by_cases hq : p ∈ ps
      · simp [hq, List.replicate_succ]
      · simp [hq, List.count_eq_zero_of_not_mem hq]
    · have hp' : ¬ q = p := fun h => hp h.symm
      by_cases hq : q ∈ ps
      · simp [hq, hp, List.count_cons_of_ne hp]
      · simp [hq, hp, hp']

theorem byPermission_get (s : List Entry) (q : Str) :
    (byPermission s).get? q = if (∃ e ∈ s, q ∈ e.permissions) then
      some (s.flatMap (fun e => List.replicate (e.permissions.count q) e.name)) else none := by
  have key : ∀ (s : List Entry) (m : AMap Str (List Str)),
      (s.foldl (fun m e => e.permissions.foldl (fun m p => push m p e.name) m) m).get? q =
        if (∃ e ∈ s, q ∈ e.permissions) then
          some ((m.get? q).getD [] ++ s.flatMap (fun e => List.replicate (e.permissions.count q) e.name))
        else m.get? q := by
    intro s
    induction s with
    | nil => intro m; simp
    | cons e s ih =>
      intro m
      rw [List.foldl_cons, ih, pushes_get]
      by_cases h1 : q ∈ e.permissions
      · by_cases h2 : ∃ e ∈ s, q ∈ e.permissions
        · rw [if_pos h1, if_pos h2, if_pos ⟨e, by simp, h1⟩]
          simp
        · have h3 : s.flatMap (fun e => List.replicate (e.permissions.count q) e.name) = [] := by
            rw [List.flatMap_eq_nil_iff]
            intro f hf
            rw [List.count_eq_zero_of_not_mem (fun h => h2 ⟨f, hf, h⟩)]
            rfl
          rw [if_pos h1, if_neg h2, if_pos ⟨e, by simp, h1⟩]
          simp [h3]
      · have h0 : List.replicate (e.permissions.count q) e.name = [] := by
          rw [List.count_eq_zero_of_not_mem h1]; rfl
        have h4 : (∃ f ∈ e :: s, q ∈ f.permissions) ↔ ∃ f ∈ s, q ∈ f.permissions := by
          constructor
          · rintro ⟨f, hf, h⟩
            rcases List.mem_cons.mp hf with rfl | hf
            · exact absurd h h1
            · exact ⟨f, hf, h⟩
          · rintro ⟨f, hf, h⟩; exact ⟨f, by simp [hf], h⟩
        simp only [if_neg h1, h4, List.flatMap_cons, h0, List.nil_append]
  have := key s []
  simpa [byPermission] using this

theorem permissionMap_get (s : List Entry) (n : Str) :
    (permissionMap s).get? n = (s.reverse.find? (fun e => e.name = n)).map Entry.permissions := by
  have key : ∀ (s : List Entry) (m : Json),
      (s.foldl (fun m e => AMap.insert m e.name e.permissions) m).get? n =
        ((s.reverse.find? (fun e => e.name = n)).map Entry.permissions).or (m.get? n) := by
    intro s
    induction s with
    | nil => intro m; rfl
    | cons e s ih =>
      intro m
      rw [List.foldl_cons, ih, AMap.get?_insert, List.reverse_cons, List.find?_append]
      cases hf : s.reverse.find? (fun e => e.name = n) with
      | some v => simp
      | none => by_cases he : e.name = n <;> simp [he]
  have := key s []
  simpa [permissionMap] using this

/-- Entries of the same name show the same permissions (there is one for each version). -/
def Agreeing (s : List Entry) : Prop :=
  ∀ e ∈ s, ∀ f ∈ s, e.name = f.name → e.permissions = f.permissions

theorem summarize_agreeing (m : PermMap) (ids : List PkgId) : Agreeing (summarize m ids) := by
  intro e he f hf h
  rw [(summarize_perm _ _).mem_iff, List.mem_map] at he hf
  obtain ⟨i, _, rfl⟩ := he
  obtain ⟨j, _, rfl⟩ := hf
  simp only [entryFor] at h ⊢
  rw [h]

/-- A JSON object holds the permissions of the given packages. -/
def HoldsPackages (s : List Entry) (P : Entry → Prop) (j : Json) : Prop :=
  ∀ n ps, j.get? n = some ps ↔ ∃ e ∈ s, P e ∧ e.name = n ∧ e.permissions = ps

/-- A JSON object holds, for each permission, the packages that have it. -/
def HoldsPermissions (s : List Entry) (j : Json) : Prop :=
  ∀ p, (∀ ns, j.get? p = some ns → ∀ n, n ∈ ns ↔ ∃ e ∈ s, e.name = n ∧ p ∈ e.permissions) ∧
    ((j.get? p).isSome = true ↔ ∃ e ∈ s, p ∈ e.permissions)

theorem permissionMap_holds (s : List Entry) (h : Agreeing s) :
    HoldsPackages s (fun _ => True) (permissionMap s) := by
  intro n ps
  rw [permissionMap_get]
  constructor
  · intro hx
    simp only [Option.map_eq_some_iff] at hx
    obtain ⟨e, he, rfl⟩ := hx
    have hm := List.mem_of_find?_eq_some he
    have hn := List.find?_some he
    simp only [List.mem_reverse, decide_eq_true_eq] at hm hn
    exact ⟨e, hm, trivial, hn, rfl⟩
  · rintro ⟨e, he, -, rfl, rfl⟩
    cases hf : s.reverse.find? (fun f => f.name = e.name) with
    | none =>
      rw [List.find?_eq_none] at hf
      exact absurd (hf e (by simpa using he)) (by simp)
    | some f =>
      have hm := List.mem_of_find?_eq_some hf
      have hn := List.find?_some hf
      simp only [List.mem_reverse, decide_eq_true_eq] at hm hn
      rw [Option.map_some, h f hm e he hn]

theorem impureMap_holds (s : List Entry) (h : Agreeing s) :
    HoldsPackages s (fun e => e.impure = true) (impureMap s) := by
  intro n ps
  have := permissionMap_holds (s.filter Entry.impure) (fun e he f hf =>
    h e (List.mem_filter.mp he).1 f (List.mem_filter.mp hf).1) n ps
  unfold impureMap
  rw [this]
  constructor
  · rintro ⟨e, he, -, h⟩
    exact ⟨e, (List.mem_filter.mp he).1, (List.mem_filter.mp he).2, h⟩
  · rintro ⟨e, he, hi, h⟩
    exact ⟨e, List.mem_filter.mpr ⟨he, hi⟩, trivial, h⟩

theorem byPermission_holds (s : List Entry) : HoldsPermissions s (byPermission s) := by
  intro p
  rw [byPermission_get]
  by_cases h : ∃ e ∈ s, p ∈ e.permissions
  · rw [if_pos h]
    refine ⟨?_, by simp [h]⟩
    intro ns hns n
    simp only [Option.some.injEq] at hns
    subst hns
    rw [List.mem_flatMap]
    constructor
    · rintro ⟨e, he, hn⟩
      rw [List.mem_replicate] at hn
      exact ⟨e, he, hn.2.symm, List.count_pos_iff.mp (Nat.pos_of_ne_zero hn.1)⟩
    · rintro ⟨e, he, rfl, hp⟩
      exact ⟨e, he, List.mem_replicate.mpr ⟨Nat.pos_iff_ne_zero.mp (List.count_pos_iff.mpr hp), rfl⟩⟩
  · rw [if_neg h]
    simp [h]

/-- **C49, by permission.** There is a line for each permission that some package is shown with, naming
exactly the packages that are shown with it, in order. -/
theorem C49_by_permission (s : List Entry) (l : Str) :
    l ∈ byPermissionLines s ↔ ∃ p names, (∃ e ∈ s, p ∈ e.permissions) ∧
      l = p ++ str! ": " ++ joinWith (str! ", ") names ∧
      names = s.flatMap (fun e => List.replicate (e.permissions.count p) e.name) := by
  unfold byPermissionLines
  simp only [List.mem_map, mem_sortStr]
  constructor
  · rintro ⟨p, hp, rfl⟩
    rw [← AMap.get?_isSome_iff, ((byPermission_holds s) p).2] at hp
    refine ⟨p, _, hp, ?_, rfl⟩
    rw [byPermission_get, if_pos hp]
    rfl
  · rintro ⟨p, names, hp, rfl, rfl⟩
    refine ⟨p, ?_, ?_⟩
    · rw [← AMap.get?_isSome_iff, ((byPermission_holds s) p).2]
      exact hp
    · rw [byPermission_get, if_pos hp]
      rfl

example : byPermissionLines [⟨str! "a", [str! "net", str! "fs"]⟩, ⟨str! "b", [str! "fs"]⟩] =
    [str! "fs: a, b", str! "net: a"] := by decide +kernel

/-- What a part of the JSON output must hold. -/
def Holds (s : List Entry) : Kind → Json → Prop
  | .byPackage, j => HoldsPackages s (fun _ => True) j
  | .byPermission, j => HoldsPermissions s j
  | .impure, j => HoldsPackages s (fun e => e.impure = true) j
  | .counts, _ => True

/-- The full claim about JSON: whatever is asked for is in the output, each kind under a name of its
own. -/
def C81_Claim : Prop :=
  ∃ key : Kind → Str, (∀ k k', key k = key k' → k = k') ∧
    ∀ (m : PermMap) (ids : List PkgId) (o : Options) (k : Kind), Asked o k →
      ∃ j, (printJson (summarize m ids) o).get? (key k) = some j ∧ Holds (summarize m ids) k j

/-- **C81, JSON, partial.** If `--by-permission` and `--impure-proc-macros` are not both in effect, each
kind of summary asked for is in the JSON output. Missing: the two share a name, and the second replaces
the first, so that the default output has no permissions with their packages (`C81_json_lost`). -/
theorem C81_json_partial (m : PermMap) (ids : List PkgId) (o : Options)
    (hno : ¬ (Asked o .byPermission ∧ Asked o .impure)) (k : Kind) (hk : Asked o k) :
    ∃ key j, (printJson (summarize m ids) o).get? key = some j ∧ Holds (summarize m ids) k j := by
  have h1 := withDefaults_flag o
  have e1 := h1 .byPackage
  have e2 := h1 .byPermission
  have e3 := h1 .impure
  have e4 := h1 .counts
  simp only [Options.flag] at e1 e2 e3 e4
  have hag := summarize_agreeing m ids
  generalize summarize m ids = s at hag
  have n1 : keyImpure ≠ keyByPackage := by decide
  have n2 : keyCount ≠ keyByPackage := by decide
  have n3 : keyCount ≠ keyImpure := by decide
  unfold printJson
  simp only [e1, e2, e3, e4, decide_eq_true_eq]
  cases k with
  | byPackage =>
    refine ⟨keyByPackage, permissionMap s, ?_, permissionMap_holds s hag⟩
    rw [if_pos hk]
    by_cases a2 : Asked o .byPermission <;> by_cases a3 : Asked o .impure <;>
      by_cases a4 : Asked o .counts <;>
      simp [a2, a3, a4, jsonByPackage, jsonByPermission, jsonImpure, jsonCount, AMap.get?_insert, n1, n2]
  | byPermission =>
    refine ⟨keyImpure, byPermission s, ?_, byPermission_holds s⟩
    have a3 : ¬ Asked o .impure := fun h => hno ⟨hk, h⟩
    rw [if_pos hk, if_neg a3]
    by_cases a1 : Asked o .byPackage <;> by_cases a4 : Asked o .counts <;>
      simp [a1, a4, jsonByPackage, jsonByPermission, jsonImpure, jsonCount, AMap.get?_insert, n3]
  | impure =>
    refine ⟨keyImpure, impureMap s, ?_, impureMap_holds s hag⟩
    have a2 : ¬ Asked o .byPermission := fun h => hno ⟨h, hk⟩
    rw [if_pos hk, if_neg a2]
    by_cases a1 : Asked o .byPackage <;> by_cases a4 : Asked o .counts <;>
      simp [a1, a4, jsonByPackage, jsonByPermission, jsonImpure, jsonCount, AMap.get?_insert, n3]
  | counts =>
    refine ⟨keyCount, permissionMap s, ?_, trivial⟩
    rw [if_pos hk]
    simp [jsonCount, AMap.get?_insert]

example : ¬ (Asked { byPackage := true, byPermission := true, format := .json } .byPermission ∧
    Asked { byPackage := true, byPermission := true, format := .json } .impure) ∧
    Asked { byPackage := true, byPermission := true, format := .json } .byPermission := by decide

/-- **C81, the full claim fails.** With the default options the JSON output does not have, under any
name, the permissions with the packages that have them. -/
theorem C81_json_lost : ¬ C81_Claim := by
  rintro ⟨key, -, h⟩
  obtain ⟨j, hj, hh⟩ := h [(⟨str! "a", .all⟩, .leaf { allowApis := [str! "fs"] })]
    [⟨str! "a", str! "1.0.0", true⟩] {} .byPermission (by decide)
  have hs : summarize [(⟨str! "a", .all⟩, .leaf { allowApis := [str! "fs"] })]
      [⟨str! "a", str! "1.0.0", true⟩] = [⟨str! "a", [str! "fs"]⟩] := by decide +kernel
  rw [hs] at hj hh
  have hf := (hh (str! "fs")).2.mpr ⟨_, List.mem_singleton.mpr rfl, List.mem_singleton.mpr rfl⟩
  have hp : printJson [⟨str! "a", [str! "fs"]⟩] {} =
      [(keyByPackage, [(str! "a", [str! "fs"])]), (keyImpure, []), (keyCount, [(str! "a", [str! "fs"])])] := by
    decide +kernel
  rw [hp] at hj
  have hm := AMap.mem_of_get? hj
  simp only [List.mem_cons, Prod.mk.injEq, List.not_mem_nil, or_false] at hm
  rcases hm with ⟨_, rfl⟩ | ⟨_, rfl⟩ | ⟨_, rfl⟩ <;> revert hf <;> decide

/-- **C81, the counts in JSON.** What stands under `permission_count` is not the counts but, again, the
permissions of each package. -/
theorem C81_json_counts (m : PermMap) (ids : List PkgId) (o : Options) (hk : Asked o .counts) :
    (printJson (summarize m ids) o).get? (str! "permission_count") =
      some (permissionMap (summarize m ids)) := by
  have h4 := withDefaults_flag o .counts
  simp only [Options.flag] at h4
  unfold printJson
  simp only [h4, decide_eq_true_eq]
  rw [if_pos hk]
  simp [jsonCount, AMap.get?_insert, keyCount]

end Cackle.Summary
