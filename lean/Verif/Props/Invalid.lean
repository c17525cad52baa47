import Verif.Model.Invalid
import Verif.Props.Config

/-!
# C181: what is said about an invalid configuration

`validate` goes through the packages in the order of a hash map, so the problems are in the message in any order.
-/

namespace Cackle.Invalid
open Cackle Config Perm
open Cackle.ApiMap (Api)

/-! ## Specification -/

/-- The header of a section of a package, without `pkg.`. -/
def header (pkg : Str) : Scope → Str
  | .all => pkg
  | .build => pkg ++ str! ".build"
  | .test => pkg ++ str! ".test"
  | .fromBuild => pkg ++ str! ".from.build"
  | .fromTest => pkg ++ str! ".from.test"

/-- What is wrong with a configuration, in words. `w` is what a section `from` inside of another section is
called. -/
inductive Wrong (w : Str) (cfg : Raw) : Str → Prop where
  | version : ¬ (1 ≤ cfg.common.version ∧ cfg.common.version ≤ 3) →
      Wrong w cfg (str! "  Unsupported version '" ++ Json.showInt cfg.common.version ++ str! "'")
  | unknown (pkg : Str) (s : Scope) (c : PkgCfg) (a : Api) : sectionCfg cfg pkg s = some c → a ∈ c.perms.allowApis →
      cfg.apis.get? a = none → Wrong w cfg (str! "  Unknown permission '" ++ a ++ str! "'")
  | twice (pkg : Str) (s : Scope) (c : PkgCfg) (a : Api) : sectionCfg cfg pkg s = some c →
      2 ≤ c.perms.allowApis.count a → Wrong w cfg (str! "  API allowed more than once '" ++ a ++ str! "'")
  | build (pkg : Str) (s : Scope) (c c' : PkgCfg) : s ≠ .all → sectionCfg cfg pkg s = some c → c.build = some c' →
      Wrong w cfg (str! "  Unsupported package selector `pkg." ++ (header pkg s ++ str! ".build") ++ str! "`")
  | test (pkg : Str) (s : Scope) (c c' : PkgCfg) : s ≠ .all → sectionCfg cfg pkg s = some c → c.test = some c' →
      Wrong w cfg (str! "  Unsupported package selector `pkg." ++ (header pkg s ++ str! ".test") ++ str! "`")
  | from_ (pkg : Str) (s : Scope) (c : PkgCfg) (f : Option PkgCfg × Option PkgCfg) : s ≠ .all →
      sectionCfg cfg pkg s = some c → c.from_ = some f →
      Wrong w cfg (str! "  Unsupported package selector `pkg." ++ (header pkg s ++ '.' :: w) ++ str! "`")

/-- A first line with the path, and a line for each thing that is wrong. -/
def OneLineEach (w : Str) (cfg : Raw) (path msg : Str) : Prop :=
  ∃ ts : List Str, (∀ t, t ∈ ts ↔ Wrong w cfg t) ∧ msg = str! "Invalid config " ++ path ++ ts.flatMap (fun t => '\n' :: t)

/-- The English claim C181. -/
def C181_Claim : Prop :=
  ∀ (cfg : Raw) (path : Str) (ps : List ConfigProblem), cfg.packages.keys.Nodup → ps.Perm (validate cfg) → ps ≠ [] →
    OneLineEach (str! "from") cfg path (message path ps)

/-! ## Lemmas -/

theorem mem_checkApis (known l used : List Api) (p : ConfigProblem) : p ∈ checkApis known l used ↔
    (∃ a ∈ l, a ∉ known ∧ p = .unknownPermission a) ∨
    ∃ a, (a ∈ used ∧ a ∈ l ∨ 2 ≤ l.count a) ∧ p = .duplicateAllowedApi a := by
  induction l generalizing used with
  | nil => simp [checkApis]
  | cons b l ih =>
    simp only [checkApis, List.mem_append, ih, mem_setInsert]
    constructor
    · rintro ((h | h) | ⟨a, h1, h2, h3⟩ | ⟨a, h1, h2⟩)
      · split at h
        · simp at h
        · rename_i hb
          exact Or.inl ⟨b, by simp, hb, by simpa using h⟩
      · split at h
        · rename_i hb
          exact Or.inr ⟨b, Or.inl ⟨hb, by simp⟩, by simpa using h⟩
        · simp at h
      · exact Or.inl ⟨a, List.mem_cons_of_mem _ h1, h2, h3⟩
      · refine Or.inr ⟨a, ?_, h2⟩
        rcases h1 with ⟨rfl | h1, h3⟩ | h1
        · right
          have := List.count_pos_iff.mpr h3
          rw [List.count_cons_self]
          omega
        · exact Or.inl ⟨h1, List.mem_cons_of_mem _ h3⟩
        · right
          rw [List.count_cons]
          omega
    · rintro (⟨a, h1, h2, h3⟩ | ⟨a, h1, h2⟩)
      · rcases List.mem_cons.mp h1 with rfl | h1
        · exact Or.inl (Or.inl (by simp [h2, h3]))
        · exact Or.inr (Or.inl ⟨a, h1, h2, h3⟩)
      · rcases h1 with ⟨h1, h3⟩ | h1
        · rcases List.mem_cons.mp h3 with rfl | h3
          · exact Or.inl (Or.inr (by simp [h1, h2]))
          · exact Or.inr (Or.inr ⟨a, Or.inl ⟨Or.inr h1, h3⟩, h2⟩)
        · by_cases hb : b = a
          · subst hb
            rw [List.count_cons_self] at h1
            exact Or.inr (Or.inr ⟨b, Or.inl ⟨Or.inl rfl, List.count_pos_iff.mp (by omega)⟩, h2⟩)
          · rw [List.count_cons_of_ne hb] at h1
            exact Or.inr (Or.inr ⟨a, Or.inr h1, h2⟩)

theorem selText_header (pkg : Str) (s : Scope) : Report.selText ⟨pkg, s⟩ = header pkg s := by
  cases s <;> rfl

/-- The sections as they are examined: the main one without what is nested in it. -/
theorem mem_fromConfig (cfg : Raw) (hn : cfg.packages.keys.Nodup) (e : PermSel × PkgCfg) : e ∈ fromConfig cfg ↔
    ∃ c, sectionCfg cfg e.1.pkg e.1.scope = some c ∧
      e.2 = if e.1.scope = .all then .mk c.perms none none none else c := by
  obtain ⟨⟨pkg, s⟩, c⟩ := e
  have : (⟨pkg, s⟩, c) ∈ fromConfig cfg ↔ (fromConfig cfg).get? ⟨pkg, s⟩ = some c :=
    ⟨AMap.get?_of_mem (fromConfig_nodup cfg), AMap.mem_of_get?⟩
  rw [this, fromConfig_get cfg hn]
  cases s
  · cases hg : cfg.packages.get? pkg <;> simp [sectionCfg, sectionOf, hg, eq_comm]
  all_goals
    constructor
    · intro h
      exact ⟨c, h, by simp⟩
    · rintro ⟨c', h, h'⟩
      simp only [reduceCtorEq, if_false] at h'
      subst h'
      exact h

theorem mem_texts (cfg : Raw) (hn : cfg.packages.keys.Nodup) (t : Str) :
    t ∈ (validate cfg).map problemText ↔ Wrong (str! "dep") cfg t := by
  have hkey : ∀ a, a ∉ cfg.apis.keys ↔ cfg.apis.get? a = none := by
    intro a
    rw [← AMap.get?_isSome_iff]
    cases cfg.apis.get? a <;> simp
  constructor
  · intro h
    obtain ⟨p, hp, rfl⟩ := List.mem_map.mp h
    unfold validate at hp
    rcases List.mem_append.mp hp with hp | hp
    · split at hp
      · rename_i hv
        rw [List.mem_singleton] at hp
        subst hp
        refine .version ?_
        unfold maxVersion at hv
        omega
      · simp at hp
    · obtain ⟨⟨⟨pkg, s⟩, c⟩, he, hp⟩ := List.mem_flatMap.mp hp
      obtain ⟨c0, h0, h1⟩ := (mem_fromConfig cfg hn _).mp he
      simp only at h0 h1
      have hperms : c.perms = c0.perms := by rw [h1]; split <;> rfl
      have hns : c.build.isSome ∨ c.test.isSome ∨ c.from_.isSome → s ≠ .all ∧ c = c0 := by
        intro h
        split at h1
        · rw [h1] at h
          simp [PkgCfg.build, PkgCfg.test, PkgCfg.from_] at h
        · rename_i hs
          exact ⟨hs, h1⟩
      unfold checkEntry at hp
      simp only [List.mem_append, mem_checkApis] at hp
      rcases hp with (((⟨a, h2, h3, rfl⟩ | ⟨a, h2, rfl⟩) | hp) | hp) | hp
      · exact .unknown pkg s c0 a h0 (hperms ▸ h2) ((hkey a).mp h3)
      · refine .twice pkg s c0 a h0 (hperms ▸ ?_)
        simpa using h2
      · split at hp
        · rename_i hb
          rw [List.mem_singleton] at hp
          subst hp
          obtain ⟨c', hc'⟩ := Option.isSome_iff_exists.mp hb
          obtain ⟨hs, rfl⟩ := hns (Or.inl hb)
          have := Wrong.build (w := str! "dep") pkg s c c' hs h0 hc'
          simpa [problemText, selText_header] using this
        · simp at hp
      · split at hp
        · rename_i hb
          rw [List.mem_singleton] at hp
          subst hp
          obtain ⟨c', hc'⟩ := Option.isSome_iff_exists.mp hb
          obtain ⟨hs, rfl⟩ := hns (Or.inr (Or.inl hb))
          have := Wrong.test (w := str! "dep") pkg s c c' hs h0 hc'
          simpa [problemText, selText_header] using this
        · simp at hp
      · split at hp
        · rename_i hb
          rw [List.mem_singleton] at hp
          subst hp
          obtain ⟨c', hc'⟩ := Option.isSome_iff_exists.mp hb
          obtain ⟨hs, rfl⟩ := hns (Or.inr (Or.inr hb))
          have := Wrong.from_ (w := str! "dep") pkg s c c' hs h0 hc'
          simpa [problemText, selText_header] using this
        · simp at hp
  · intro h
    have entry : ∀ (pkg : Str) (s : Scope) (c c' : PkgCfg) (p : ConfigProblem), sectionCfg cfg pkg s = some c →
        (c' = if s = .all then .mk c.perms none none none else c) → p ∈ checkEntry cfg.apis.keys (⟨pkg, s⟩, c') →
        problemText p ∈ (validate cfg).map problemText := by
      intro pkg s c c' p h1 h2 h3
      refine List.mem_map.mpr ⟨p, ?_, rfl⟩
      unfold validate
      exact List.mem_append_right _ (List.mem_flatMap.mpr ⟨(⟨pkg, s⟩, c'), (mem_fromConfig cfg hn _).mpr ⟨c, h1, h2⟩, h3⟩)
    have hperms : ∀ (s : Scope) (c : PkgCfg), (if s = .all then PkgCfg.mk c.perms none none none else c).perms = c.perms := by
      intro s c
      split <;> rfl
    cases h with
    | version hv =>
      refine List.mem_map.mpr ⟨.unsupportedVersion cfg.common.version, ?_, rfl⟩
      unfold validate
      rw [if_pos (by unfold maxVersion; omega)]
      simp
    | unknown pkg s c a h1 h2 h3 =>
      refine entry pkg s c _ (.unknownPermission a) h1 rfl ?_
      simp only [checkEntry, List.mem_append, mem_checkApis, hperms]
      exact Or.inl (Or.inl (Or.inl (Or.inl ⟨a, h2, (hkey a).mpr h3, rfl⟩)))
    | twice pkg s c a h1 h2 =>
      refine entry pkg s c _ (.duplicateAllowedApi a) h1 rfl ?_
      simp only [checkEntry, List.mem_append, mem_checkApis, hperms]
      exact Or.inl (Or.inl (Or.inl (Or.inr ⟨a, Or.inr h2, rfl⟩)))
    | build pkg s c c' hs h1 h2 =>
      have := entry pkg s c c (.invalidPkgSelector ⟨pkg, s⟩ (str! "build")) h1 (by simp [hs]) (by simp [checkEntry, h2])
      simpa [problemText, selText_header] using this
    | test pkg s c c' hs h1 h2 =>
      have := entry pkg s c c (.invalidPkgSelector ⟨pkg, s⟩ (str! "test")) h1 (by simp [hs]) (by simp [checkEntry, h2])
      simpa [problemText, selText_header] using this
    | from_ pkg s c f hs h1 h2 =>
      have := entry pkg s c c (.invalidPkgSelector ⟨pkg, s⟩ (str! "dep")) h1 (by simp [hs]) (by simp [checkEntry, h2])
      simpa [problemText, selText_header] using this

/-! ## C181 -/

/-- **C181, what is said.** The message consists of a line with the path and the descriptions of everything that
is wrong, one directly after the other, and of nothing that is not wrong; a section `from` inside of another
section is called `dep`. -/
theorem C181_all (cfg : Raw) (path : Str) (ps : List ConfigProblem) (hn : cfg.packages.keys.Nodup)
    (hp : ps.Perm (validate cfg)) :
    ∃ ts : List Str, (∀ t, t ∈ ts ↔ Wrong (str! "dep") cfg t) ∧
      message path ps = str! "Invalid config " ++ path ++ str! "\n" ++ ts.flatten := by
  refine ⟨ps.map problemText, fun t => ?_, ?_⟩
  · rw [← mem_texts cfg hn]
    exact (hp.map problemText).mem_iff
  · unfold message
    rw [List.flatMap_def]

/-- No section for build scripts, tests or what they use contains a section `from`. -/
def NoInnerFrom (cfg : Raw) : Prop := ∀ pkg s c, s ≠ .all → sectionCfg cfg pkg s = some c → c.from_ = none

theorem wrong_word {cfg : Raw} (h : NoInnerFrom cfg) {w w' t : Str} (ht : Wrong w cfg t) : Wrong w' cfg t := by
  cases ht with
  | version hv => exact .version hv
  | unknown pkg s c a h1 h2 h3 => exact .unknown pkg s c a h1 h2 h3
  | twice pkg s c a h1 h2 => exact .twice pkg s c a h1 h2
  | build pkg s c c' hs h1 h2 => exact .build pkg s c c' hs h1 h2
  | test pkg s c c' hs h1 h2 => exact .test pkg s c c' hs h1 h2
  | from_ pkg s c f hs h1 h2 =>
    rw [h pkg s c hs h1] at h2
    cases h2

/-- **C181 (partial).** If there is a single problem, and no section `from` inside of another section, then the
message has a line with the path and a line that says what is wrong. Missing: see `C181_run_together` and
`C181_dep`. -/
theorem C181_partial (cfg : Raw) (path : Str) (ps : List ConfigProblem) (hn : cfg.packages.keys.Nodup)
    (hp : ps.Perm (validate cfg)) (h1 : ps.length = 1) (hf : NoInnerFrom cfg) :
    OneLineEach (str! "from") cfg path (message path ps) := by
  obtain ⟨p, rfl⟩ := List.length_eq_one_iff.mp h1
  refine ⟨[problemText p], fun t => ?_, by simp [message]⟩
  rw [show [problemText p] = [p].map problemText from rfl, (hp.map problemText).mem_iff, mem_texts cfg hn]
  exact ⟨wrong_word hf, wrong_word hf⟩

/-- **C181, disagreement.** What is wrong is written on one line if there are several things. -/
theorem C181_run_together : ∃ (cfg : Raw) (ps : List ConfigProblem), cfg.packages.keys.Nodup ∧ ps.Perm (validate cfg) ∧
    ps.length = 2 ∧ NoInnerFrom cfg ∧
    message (str! "cackle.toml") ps = str! "Invalid config cackle.toml\n  Unknown permission 'net'  API allowed more than once 'fs'" ∧
    ¬ OneLineEach (str! "from") cfg (str! "cackle.toml") (message (str! "cackle.toml") ps) := by
  have hm : message (str! "cackle.toml") (validate badCfg) =
      str! "Invalid config cackle.toml\n  Unknown permission 'net'  API allowed more than once 'fs'" := by decide +kernel
  have hs : sectionCfg badCfg (str! "p") .build = some (.leaf { allowApis := [str! "fs", str! "net", str! "fs"] }) := rfl
  refine ⟨badCfg, validate badCfg, by decide, List.Perm.refl _, by decide +kernel, ?_, hm, ?_⟩
  · intro pkg s c hs hc
    have hg : ∀ c, badCfg.packages.get? pkg = some c →
        c = .mk {} (some (.leaf { allowApis := [str! "fs", str! "net", str! "fs"] })) none none := by
      intro c hc
      have := AMap.mem_of_get? hc
      simp only [badCfg, List.mem_singleton, Prod.mk.injEq] at this
      exact this.2
    cases s with
    | all => exact absurd rfl hs
    | build =>
      obtain ⟨c0, h0, h1⟩ := Option.bind_eq_some_iff.mp hc
      rw [hg c0 h0] at h1
      cases h1
      rfl
    | test =>
      obtain ⟨c0, h0, h1⟩ := Option.bind_eq_some_iff.mp hc
      rw [hg c0 h0] at h1
      cases h1
    | fromBuild =>
      obtain ⟨c0, h0, h1⟩ := Option.bind_eq_some_iff.mp hc
      rw [hg c0 h0] at h1
      cases h1
    | fromTest =>
      obtain ⟨c0, h0, h1⟩ := Option.bind_eq_some_iff.mp hc
      rw [hg c0 h0] at h1
      cases h1
  · rintro ⟨ts, h1, h2⟩
    rw [hm] at h2
    have hw1 : str! "  Unknown permission 'net'" ∈ ts :=
      (h1 _).mpr (.unknown (str! "p") .build _ (str! "net") hs (by simp [PkgCfg.leaf, PkgCfg.perms]) (by decide +kernel))
    have hw2 : str! "  API allowed more than once 'fs'" ∈ ts :=
      (h1 _).mpr (.twice (str! "p") .build _ (str! "fs") hs (by decide +kernel))
    have hlen : ts.length ≤ (ts.flatMap (fun t => '\n' :: t)).count '\n' := by
      clear h1 h2 hw1 hw2
      induction ts with
      | nil => simp
      | cons a l ih =>
        rw [List.flatMap_cons, List.count_append, List.count_cons_self, List.length_cons]
        omega
    have hc := congrArg (List.count '\n') h2
    rw [List.count_append] at hc
    have e1 : List.count '\n' (str! "Invalid config cackle.toml\n  Unknown permission 'net'  API allowed more than once 'fs'") = 1 := by
      decide +kernel
    rw [e1] at hc
    match ts, hw1, hw2 with
    | [], h, _ => simp at h
    | [a], h, h' =>
      rw [List.mem_singleton] at h h'
      rw [← h] at h'
      exact absurd h' (by decide +kernel)
    | _ :: _ :: _, _, _ =>
      simp only [List.length_cons] at hlen
      omega

/-- **C181, disagreement.** -/
theorem C181_refuted : ¬ C181_Claim := by
  intro hc
  obtain ⟨cfg, ps, h1, h2, h3, -, -, h4⟩ := C181_run_together
  exact h4 (hc cfg _ ps h1 h2 (by rintro rfl; simp at h3))

/-- The section `pkg.p.build.from.test`. -/
def innerFrom : Raw :=
  { common := { version := 3 }, packages := [(str! "p", .mk {} (some (.mk {} none none (some (none, some (.leaf {}))))) none none)] }

/-- **C181, disagreement (names).** The section that is not supported is called `pkg.p.build.dep`, but there is no
such section, and no such key of sections. -/
theorem C181_dep (path : Str) : innerFrom.packages.keys.Nodup ∧
    message path (validate innerFrom) =
      str! "Invalid config " ++ path ++ str! "\n" ++ str! "  Unsupported package selector `pkg.p.build.dep`" ∧
    Wrong (str! "from") innerFrom (str! "  Unsupported package selector `pkg.p.build.from`") := by
  refine ⟨by decide, ?_, .from_ (str! "p") .build _ _ (by simp) rfl rfl⟩
  have h : (validate innerFrom).flatMap problemText = str! "  Unsupported package selector `pkg.p.build.dep`" := by decide +kernel
  unfold message
  rw [h]

/-- A configuration with one problem. -/
def oneWrong : Raw := { common := { version := 4 } }
example : validate oneWrong = [.unsupportedVersion 4] ∧ NoInnerFrom oneWrong ∧
    message (str! "c") (validate oneWrong) = str! "Invalid config c\n  Unsupported version '4'" ∧
    OneLineEach (str! "from") oneWrong (str! "c") (message (str! "c") (validate oneWrong)) := by
  have hf : NoInnerFrom oneWrong := by
    intro pkg s c hs h
    cases s <;> simp [sectionCfg, oneWrong, AMap.get?] at h
  exact ⟨by decide, hf, by decide +kernel, C181_partial oneWrong _ _ (by decide) (List.Perm.refl _) (by decide) hf⟩
example : message (str! "c") (validate badCfg).reverse =
    str! "Invalid config c\n  API allowed more than once 'fs'  Unknown permission 'net'" := by decide +kernel

end Cackle.Invalid
