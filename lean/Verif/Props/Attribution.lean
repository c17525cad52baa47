import Verif.Model.Handlers
import Verif.Props.Handlers

/-!
# C33: the owner of a source path
-/

namespace Cackle.Checker
open Cackle Config Perm

/-! ## Specification -/

/-- What happens to the checker: a request is handled (with whatever is cached for it), or the
configuration is reloaded. -/
inductive Event where
  | request (req : Request) (cache : Option ScanOut)
  | reload (cfg : Raw)

/-- The effect of an event on the checker. -/
def Event.apply (P : Parts) (c : State) : Event → State
  | .request req cache => (handleRequest P c req cache).1
  | .reload cfg => updateConfig c cfg

/-- A compilation of a crate of `pkg` that listed `p` among its source files has completed. -/
def Listed (events : List Event) (pkg : PkgId) (p : PathC) : Prop :=
  ∃ crate paths cache, Event.request (.rustcComplete crate paths) cache ∈ events ∧ crate.pkgId = pkg ∧
    p ∈ paths

/-- A path of the standard library: below `/rustc`, `/cargo/registry`, `/rust` or the sysroot. -/
def InStd (sysroot p : PathC) : Prop :=
  [['/'], str! "rustc"] <+: p ∨ [['/'], str! "cargo", str! "registry"] <+: p ∨
    [['/'], str! "rust"] <+: p ∨ sysroot <+: p

/-- `d` is the deepest package directory containing `p`. -/
def Deepest (dirs : AMap PathC PkgId) (d p : PathC) : Prop :=
  d <+: p ∧ d ∈ dirs.keys ∧ ∀ d', d' <+: p → d' ∈ dirs.keys → d'.length ≤ d.length

/-! ## Lemmas -/

theorem isInRustStd_iff (sysroot p : PathC) : isInRustStd sysroot p = true ↔ InStd sysroot p := by
  have h1 : pathOf (str! "/rustc/") = [['/'], str! "rustc"] := by decide
  have h2 : pathOf (str! "/cargo/registry") = [['/'], str! "cargo", str! "registry"] := by decide
  have h3 : pathOf (str! "/rust/") = [['/'], str! "rust"] := by decide
  simp only [isInRustStd, PathC.startsWith, h1, h2, h3, Bool.or_eq_true, List.isPrefixOf_iff_prefix, InStd,
    or_assoc]

theorem pkgForPath_some {dirs : AMap PathC PkgId} {d p : PathC} (hd : [] ∉ dirs.keys)
    (h : Deepest dirs d p) : pkgForPath dirs p = dirs.get? d := by
  induction hn : p.length using Nat.strongRecOn generalizing p with
  | ind n ih =>
    obtain ⟨h1, h2, h3⟩ := h
    rw [pkgForPath]
    split
    · rename_i id hp
      have hk : p ∈ dirs.keys := AMap.get?_isSome_iff.mp (by simp [hp])
      have : d = p := h1.eq_of_length_le (h3 p (List.prefix_refl _) hk)
      rw [this, hp]
    · rename_i hp
      have hk : p ∉ dirs.keys := AMap.get?_eq_none_iff.mp hp
      have hne : d ≠ p := fun e => hk (e ▸ h2)
      have hd0 : d ≠ [] := fun e => hd (e ▸ h2)
      obtain ⟨t, rfl⟩ := h1
      have ht : t ≠ [] := by
        rintro rfl
        exact hne (by simp)
      split
      · rename_i hroot
        exfalso
        rcases hroot with e | e
        · exact hd0 (List.append_eq_nil_iff.mp e).1
        · have hl := congrArg List.length e
          simp only [List.length_append, List.length_singleton] at hl
          have := List.length_pos_iff.mpr hd0
          have := List.length_pos_iff.mpr ht
          omega
      · rw [List.dropLast_append_of_ne_nil ht]
        refine ih _ ?_ ⟨List.prefix_append _ _, h2, ?_⟩ rfl
        · rw [← hn]
          have := List.length_pos_iff.mpr ht
          simp; omega
        · intro d' hp' hk'
          refine h3 d' (hp'.trans ?_) hk'
          rw [List.prefix_append_right_inj]
          exact List.dropLast_prefix t

theorem pkgForPath_none {dirs : AMap PathC PkgId} {p : PathC} (h : ∀ d, d <+: p → d ∉ dirs.keys) :
    pkgForPath dirs p = none := by
  induction hn : p.length using Nat.strongRecOn generalizing p with
  | ind n ih =>
    rw [pkgForPath]
    have hp : dirs.get? p = none := AMap.get?_eq_none_iff.mpr (h p (List.prefix_refl _))
    rw [hp]
    simp only
    split
    · rfl
    · rename_i hroot
      have h0 : p ≠ [] := fun e => hroot (.inl e)
      refine ih _ ?_ (fun d hd => h d (hd.trans (List.dropLast_prefix p))) rfl
      have := List.length_pos_iff.mpr h0
      simp; omega

/-- What the map of paths says, in terms of who listed what. -/
def PathsOk (m : AMap PathC (List PkgId)) (listed : PkgId → PathC → Prop) : Prop :=
  ∀ p, match m.get? p with
    | none => ∀ pkg, ¬ listed pkg p
    | some ids => ids.Nodup ∧ (∀ pkg, pkg ∈ ids ↔ listed pkg p) ∧ ids ≠ []

theorem PathsOk.congr {m : AMap PathC (List PkgId)} {l1 l2 : PkgId → PathC → Prop} (h : PathsOk m l1)
    (he : ∀ q p, l1 q p ↔ l2 q p) : PathsOk m l2 := by
  have : l1 = l2 := by
    funext q p
    exact propext (he q p)
  exact this ▸ h

theorem recordPaths_ok {m : AMap PathC (List PkgId)} {listed : PkgId → PathC → Prop} (pkg : PkgId)
    (paths : List PathC) (h : PathsOk m listed) :
    PathsOk (recordPaths m pkg paths) (fun q p => listed q p ∨ (q = pkg ∧ p ∈ paths)) := by
  induction paths generalizing m listed with
  | nil => simpa [recordPaths] using h
  | cons x xs ih =>
    have hx : PathsOk (m.insert x (if pkg ∈ (m.get? x).getD [] then (m.get? x).getD []
        else (m.get? x).getD [] ++ [pkg])) (fun q p => listed q p ∨ (q = pkg ∧ p = x)) := by
      intro p
      have hp := h p
      rw [AMap.get?_insert]
      by_cases hxp : x = p
      · subst hxp
        simp only [if_true, and_true]
        cases hg : m.get? x with
        | none =>
          rw [hg] at hp
          simp only [Option.getD_none, List.not_mem_nil, if_false, List.nil_append]
          exact ⟨by simp, fun q => by simp [hp q], by simp⟩
        | some ids =>
          rw [hg] at hp
          obtain ⟨h1, h2, h3⟩ := hp
          simp only [Option.getD_some]
          split
          · rename_i hm
            refine ⟨h1, fun q => ?_, h3⟩
            rw [h2]
            constructor
            · exact .inl
            · rintro (hq | rfl)
              · exact hq
              · exact (h2 _).mp hm
          · rename_i hm
            refine ⟨?_, fun q => by simp [h2], by simp⟩
            rw [List.nodup_append]
            exact ⟨h1, by simp, by
              intro a ha b hb
              simp only [List.mem_singleton] at hb
              subst hb
              rintro rfl
              exact hm ha⟩
      · simp only [hxp, if_false]
        have hpx : ¬ p = x := fun e => hxp e.symm
        cases hg : m.get? p with
        | none => rw [hg] at hp; simpa [hpx] using hp
        | some ids => rw [hg] at hp; simpa [hpx] using hp
    have := ih hx
    simp only [recordPaths, List.foldl_cons] at this ⊢
    exact this.congr (fun q p => by grind)

theorem checkLink_same {scan : State → LinkInfo → Option ScanOut} {c c' : State} {li : LinkInfo}
    {cache : Option ScanOut} {out : ScanOut} {ps : List Problem}
    (h : checkLink scan c li cache = some (c', out, ps)) : c'.paths = c.paths ∧ c'.idx = c.idx := by
  obtain ⟨-, -, ps', h', -⟩ := checkLink_spec h
  have := apisUsed_same h'
  exact ⟨this.2.1, this.2.2.1⟩

theorem rustcComplete_paths (scan : State → LinkInfo → Option ScanOut) (c : State) (crate : CrateSel)
    (paths : List PathC) (cache : Option ScanOut) :
    (rustcComplete scan c crate paths cache).1.paths = recordPaths c.paths crate.pkgId paths ∧
    (rustcComplete scan c crate paths cache).1.idx = c.idx := by
  rcases rustcComplete_cases scan c crate paths cache with ⟨-, h⟩ | ⟨li, rest, -, h⟩ |
    ⟨li, rest, c', out, ps, -, hl, h⟩
  · rw [h]; exact ⟨rfl, rfl⟩
  · rw [h]; exact ⟨rfl, rfl⟩
  · rw [h]
    have := checkLink_same hl
    simp only
    split <;> exact this

theorem apply_ok {P : Parts} {c : State} {listed : PkgId → PathC → Prop} (h : PathsOk c.paths listed)
    (e : Event) :
    PathsOk (e.apply P c).paths (fun q p => listed q p ∨ Listed [e] q p) ∧ (e.apply P c).idx = c.idx := by
  cases e with
  | reload cfg =>
    refine ⟨?_, rfl⟩
    exact PathsOk.congr (m := c.paths) h (fun q p => by simp [Listed])
  | request req cache =>
    cases req with
    | rustcComplete crate paths =>
      obtain ⟨h1, h2⟩ := rustcComplete_paths P.scan c crate paths cache
      refine ⟨?_, h2⟩
      show PathsOk (rustcComplete P.scan c crate paths cache).1.paths _
      rw [h1]
      refine (recordPaths_ok crate.pkgId paths h).congr ?_
      intro q p
      simp only [Listed, List.mem_singleton, Event.request.injEq, Request.rustcComplete.injEq]
      constructor
      · rintro (h | ⟨rfl, h⟩)
        · exact .inl h
        · exact .inr ⟨crate, paths, cache, ⟨⟨rfl, rfl⟩, rfl⟩, rfl, h⟩
      · rintro (h | ⟨c', p', ca, ⟨⟨rfl, rfl⟩, rfl⟩, rfl, h⟩)
        · exact .inl h
        · exact .inr ⟨rfl, h⟩
    | binExecutionComplete crate code output =>
      have : (handleRequest P c (.binExecutionComplete crate code output) cache).1 = c := by
        simp only [handleRequest]
        split
        · rfl
        · split <;> rfl
      simp only [Event.apply, this, and_true]
      exact h.congr (fun q p => by simp [Listed])
    | initial => exact ⟨PathsOk.congr (m := c.paths) h (fun q p => by simp [Listed]), rfl⟩
    | crateUsesUnsafe _ _ => exact ⟨PathsOk.congr (m := c.paths) h (fun q p => by simp [Listed]), rfl⟩
    | crateUsesExtern _ _ => exact ⟨PathsOk.congr (m := c.paths) h (fun q p => by simp [Listed]), rfl⟩
    | linkerInvoked _ => exact ⟨PathsOk.congr (m := c.paths) h (fun q p => by simp [Listed]), rfl⟩
    | rustcStarted _ => exact ⟨PathsOk.congr (m := c.paths) h (fun q p => by simp [Listed]), rfl⟩

theorem events_ok {P : Parts} : ∀ (events : List Event) {c : State} {listed : PkgId → PathC → Prop},
    PathsOk c.paths listed →
    PathsOk (events.foldl (Event.apply P) c).paths (fun q p => listed q p ∨ Listed events q p) ∧
      (events.foldl (Event.apply P) c).idx = c.idx
  | [], c, listed, h => ⟨h.congr (fun q p => by simp [Listed]), rfl⟩
  | e :: es, c, listed, h => by
    obtain ⟨h1, h2⟩ := apply_ok (P := P) h e
    obtain ⟨h3, h4⟩ := events_ok (P := P) es h1
    refine ⟨?_, by rw [List.foldl_cons, h4, h2]⟩
    rw [List.foldl_cons]
    refine h3.congr (fun q p => ?_)
    rw [or_assoc]
    apply or_congr .rfl
    constructor
    · rintro (⟨a, b, x, hm, r⟩ | ⟨a, b, x, hm, r⟩)
      · exact ⟨a, b, x, by simp only [List.mem_singleton] at hm; simp [hm], r⟩
      · exact ⟨a, b, x, List.mem_cons_of_mem _ hm, r⟩
    · rintro ⟨a, b, x, hm, r⟩
      rcases List.mem_cons.mp hm with hm | hm
      · exact .inl ⟨a, b, x, by simp [hm], r⟩
      · exact .inr ⟨a, b, x, hm, r⟩

/-- **C33.** After any sequence of requests and reloads: a path listed by some compilation is attributed
to exactly the packages whose compilations listed it, once each; otherwise a path in the standard library
or sysroot is attributed to no package; otherwise to the package with the deepest directory containing it,
and if there is none the lookup fails. (Package directories are absolute paths, hence not empty.) -/
theorem C33_owner (P : Parts) (c : State) (hc : c.paths = []) (hd : [] ∉ c.idx.dirs.keys)
    (events : List Event) (p : PathC) :
    ((∃ pkg, Listed events pkg p) →
      ∃ ids, pkgIdsFromPath (events.foldl (Event.apply P) c) p = some ids ∧ ids.Nodup ∧
        ∀ pkg, pkg ∈ ids ↔ Listed events pkg p) ∧
    ((∀ pkg, ¬ Listed events pkg p) → InStd c.idx.sysroot p →
      pkgIdsFromPath (events.foldl (Event.apply P) c) p = some []) ∧
    ((∀ pkg, ¬ Listed events pkg p) → ¬ InStd c.idx.sysroot p →
      (∀ d pkg, Deepest c.idx.dirs d p → c.idx.dirs.get? d = some pkg →
        pkgIdsFromPath (events.foldl (Event.apply P) c) p = some [pkg]) ∧
      ((∀ d, d <+: p → d ∉ c.idx.dirs.keys) →
        pkgIdsFromPath (events.foldl (Event.apply P) c) p = none)) := by
  have h0 : PathsOk c.paths (fun _ _ => False) := by
    rw [hc]
    intro p
    simp
  obtain ⟨h1, h2⟩ := events_ok (P := P) events h0
  simp only [false_or] at h1
  have hp := h1 p
  generalize events.foldl (Event.apply P) c = c' at h1 h2 hp ⊢
  cases hg : c'.paths.get? p with
  | some ids =>
    rw [hg] at hp
    obtain ⟨n1, n2, n3⟩ := hp
    have hl : ∃ pkg, Listed events pkg p := by
      cases ids with
      | nil => exact absurd rfl n3
      | cons a ids => exact ⟨a, (n2 a).mp (by simp)⟩
    have hn : ¬ ∀ pkg, ¬ Listed events pkg p := fun h => by
      obtain ⟨pkg, hx⟩ := hl
      exact h pkg hx
    exact ⟨fun _ => ⟨ids, by simp [pkgIdsFromPath, hg], n1, n2⟩, fun h => absurd h hn,
      fun h => absurd h hn⟩
  | none =>
    rw [hg] at hp
    refine ⟨fun ⟨pkg, h⟩ => absurd h (hp pkg), ?_, ?_⟩
    · intro _ hs
      have := (isInRustStd_iff _ _).mpr hs
      simp [pkgIdsFromPath, hg, h2, this]
    · intro _ hs
      have hs' : isInRustStd c.idx.sysroot p = false := by
        cases hb : isInRustStd c.idx.sysroot p with
        | false => rfl
        | true => exact absurd ((isInRustStd_iff _ _).mp hb) hs
      refine ⟨?_, ?_⟩
      · intro d pkg hdeep hget
        simp [pkgIdsFromPath, hg, h2, hs', pkgForPath_some hd hdeep, hget]
      · intro hno
        simp [pkgIdsFromPath, hg, h2, hs', pkgForPath_none hno]

/-! Non-vacuity: nested package directories; a path listed by two packages. -/
private def pa : PkgId := ⟨str! "a", str! "1", true⟩
private def pb : PkgId := ⟨str! "b", str! "1", true⟩
private def exC : State :=
  { idx := { dirs := [([['/'], str! "a"], pa), ([['/'], str! "a", str! "b"], pb)] } }
private def exEvents : List Event :=
  [.request (.rustcComplete ⟨pa, .primary⟩ [[['/'], str! "x.rs"]]) none, .reload {},
   .request (.rustcComplete ⟨pb, .test⟩ [[['/'], str! "x.rs"]]) none,
   .request (.rustcComplete ⟨pa, .test⟩ [[['/'], str! "x.rs"]]) none]
example (P : Parts) :
    pkgIdsFromPath (exEvents.foldl (Event.apply P) exC) [['/'], str! "x.rs"] = some [pa, pb] := by
  simp [exEvents, exC, Event.apply, handleRequest, rustcComplete, takeLink, updateConfig, recordPaths,
    pkgIdsFromPath, AMap.get?, AMap.insert, pa, pb]
example : Deepest exC.idx.dirs [['/'], str! "a", str! "b"] [['/'], str! "a", str! "b", str! "m.c"] := by
  refine ⟨by decide, by decide, ?_⟩
  intro d _ hk
  have : d = [['/'], str! "a"] ∨ d = [['/'], str! "a", str! "b"] := by simpa [exC, AMap.keys] using hk
  rcases this with rfl | rfl <;> simp

end Cackle.Checker
