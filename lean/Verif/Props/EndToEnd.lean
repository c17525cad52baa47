import Verif.Props.Relocations
import Verif.Props.Usages
import Verif.Props.Cache
import Verif.Props.Exports
import Verif.Props.BuiltIn
import Verif.Props.Checker

/-!
# C77, C78: from a reference in the binary to the reported problem

Every use of an API that is not permitted is reported (C77), and every reported use is one (C78). This composes C01 (classifying names), C03 (inheritance), C06 (what is reported), C30 (relocations), C31 (reducing
usages) and C32 (skipping symbols).
-/

namespace Cackle.Graph
open Cackle Checker Config
open Cackle.Names hiding State
open Cackle.Perm (PkgId Scope determine)
open Cackle.ApiMap (Api ApiDef Trie Classified C01_classification)

/-! ## Specification -/

/-- The names by which a function is looked up: those in its name in debug info, and if none of these is in an API,
those in its symbol. -/
def Called (defs : List (Api × ApiDef)) (x : SymName) (name : List Str) : Prop :=
  (∃ d l, x.debug = some d ∧ DebugGives d.namespace_ d.name (.names l) ∧ name ∈ l) ∨
    ((∀ d l, x.debug = some d → DebugGives d.namespace_ d.name (.names l) → ∀ m ∈ l, ∀ a, ¬ Classified defs m a) ∧
      ∃ s l, x.symbol = some s ∧ Gives s (.names l) ∧ name ∈ l)

/-- The function is part of the API: one of its names is. -/
def InApi (defs : List (Api × ApiDef)) (x : SymName) (a : Api) : Prop :=
  ∃ name, Called defs x name ∧ Classified defs name a

/-- The symbols of the binary, without the functions in `core::ops::function`, which are looked through. -/
def linked (b : Bin) : List (Str × Nat) := b.symbols.filter (fun s => isLookThrough s.1 ≠ .ok true)

/-- The address of a symbol: the last one in the table. -/
def AddressOf (b : Bin) (s : Str) (address : Nat) : Prop :=
  ∃ before after, linked b = before ++ (s, address) :: after ∧ ∀ x ∈ after, x.1 ≠ s

/-- A function as described by the binary. -/
def functionOf (b : Bin) (s : Str) : SymName := ⟨some s, (b.debug.get? s).bind DebugInfo.name⟩

/-- A function refers to another one, at a place in the source. -/
inductive Uses (b : Bin) (objs : List Obj) : SymName → SymName → SourceLoc → Prop
  /-- The other one was inlined into it. -/
  | inlined {f : Inlined} {loc : SourceLoc} : f ∈ b.inlined → f.loc = some loc → Uses b objs f.from_ f.to loc
  /-- A relocation in a section whose first symbol is in the binary, possibly through sections without a symbol. The
  function and the place are those of the address, or else those of the first symbol. -/
  | relocation {o : Obj} {k offset start : Nat} {relocs : List (Nat × Target)} {t u : Target} {first : ObjSym}
      {info : DebugInfo} {frame : Option Str × Option SourceLoc} {s : Str} :
      o ∈ objs → (k, relocs) ∈ o.sections → (offset, t) ∈ relocs → FirstIn o.symbols k first →
      AddressOf b first.name start → b.debug.get? first.name = some info →
      b.frame (start + offset - first.address) = some frame →
      Reaches o (linked b) t u → StandsFor o (linked b) u (.inl s) →
      Uses b objs (functionOf b (frame.1.getD first.name)) (functionOf b s) (frame.2.getD info.loc)

/-- The places are the same. -/
def SamePlace (l m : SourceLoc) : Prop := pathOf l.file = pathOf m.file ∧ l.line = m.line ∧ l.column = m.column

/-- A problem that says that the package uses the API at this place. -/
def Reports (q : Problem) (pkg : PkgId) (scope : Scope) (a : Api) (loc : SourceLoc) : Prop :=
  ∃ us, ((∃ other, q = .offTreeApiUsage { pkg := pkg, scope := scope, api := a, usages := us } other) ∨
      q = .disallowedApiUsage { pkg := pkg, scope := scope, api := a, usages := us }) ∧
    ∃ u ∈ us, SamePlace u.loc loc

/-- The situation: a binary was scanned in a state of the checker, and this was reported. -/
structure Scanned (idx : Index) (c : State) (tr : List CEv) (b : Bin) (objs : List Obj) (ps : List Problem) : Prop where
  run : CRun idx c tr
  apis : (AMap.keys c.cfg.apis).Nodup
  scan : ∃ n order out c', (∀ g, (order g).Perm g) ∧ scanBin c n order b objs = .ok out ∧
    scanProblems c out = some (c', ps)

/-- In the source file of the package, a function that is not part of the API refers to one that is, by this name. A
name that begins with the package's own name does not count. -/
def UsesApi (c : State) (b : Bin) (objs : List Obj) (pkg : PkgId) (a : Api) (loc : SourceLoc) (name : List Str) : Prop :=
  (∃ ids, pkgIdsFromPath c (pathOf loc.file) = some ids ∧ pkg ∈ ids) ∧
    ∃ origin target, Uses b objs origin target loc ∧ ¬ InApi (Config.defsOf c.cfg.apis) origin a ∧
      Called (Config.defsOf c.cfg.apis) target name ∧ Classified (Config.defsOf c.cfg.apis) name a ∧
      name.head? ≠ some pkg.name

/-- The name does not begin with the crate name of a package that this package does not depend on. -/
def OnTree (idx : Index) (pkg : PkgId) (name : List Str) : Prop := ∀ deps, idx.deps.get? pkg = some deps →
  ∀ first, name.head? = some first → first ∈ deps ∨ idx.libs.get? first = none

/-- No configuration grants the API to the package in this binary. -/
def Refused (tr : List CEv) (b : Bin) (pkg : PkgId) (a : Api) : Prop :=
  ∀ cfg, CEv.loaded cfg ∈ tr → ¬ Grants cfg pkg.name (determine pkg b.crate) a

/-- What users rely on: if a binary was checked without an error, then every use of an API that is not permitted was
reported. -/
def C77_Claim : Prop := ∀ (idx : Index) (c : State) (tr : List CEv) (b : Bin) (objs : List Obj) (ps : List Problem),
  Scanned idx c tr b objs ps → ∀ (pkg : PkgId) (a : Api) (loc : SourceLoc) (name : List Str),
    UsesApi c b objs pkg a loc name → OnTree idx pkg name → Known idx pkg.name (determine pkg b.crate) →
    Refused tr b pkg a → ∃ q ∈ ps, Reports q pkg (determine pkg b.crate) a loc

/-- A reported use of an API is one: there is such a reference, and no configuration grants the API. -/
def Genuine (idx : Index) (c : State) (tr : List CEv) (b : Bin) (objs : List Obj) (au : ApiUsages) : Prop :=
  au.usages ≠ [] ∧ au.scope = determine au.pkg b.crate ∧ (∀ u ∈ au.usages, UsesApi c b objs au.pkg au.api u.loc u.toName) ∧
    (Known idx au.pkg.name (determine au.pkg b.crate) → Refused tr b au.pkg au.api)

/-- What users rely on: only uses of an API that are not permitted are reported. -/
def C78_Claim : Prop := ∀ (idx : Index) (c : State) (tr : List CEv) (b : Bin) (objs : List Obj) (ps : List Problem),
  Scanned idx c tr b objs ps → ∀ q ∈ ps, ∀ au, (q = .disallowedApiUsage au ∨ ∃ other, q = .offTreeApiUsage au other) →
    Genuine idx c tr b objs au

/-! ## Names -/

theorem symbolNames_gives {n : Nat} {s : Str} {r : Names.Result} (h : symbolNames n s = some r) : Gives s r :=
  ⟨n, fun m hm => namesOf_stable Demangle.Iter.next _ n r h m hm⟩

theorem debugNames_gives {n : Nat} {ns : List Str} {s : Str} {r : Names.Result} (h : debugNames n ns s = some r) :
    DebugGives ns s r :=
  ⟨n, fun m hm => namesOf_stable Demangle.Plain.next _ n r h m hm⟩

theorem gives_same {s : Str} {r r' : Names.Result} (h : Gives s r) (h' : Gives s r') : r = r' := h.unique h'

theorem debugGives_same {ns : List Str} {s : Str} {r r' : Names.Result} (h : DebugGives ns s r) (h' : DebugGives ns s r') :
    r = r' := by
  obtain ⟨n, hn⟩ := h
  obtain ⟨m, hm⟩ := h'
  have h1 := hn (n + m) (by omega)
  rw [hm (n + m) (by omega)] at h1
  exact (Option.some.inj h1).symm

theorem readNames_ok {x : Option Names.Result} {l : List (List Str)} (h : readNames x = .ok l) : x = some (.names l) := by
  unfold readNames at h
  split at h <;> cases h
  rfl

/-- The tree gives what the specification says. -/
def Fits (t : Trie) (defs : List (Api × ApiDef)) : Prop := ∀ name a, a ∈ t.get name ↔ Classified defs name a

theorem mem_hitsOf {t : Trie} {source : SymOrDebug} {names : List (List Str)} {h : Hit} :
    h ∈ hitsOf t source names ↔ h.name ∈ names ∧ h.source = source ∧ h.apis = t.get h.name ∧ t.get h.name ≠ [] := by
  unfold hitsOf
  simp only [List.mem_map, List.mem_filter, decide_eq_true_eq]
  constructor
  · rintro ⟨n, ⟨h1, h2⟩, rfl⟩
    exact ⟨h1, rfl, rfl, h2⟩
  · rintro ⟨h1, h2, h3, h4⟩
    refine ⟨h.name, ⟨h1, h4⟩, ?_⟩
    cases h
    simp only [] at h2 h3
    rw [h2, h3]

theorem hitsOf_nil {t : Trie} {defs : List (Api × ApiDef)} (hf : Fits t defs) {source : SymOrDebug}
    {names : List (List Str)} : hitsOf t source names = [] ↔ ∀ m ∈ names, ∀ a, ¬ Classified defs m a := by
  constructor
  · intro h m hm a ha
    have : (⟨m, source, t.get m⟩ : Hit) ∈ hitsOf t source names :=
      mem_hitsOf.mpr ⟨hm, rfl, rfl, fun e => by
        have := (hf m a).mpr ha
        rw [e] at this
        cases this⟩
    rw [h] at this
    cases this
  · intro h
    apply List.eq_nil_iff_forall_not_mem.mpr
    intro x hx
    obtain ⟨h1, _, _, h4⟩ := mem_hitsOf.mp hx
    obtain ⟨a, ha⟩ := List.exists_mem_of_ne_nil _ h4
    exact h x.name h1 a ((hf _ _).mp ha)

/-- What is found for a function is exactly its names in APIs. -/
theorem allHits_spec {t : Trie} {defs : List (Api × ApiDef)} (hf : Fits t defs) {n : Nat} {x : SymName} {hits : List Hit}
    (h : allHits t n x = .ok hits) :
    (∀ name a, Called defs x name → Classified defs name a → ∃ k ∈ hits, k.name = name ∧ a ∈ k.apis) ∧
      ∀ k ∈ hits, Called defs x k.name ∧ ∀ a, a ∈ k.apis ↔ Classified defs k.name a := by
  unfold allHits at h
  obtain ⟨dh, h1, h2⟩ := bind_ok h
  -- the hits of the debug name
  have hd : (∀ d l, x.debug = some d → DebugGives d.namespace_ d.name (.names l) →
        dh = hitsOf t (.debugName d.namespace_ d.name) l) ∧ (x.debug = none → dh = []) ∧
      ∀ d, x.debug = some d → ∃ l, DebugGives d.namespace_ d.name (.names l) := by
    cases hx : x.debug with
    | none =>
      rw [hx] at h1
      cases h1
      exact ⟨by simp, by simp, by simp⟩
    | some d =>
      rw [hx] at h1
      obtain ⟨l, h3, h4⟩ := bind_ok h1
      cases h4
      have hg := debugNames_gives (readNames_ok h3)
      refine ⟨fun d' l' e hg' => ?_, by simp, fun d' e => ?_⟩
      · cases e
        cases debugGives_same hg hg'
        rfl
      · cases e
        exact ⟨l, hg⟩
  have hclass : ∀ name a, Classified defs name a → t.get name ≠ [] := fun name a ha e => by
    have := (hf name a).mpr ha
    rw [e] at this
    cases this
  by_cases hnil : dh = []
  · rw [if_pos hnil] at h2
    -- the hits of the symbol
    have hs : (∀ s l, x.symbol = some s → Gives s (.names l) → hits = hitsOf t (.symbol s) l) ∧
        (x.symbol = none → hits = []) ∧ ∀ s, x.symbol = some s → ∃ l, Gives s (.names l) := by
      cases hx : x.symbol with
      | none =>
        rw [hx] at h2
        cases h2
        exact ⟨by simp, by simp, by simp⟩
      | some s =>
        rw [hx] at h2
        obtain ⟨l, h3, h4⟩ := bind_ok h2
        cases h4
        have hg := symbolNames_gives (readNames_ok h3)
        refine ⟨fun s' l' e hg' => ?_, by simp, fun s' e => ?_⟩
        · cases e
          cases gives_same hg hg'
          rfl
        · cases e
          exact ⟨l, hg⟩
    have hnone : ∀ d l, x.debug = some d → DebugGives d.namespace_ d.name (.names l) → ∀ m ∈ l, ∀ a,
        ¬ Classified defs m a := fun d l e hg => by
      have := hd.1 d l e hg
      rw [hnil] at this
      exact (hitsOf_nil hf).mp this.symm
    refine ⟨fun name a hc ha => ?_, fun k hk => ?_⟩
    · rcases hc with ⟨d, l, e, hg, hm⟩ | ⟨_, s, l, e, hg, hm⟩
      · exact absurd ha (hnone d l e hg name hm a)
      · rw [hs.1 s l e hg]
        exact ⟨⟨name, _, t.get name⟩, mem_hitsOf.mpr ⟨hm, rfl, rfl, hclass name a ha⟩, rfl, (hf name a).mpr ha⟩
    · cases hx : x.symbol with
      | none => rw [hs.2.1 hx] at hk; cases hk
      | some s =>
        obtain ⟨l, hg⟩ := hs.2.2 s hx
        rw [hs.1 s l hx hg] at hk
        obtain ⟨k1, _, k3, _⟩ := mem_hitsOf.mp hk
        exact ⟨.inr ⟨hnone, s, l, hx, hg, k1⟩, fun a => by rw [k3]; exact hf _ _⟩
  · rw [if_neg hnil] at h2
    cases h2
    cases hx : x.debug with
    | none => exact absurd (hd.2.1 hx) hnil
    | some d =>
      obtain ⟨l, hg⟩ := hd.2.2 d hx
      have he := hd.1 d l hx hg
      refine ⟨fun name a hc ha => ?_, fun k hk => ?_⟩
      · rcases hc with ⟨d', l', e, hg', hm⟩ | ⟨hno, _⟩
        · cases hx.symm.trans e
          cases debugGives_same hg hg'
          rw [he]
          exact ⟨⟨name, _, t.get name⟩, mem_hitsOf.mpr ⟨hm, rfl, rfl, hclass name a ha⟩, rfl, (hf name a).mpr ha⟩
        · refine absurd ?_ hnil
          rw [he]
          exact (hitsOf_nil hf).mpr (hno d l hx hg)
      · rw [he] at hk
        obtain ⟨k1, _, k3, _⟩ := mem_hitsOf.mp hk
        exact ⟨.inl ⟨d, l, hx, hg, k1⟩, fun a => by rw [k3]; exact hf _ _⟩

/-! ## References -/

theorem loadSymbols_spec : ∀ (l : List (Str × Nat)) (m m' : AMap Str Nat), Res.loop loadSymbol m l = .ok m' →
    ∀ s, m'.get? s = ((l.filter (fun s => isLookThrough s.1 ≠ .ok true)).reverse.find? (fun x => x.1 = s)).elim (m.get? s)
      (fun x => some x.2)
  | [], m, m', h, s => by cases h; rfl
  | x :: l, m, m', h, s => by
    simp only [Res.loop] at h
    obtain ⟨m1, h1, h2⟩ := bind_ok h
    unfold loadSymbol at h1
    obtain ⟨b, h3, h4⟩ := bind_ok h1
    have ih := loadSymbols_spec l m1 m' h2 s
    rw [ih]
    cases b with
    | true =>
      simp only [if_true] at h4
      cases h4
      rw [List.filter_cons_of_neg (by simp [h3])]
    | false =>
      rw [if_neg (by simp)] at h4
      cases h4
      rw [List.filter_cons_of_pos (by simp [h3]), List.reverse_cons, List.find?_append]
      cases hf : (l.filter (fun s => isLookThrough s.1 ≠ .ok true)).reverse.find? (fun x => x.1 = s) with
      | some y => rfl
      | none =>
        simp only [Option.elim, Option.none_or, List.find?_cons]
        rw [AMap.get?_insert]
        by_cases hx : x.1 = s
        · simp [hx]
        · simp [hx]

theorem addresses_get {b : Bin} {addresses : AMap Str Nat} (h : loadSymbols b.symbols = .ok addresses) {s : Str}
    {address : Nat} (ha : AddressOf b s address) : addresses.get? s = some address := by
  have := loadSymbols_spec b.symbols [] addresses h s
  obtain ⟨before, after, e, hn⟩ := ha
  unfold linked at e
  rw [e] at this
  rw [this, List.reverse_append, List.reverse_cons, List.append_assoc, List.find?_append, List.find?_eq_none.mpr]
  · simp
  · intro x hx
    simpa using hn x (List.mem_reverse.mp hx)

theorem addresses_keys {b : Bin} {addresses : AMap Str Nat} (h : loadSymbols b.symbols = .ok addresses) (s : Str) :
    InBinary addresses s ↔ InBinary (linked b) s := by
  have := loadSymbols_spec b.symbols [] addresses h s
  unfold InBinary
  rw [← keys_isSome, this]
  unfold linked
  cases hf : (b.symbols.filter (fun s => isLookThrough s.1 ≠ .ok true)).reverse.find? (fun x => x.1 = s) with
  | none =>
    have := List.find?_eq_none.mp hf
    simp only [Option.elim, AMap.get?, Option.isSome_none, Bool.false_eq_true, false_iff, AMap.keys, List.mem_map, not_exists, not_and]
    intro x hx e
    exact absurd (this x (List.mem_reverse.mpr hx)) (by simp [e])
  | some y =>
    have h1 := List.mem_reverse.mp (List.mem_of_find?_eq_some hf)
    have h2 := List.find?_some hf
    simp only [decide_eq_true_eq] at h2
    simp only [Option.elim, Option.isSome_some, true_iff, AMap.keys]
    exact List.mem_map.mpr ⟨y, h1, h2⟩

theorem StandsFor.congr {o : Obj} {bin bin' : AMap Str Nat} (h : ∀ s, InBinary bin s ↔ InBinary bin' s) {t : Target}
    {x : Str ⊕ Nat} (hs : StandsFor o bin t x) : StandsFor o bin' t x := by
  cases hs with
  | named h1 h2 h3 => exact .named h1 h2 (h3.imp (h _).mp id)
  | first h1 h2 h3 h4 h5 => exact .first h1 (h2.imp id (fun hn hi => hn ((h _).mpr hi))) h3 h4 ((h _).mp h5)
  | anonymous h1 h2 h3 h4 =>
    exact .anonymous h1 (h2.imp id (fun hn hi => hn ((h _).mpr hi))) h3 (fun s hs hi => h4 s hs ((h _).mpr hi))

theorem Reaches.congr {o : Obj} {bin bin' : AMap Str Nat} (h : ∀ s, InBinary bin s ↔ InBinary bin' s) {t u : Target}
    (hs : Reaches o bin t u) : Reaches o bin' t u := by
  induction hs with
  | refl => exact .refl
  | through h1 h2 h3 _ ih => exact .through (h1.congr h) h2 h3 ih

/-- Every use in a binary is processed. -/
theorem uses_ref {b : Bin} {objs : List Obj} {refs : List Ref} (h : allRefs b objs = .ok refs) {origin target : SymName}
    {loc : SourceLoc} (hu : Uses b objs origin target loc) :
    ∃ r ∈ refs, r.from_.names = origin ∧ r.from_.loc = some loc ∧ r.target = target := by
  obtain ⟨addresses, ha, hin, hobj, _⟩ := mem_allRefs h
  cases hu with
  | inlined hf hl => exact ⟨_, hin _ hf, rfl, hl, rfl⟩
  | @relocation o k offset start relocs t u first info frame s ho hk hr hfirst haddr hinfo hframe hreach hstands =>
    obtain ⟨infos, hi, hsec⟩ := hobj o ho
    obtain ⟨l, hl, hsub⟩ := hsec _ hk
    have hkeys := addresses_keys ha
    -- the first symbol
    have hget : infos.get? k = some (first.name, first.address) := by
      have hd := sectionInfos_describes hi
      cases hg : infos.get? k with
      | some e =>
        obtain ⟨s', hs', rfl⟩ := (hd k).1 e hg
        rw [hs'.unique hfirst]
      | none =>
        obtain ⟨i, before, after, e, hdef, _⟩ := hfirst
        exact absurd hdef ((hd k).2 hg (i, first) (by rw [e]; simp))
    obtain ⟨hrel, _⟩ := mem_sectionRefs hl hget (addresses_get ha haddr) hinfo
    obtain ⟨l', hl', hsub'⟩ := hrel _ hr
    unfold relocRefs at hl'
    obtain ⟨ts, hts, hl'⟩ := bind_ok hl'
    simp only [hframe, Res.ofOption, Res.bind] at hl'
    cases hl'
    rcases C30_targets o addresses infos hi t with ⟨ts', h1, _, h3⟩ | ⟨h1, _⟩
    · rw [hts] at h1
      cases h1
      have hs : s ∈ ts := (h3 s).mpr ⟨u, hreach.congr (fun s => (hkeys s).symm), hstands.congr (fun s => (hkeys s).symm)⟩
      exact ⟨_, hsub _ (hsub' _ (List.mem_map.mpr ⟨s, hs, rfl⟩)), rfl, rfl, rfl⟩
    · rw [hts] at h1
      cases h1

theorem last_of_find {l : List (Str × Nat)} {s : Str} {x : Str × Nat} (h : l.reverse.find? (fun x => x.1 = s) = some x) :
    ∃ before after, l = before ++ (s, x.2) :: after ∧ ∀ y ∈ after, y.1 ≠ s := by
  obtain ⟨h1, as, bs, e, hn⟩ := List.find?_eq_some_iff_append.mp h
  simp only [decide_eq_true_eq] at h1
  refine ⟨bs.reverse, as.reverse, ?_, fun y hy => by simpa using hn y (List.mem_reverse.mp hy)⟩
  have := congrArg List.reverse e
  rw [List.reverse_reverse] at this
  rw [this, ← h1]
  simp

theorem addressOf {b : Bin} {addresses : AMap Str Nat} (h : loadSymbols b.symbols = .ok addresses) {s : Str}
    {address : Nat} (ha : addresses.get? s = some address) : AddressOf b s address := by
  have := loadSymbols_spec b.symbols [] addresses h s
  rw [ha] at this
  cases hf : (linked b).reverse.find? (fun x => x.1 = s) with
  | none =>
    unfold linked at hf
    rw [hf] at this
    cases this
  | some x =>
    have hf' := hf
    unfold linked at hf'
    rw [hf'] at this
    cases this
    exact last_of_find hf

/-- Only uses in the binary are processed. -/
theorem ref_uses {b : Bin} {objs : List Obj} {refs : List Ref} (h : allRefs b objs = .ok refs) {r : Ref} (hr : r ∈ refs)
    {loc : SourceLoc} (hl : r.from_.loc = some loc) : Uses b objs r.from_.names r.target loc := by
  obtain ⟨addresses, ha, _, _, hall⟩ := mem_allRefs h
  rcases hall r hr with ⟨f, hf, rfl⟩ | ⟨o, ho, infos, hi, sec, hsec, l, hsl, hx⟩
  · exact .inlined hf hl
  · obtain ⟨first, start, info, h1, h2, h3, rel, hrel, l', hl', hx'⟩ := of_sectionRefs hsl hx
    have hkeys := addresses_keys ha
    obtain ⟨s', hfirst, rfl⟩ := (sectionInfos_describes hi sec.1).1 first h1
    unfold relocRefs at hl'
    obtain ⟨ts, hts, hl'⟩ := bind_ok hl'
    obtain ⟨frame, hframe, hl'⟩ := bind_ok hl'
    cases hl'
    obtain ⟨s, hs, rfl⟩ := List.mem_map.mp hx'
    cases hl
    rcases C30_targets o addresses infos hi rel.2 with ⟨ts', e1, _, e3⟩ | ⟨e1, _⟩
    · rw [hts] at e1
      cases e1
      obtain ⟨u, hreach, hstands⟩ := (e3 s).mp hs
      exact .relocation (k := sec.1) (relocs := sec.2) (offset := rel.1) (t := rel.2) (u := u) (start := start) ho hsec hrel
        hfirst (addressOf ha h2) h3 (ofOption_ok hframe) (hreach.congr hkeys) (hstands.congr hkeys)
    · rw [hts] at e1
      cases e1

/-! ## Collecting -/

/-- A loop whose body adds usages to the groups. -/
theorem loop_pushes {α : Type} {f : AMap Key (List Single) → α → Res (AMap Key (List Single))} {P : α → List Single → Prop}
    (hf : ∀ g x g', f g x = .ok g' → ∃ l, g' = l.foldl push g ∧ P x l) : ∀ (xs : List α) (g g' : AMap Key (List Single)),
    Res.loop f g xs = .ok g' → ∃ l : List Single, g' = l.foldl push g ∧ (∀ x ∈ xs, ∃ k, P x k ∧ ∀ s ∈ k, s ∈ l) ∧
      ∀ s ∈ l, ∃ x ∈ xs, ∃ k, P x k ∧ s ∈ k
  | [], g, g', h => by cases h; exact ⟨[], rfl, by simp, by simp⟩
  | x :: xs, g, g', h => by
    simp only [Res.loop] at h
    obtain ⟨g1, h1, h2⟩ := bind_ok h
    obtain ⟨l1, rfl, hP⟩ := hf g x g1 h1
    obtain ⟨l2, rfl, k1, k2⟩ := loop_pushes hf xs _ _ h2
    refine ⟨l1 ++ l2, by rw [List.foldl_append], fun y hy => ?_, fun s hs => ?_⟩
    · rcases List.mem_cons.mp hy with rfl | hy
      · exact ⟨l1, hP, fun s hs => List.mem_append_left _ hs⟩
      · obtain ⟨k, e1, e2⟩ := k1 y hy
        exact ⟨k, e1, fun s hs => List.mem_append_right _ (e2 s hs)⟩
    · rcases List.mem_append.mp hs with hs | hs
      · exact ⟨x, by simp, l1, hP, hs⟩
      · obtain ⟨y, hy, k, e1, e2⟩ := k2 s hs
        exact ⟨y, by simp [hy], k, e1, e2⟩

/-- What a hit adds. -/
structure HitAdds (c : State) (crate : Perm.CrateSel) (r : Ref) (fromApis : List Api) (h : Hit) (l : List Single) :
    Prop where
  all : ∀ loc ids, r.from_.loc = some loc → pkgIdsFromPath c (pathOf loc.file) = some ids → ∀ p ∈ ids,
    h.name.head? ≠ some p.name → ∀ a ∈ h.apis, a ∉ fromApis → ∃ s ∈ l, s.pkg = p ∧ s.api = a ∧ s.usage.loc = loc
  sound : ∀ s ∈ l, s.api ∈ h.apis ∧ s.usage.toName = h.name ∧ s.scope = determine s.pkg crate ∧ s.api ∉ fromApis ∧
    h.name.head? ≠ some s.pkg.name ∧ r.from_.loc = some s.usage.loc ∧
    ∃ ids, pkgIdsFromPath c (pathOf s.usage.loc.file) = some ids ∧ s.pkg ∈ ids

theorem onHit_adds {c : State} {binPath : Str} {crate : Perm.CrateSel} {r : Ref} {fromApis : List Api}
    {g g' : AMap Key (List Single)} {h : Hit} (he : onHit c binPath crate r fromApis g h = .ok g') :
    ∃ l, g' = l.foldl push g ∧ HitAdds c crate r fromApis h l := by
  unfold onHit at he
  obtain ⟨loc, h1, he⟩ := bind_ok he
  obtain ⟨ids, h2, he⟩ := bind_ok he
  have h1 := ofOption_ok h1
  have h2 := ofOption_ok h2
  obtain ⟨l, rfl, k1, k2⟩ := loop_pushes
    (P := fun p l => (∀ a ∈ newApis fromApis h, ∃ s ∈ l, s.pkg = p ∧ s.api = a ∧ s.usage.loc = loc) ∧
      ∀ s ∈ l, s.pkg = p ∧ s.api ∈ newApis fromApis h ∧ s.usage.toName = h.name ∧ s.scope = determine p crate ∧
        s.usage.loc = loc)
    (by
      intro g p g' he
      obtain ⟨l, rfl, k1, k2⟩ := loop_pushes
        (P := fun a l => ∃ s, l = [s] ∧ s.pkg = p ∧ s.api = a ∧ s.usage.loc = loc ∧ s.usage.toName = h.name ∧
          s.scope = determine p crate)
        (by
          intro g a g' he
          unfold addUsage at he
          obtain ⟨outer, _, he⟩ := bind_ok he
          obtain ⟨from_, _, he⟩ := bind_ok he
          obtain ⟨to, _, he⟩ := bind_ok he
          cases he
          exact ⟨[_], rfl, _, rfl, rfl, rfl, rfl, rfl, rfl⟩) _ _ _ he
      refine ⟨l, rfl, fun a ha => ?_, fun s hs => ?_⟩
      · obtain ⟨k, ⟨s, rfl, e1, e2, e3, _⟩, hk⟩ := k1 a ha
        exact ⟨s, hk s (by simp), e1, e2, e3⟩
      · obtain ⟨a, ha, k, ⟨s', rfl, e1, e2, e3, e4, e5⟩, hk⟩ := k2 s hs
        cases List.mem_singleton.mp hk
        exact ⟨e1, e2 ▸ ha, e4, e5, e3⟩) _ _ _ he
  refine ⟨l, rfl, fun loc' ids' e1 e2 p hp hn a ha hna => ?_, fun s hs => ?_⟩
  · rw [h1] at e1
    cases e1
    rw [h2] at e2
    cases e2
    obtain ⟨k, hk, hsub⟩ := k1 p (by
      unfold usersOf
      exact List.mem_filter.mpr ⟨hp, by simpa using hn⟩)
    obtain ⟨s, hs, e⟩ := hk.1 a (by
      unfold newApis
      exact List.mem_filter.mpr ⟨ha, by simpa using hna⟩)
    exact ⟨s, hsub s hs, e⟩
  · obtain ⟨p, hp, k, hk, hsk⟩ := k2 s hs
    obtain ⟨e1, e2, e3, e4, e5⟩ := hk.2 s hsk
    unfold newApis at e2
    unfold usersOf at hp
    obtain ⟨hp1, hp2⟩ := List.mem_filter.mp hp
    obtain ⟨ha1, ha2⟩ := List.mem_filter.mp e2
    refine ⟨ha1, e3, by rw [e1]; exact e4, by simpa using ha2, by rw [e1]; simpa using hp2, by rw [e5]; exact h1, ids, ?_, ?_⟩
    · rw [e5]
      exact h2
    · rw [e1]
      exact hp1

/-- What a reference adds. -/
structure RefAdds (c : State) (defs : List (Api × ApiDef)) (crate : Perm.CrateSel) (r : Ref) (l : List Single) : Prop where
  all : ∀ loc ids, r.from_.loc = some loc → pkgIdsFromPath c (pathOf loc.file) = some ids → ∀ p ∈ ids, ∀ name a,
    Called defs r.target name → Classified defs name a → name.head? ≠ some p.name → ¬ InApi defs r.from_.names a →
    ∃ s ∈ l, s.pkg = p ∧ s.api = a ∧ s.usage.loc = loc
  sound : ∀ s ∈ l, Classified defs s.usage.toName s.api ∧ s.scope = determine s.pkg crate ∧
    Called defs r.target s.usage.toName ∧ ¬ InApi defs r.from_.names s.api ∧ s.usage.toName.head? ≠ some s.pkg.name ∧
    r.from_.loc = some s.usage.loc ∧ ∃ ids, pkgIdsFromPath c (pathOf s.usage.loc.file) = some ids ∧ s.pkg ∈ ids

theorem reference_adds {c : State} {t : Trie} {defs : List (Api × ApiDef)} (hf : Fits t defs) {n : Nat} {binPath : Str}
    {crate : Perm.CrateSel} {g : AMap Key (List Single)} {r : Ref} {st : Coll}
    (h : processReference c t n binPath crate ⟨[], g⟩ r = .ok st) :
    st.cache = [] ∧ ∃ l, st.groups = l.foldl push g ∧ RefAdds c defs crate r l := by
  unfold processReference at h
  simp only [empty_names] at h
  obtain ⟨⟨fh, c1⟩, h1, h⟩ := bind_ok h
  obtain ⟨fh', hfrom, h1⟩ := bind_ok h1
  cases h1
  simp only [empty_names] at h
  obtain ⟨⟨hits, c2⟩, h2, h⟩ := bind_ok h
  obtain ⟨hits', hto, h2⟩ := bind_ok h2
  cases h2
  obtain ⟨groups, hloop, h⟩ := bind_ok h
  cases h
  obtain ⟨f1, f2⟩ := allHits_spec hf hfrom
  obtain ⟨t1, t2⟩ := allHits_spec hf hto
  obtain ⟨l, e, k1, k2⟩ := loop_pushes (fun g x g' he => onHit_adds he) _ _ _ hloop
  refine ⟨rfl, l, e, fun loc ids e1 e2 p hp name a hc ha hn hna => ?_, fun s hs => ?_⟩
  · obtain ⟨k, hk, rfl, hak⟩ := t1 name a hc ha
    obtain ⟨m, hm, hsub⟩ := k1 k hk
    obtain ⟨s, hs, e⟩ := hm.all loc ids e1 e2 p hp hn a hak (by
      intro hin
      obtain ⟨q, hq, haq⟩ := List.mem_flatMap.mp hin
      obtain ⟨g1, g2⟩ := f2 q hq
      exact hna ⟨q.name, g1, (g2 a).mp haq⟩)
    exact ⟨s, hsub s hs, e⟩
  · obtain ⟨k, hk, m, hm, hsm⟩ := k2 s hs
    obtain ⟨e1, e2, e3, e4, e5, e6, e7⟩ := hm.sound s hsm
    refine ⟨by rw [e2]; exact ((t2 k hk).2 _).mp e1, e3, by rw [e2]; exact (t2 k hk).1, ?_, by rw [e2]; exact e5, e6, e7⟩
    rintro ⟨name, hc, ha⟩
    obtain ⟨q, hq, _, haq⟩ := f1 name _ hc ha
    exact e4 (List.mem_flatMap.mpr ⟨q, hq, haq⟩)

theorem collect_adds {c : State} {t : Trie} {defs : List (Api × ApiDef)} (hf : Fits t defs) {n : Nat} {binPath : Str}
    {crate : Perm.CrateSel} : ∀ (refs : List Ref) (st st' : Coll), st.cache = [] →
    Res.loop (processReference c t n binPath crate) st refs = .ok st' →
    ∃ l : List Single, st'.groups = l.foldl push st.groups ∧ (∀ r ∈ refs, ∃ k, RefAdds c defs crate r k ∧ ∀ s ∈ k, s ∈ l) ∧
      ∀ s ∈ l, ∃ r ∈ refs, ∃ k, RefAdds c defs crate r k ∧ s ∈ k
  | [], st, st', _, h => by cases h; exact ⟨[], rfl, by simp, by simp⟩
  | r :: refs, st, st', h0, h => by
    simp only [Res.loop] at h
    obtain ⟨st1, h1, h2⟩ := bind_ok h
    rw [show st = ⟨[], st.groups⟩ by cases st; simp only [] at h0; rw [h0]] at h1
    obtain ⟨g1, l1, e1, hP⟩ := reference_adds hf h1
    obtain ⟨l2, e2, k1, k2⟩ := collect_adds hf refs st1 st' g1 h2
    refine ⟨l1 ++ l2, by rw [e2, e1, List.foldl_append], fun y hy => ?_, fun s hs => ?_⟩
    · rcases List.mem_cons.mp hy with rfl | hy
      · exact ⟨l1, hP, fun s hs => List.mem_append_left _ hs⟩
      · obtain ⟨k, e1, e2⟩ := k1 y hy
        exact ⟨k, e1, fun s hs => List.mem_append_right _ (e2 s hs)⟩
    · rcases List.mem_append.mp hs with hs | hs
      · exact ⟨r, by simp, l1, hP, hs⟩
      · obtain ⟨r', hr', k, e1, e2⟩ := k2 s hs
        exact ⟨r', by simp [hr'], k, e1, e2⟩

/-! ## Problems -/

theorem apisUsed_mem {idx : Index} : ∀ (aus : List ApiUsages) (c : State) (tr : List CEv) (c' : State)
    (ps : List Problem), CRun idx c tr → apisUsed c aus = some (c', ps) → ∀ au ∈ aus,
    ∃ c1 tr1 c2 qs, CRun idx c1 tr1 ∧ (∀ cfg, CEv.loaded cfg ∈ tr1 ↔ CEv.loaded cfg ∈ tr) ∧
      apiUsed c1 au = some (c2, qs) ∧ ∀ q ∈ qs, q ∈ ps
  | [], c, tr, c', ps, _, _, au, hm => by cases hm
  | x :: aus, c, tr, c', ps, hr, h, au, hm => by
    unfold apisUsed at h
    cases h1 : apiUsed c x with
    | none => rw [h1] at h; cases h
    | some r =>
      obtain ⟨c1, qs⟩ := r
      rw [h1] at h
      simp only [] at h
      cases h2 : apisUsed c1 aus with
      | none => rw [h2] at h; cases h
      | some r =>
        obtain ⟨c2, qs2⟩ := r
        rw [h2] at h
        cases h
        rcases List.mem_cons.mp hm with rfl | hm
        · exact ⟨c, tr, c1, qs, hr, fun _ => Iff.rfl, h1, fun q hq => List.mem_append_left _ hq⟩
        · obtain ⟨c3, tr3, c4, qs3, g1, g2, g3, g4⟩ := apisUsed_mem aus c1 _ _ qs2 (.use x qs hr h1) h2 au hm
          refine ⟨c3, tr3, c4, qs3, g1, fun cfg => ?_, g3, fun q hq => List.mem_append_right _ (g4 q hq)⟩
          rw [g2]
          simp

theorem apisUsed_of {idx : Index} : ∀ (aus : List ApiUsages) (c : State) (tr : List CEv) (c' : State)
    (ps : List Problem), CRun idx c tr → apisUsed c aus = some (c', ps) → ∀ q ∈ ps, ∃ au ∈ aus,
    ∃ c1 tr1 c2 qs, CRun idx c1 tr1 ∧ (∀ cfg, CEv.loaded cfg ∈ tr1 ↔ CEv.loaded cfg ∈ tr) ∧
      apiUsed c1 au = some (c2, qs) ∧ q ∈ qs
  | [], c, tr, c', ps, _, h, q, hm => by cases h; cases hm
  | x :: aus, c, tr, c', ps, hr, h, q, hm => by
    unfold apisUsed at h
    cases h1 : apiUsed c x with
    | none => rw [h1] at h; cases h
    | some r =>
      obtain ⟨c1, qs⟩ := r
      rw [h1] at h
      simp only [] at h
      cases h2 : apisUsed c1 aus with
      | none => rw [h2] at h; cases h
      | some r =>
        obtain ⟨c2, qs2⟩ := r
        rw [h2] at h
        cases h
        rcases List.mem_append.mp hm with hm | hm
        · exact ⟨x, by simp, c, tr, c1, qs, hr, fun _ => Iff.rfl, h1, hm⟩
        · obtain ⟨au, ha, c3, tr3, c4, qs3, g1, g2, g3, g4⟩ := apisUsed_of aus c1 _ _ qs2 (.use x qs hr h1) h2 q hm
          refine ⟨au, by simp [ha], c3, tr3, c4, qs3, g1, fun cfg => ?_, g3, g4⟩
          rw [g2]
          simp

/-- A problem for usages is about some of them. -/
theorem apiUsed_sub {c c' : State} {au : ApiUsages} {qs : List Problem} (h : apiUsed c au = some (c', qs)) :
    ∀ q ∈ qs, ∃ us, (q = .disallowedApiUsage { au with usages := us } ∨
      ∃ other, q = .offTreeApiUsage { au with usages := us } other) ∧ us ≠ [] ∧ ∀ u ∈ us, u ∈ au.usages := by
  unfold apiUsed at h
  simp only [] at h
  split at h
  · cases h; simp
  · split at h
    · cases h
    · rename_i on off hsplit
      cases h
      have key : (∀ e ∈ off, e.2 ≠ [] ∧ ∀ u ∈ e.2, u ∈ au.usages) ∧ ∀ u ∈ on, u ∈ au.usages := by
        unfold treeSplit at hsplit
        split at hsplit
        · rename_i deps _
          obtain ⟨_, g2, _, g4⟩ := partition_aux c deps au.usages ([], []) (on, off) hsplit
            (by simp) (by simp) (by simp [AMap.keys])
          simp only [List.flatMap_nil, List.append_nil, List.nil_append] at g4
          refine ⟨fun e he => ⟨(g2 e he).1, fun u hu => ?_⟩, fun u hu => ?_⟩
          · exact (List.mem_filter.mp (g4.mem_iff.mp (List.mem_append_left _ (List.mem_flatMap.mpr ⟨e, he, hu⟩)))).1
          · exact (List.mem_filter.mp (g4.mem_iff.mp (List.mem_append_right _ hu))).1
        · cases hsplit
          exact ⟨by simp, fun u hu => hu⟩
      intro q hq
      rcases List.mem_append.mp hq with hq | hq
      · obtain ⟨e, he, rfl⟩ := List.mem_map.mp hq
        exact ⟨e.2, .inr ⟨e.1, rfl⟩, (key.1 e he).1, (key.1 e he).2⟩
      · by_cases ho : on = []
        · simp [ho] at hq
        · rw [if_neg ho] at hq
          cases List.mem_singleton.mp hq
          exact ⟨on, .inl rfl, ho, key.2⟩

theorem exportProblem_kind {c : State} {e : PkgId × Api × Str} {q : Problem} (h : q ∈ exportProblem c e) :
    q = .possibleExportedApi e.1 e.2.1 e.2.2 := by
  unfold exportProblem at h
  simp only [] at h
  split at h
  · cases h
  · split at h
    · cases h
    · exact List.mem_singleton.mp h

/-- What a scan of a binary reports: exactly the uses of APIs. -/
theorem scan_usages {c : State} {b : Bin} {objs : List Obj} {n : Nat} {order : AMap Key (List Single) → List (Key × List Single)} {out : ScanOut}
    (hapis : (AMap.keys c.cfg.apis).Nodup) (hperm : ∀ g, (order g).Perm g) (hscan : scanBin c n order b objs = .ok out)
    (hin : ∀ f ∈ b.inlined, Agrees b f.from_ ∧ Agrees b f.to) :
    (∀ pkg a loc name, UsesApi c b objs pkg a loc name → ∃ au ∈ out.usages, au.pkg = pkg ∧ au.api = a ∧
        ∃ u ∈ au.usages, SamePlace u.loc loc) ∧
      ∀ au ∈ out.usages, au.scope = determine au.pkg b.crate ∧
        ∀ u ∈ au.usages, UsesApi c b objs au.pkg au.api u.loc u.toName := by
  obtain ⟨t, ht, hfits⟩ := C01_classification (Config.defsOf c.cfg.apis)
    (by
      simpa [Config.defsOf, AMap.keys, List.map_map, Function.comp_def] using hapis) .empty
  have hfits : Fits t (Config.defsOf c.cfg.apis) := hfits
  have htrie : trieOf c.cfg.apis = some t := ht
  unfold scanBin at hscan
  rw [htrie] at hscan
  simp only [] at hscan
  obtain ⟨refs, hrefs, hscan⟩ := bind_ok hscan
  obtain ⟨exports, _, hscan⟩ := bind_ok hscan
  obtain ⟨st, hst, hscan⟩ := bind_ok hscan
  cases hscan
  -- without marks
  have hsame := C32_cache_partial c t n b objs refs hrefs hin
  unfold usagesWith at hsame
  rw [hst] at hsame
  simp only [Res.bind] at hsame
  obtain ⟨st2, hst2, hg⟩ := bind_ok hsame.symm
  have hg : st2.groups = st.groups := Res.ok.inj hg
  obtain ⟨collected, e, hall, hsound⟩ := collect_adds hfits refs _ st2 rfl hst2
  rw [hg] at e
  simp only [] at e
  have hgen : ∀ s ∈ collected, s.scope = determine s.pkg b.crate ∧
      UsesApi c b objs s.pkg s.api s.usage.loc s.usage.toName := by
    intro s hsc
    obtain ⟨r, hr, k, hk, hsk⟩ := hsound s hsc
    obtain ⟨g1, g2, g3, g4, g5, g6, g7⟩ := hk.sound s hsk
    exact ⟨g2, g7, _, _, ref_uses hrefs hr g6, g4, g3, g1, g5⟩
  obtain ⟨reps, hreps, hnd, hemit⟩ := C31_shortest collected (order st.groups) (by rw [← e]; exact hperm _)
  -- an entry of the report
  have hentry : ∀ p x y l, reps.filter (fun r => (r.pkg, r.api) = (p, x)) = y :: l →
      y.pkg = p ∧ y.api = x ∧ ∀ z ∈ y :: l, z ∈ collected ∧ z.pkg = p ∧ z.api = x := by
    intro p x y l hf
    have : ∀ z ∈ y :: l, z ∈ collected ∧ z.pkg = p ∧ z.api = x := by
      intro z hz
      rw [← hf] at hz
      obtain ⟨h1, h2⟩ := List.mem_filter.mp hz
      simp only [Prod.mk.injEq, decide_eq_true_eq] at h2
      exact ⟨hreps.sound z h1, h2⟩
    exact ⟨(this y (by simp)).2.1, (this y (by simp)).2.2, this⟩
  refine ⟨fun pkg a loc name hu => ?_, fun au hau => ?_⟩
  · obtain ⟨⟨ids, hids, hpkg⟩, origin, target, huses, hna, hcalled, hclass, hown⟩ := hu
    obtain ⟨r, hr, rfl, hloc, rfl⟩ := uses_ref hrefs huses
    obtain ⟨k, hk, hsub⟩ := hall r hr
    obtain ⟨s, hsk, rfl, rfl, hsl⟩ := hk.all loc ids hloc hids _ hpkg name a hcalled hclass hown hna
    obtain ⟨x, hx, hxs⟩ := hreps.all s (hsub s hsk)
    have hxf : x ∈ reps.filter (fun r => (r.pkg, r.api) = (s.pkg, s.api)) :=
      List.mem_filter.mpr ⟨hx, by simp [hxs.1, hxs.2.2.1]⟩
    have hget := hemit s.pkg s.api
    cases hf : reps.filter (fun r => (r.pkg, r.api) = (s.pkg, s.api)) with
    | nil => rw [hf] at hxf; cases hxf
    | cons y l =>
      rw [hf] at hget hxf
      obtain ⟨e1, e2, _⟩ := hentry _ _ _ _ hf
      refine ⟨_, List.mem_map_of_mem (f := Prod.snd) (AMap.mem_of_get? hget), e1, e2, x.usage,
        List.mem_map.mpr ⟨x, hxf, rfl⟩, ?_⟩
      rw [← hsl]
      exact hxs.2.2.2.2
  · obtain ⟨⟨⟨p, x⟩, au'⟩, hm, rfl⟩ := List.mem_map.mp hau
    have hget := (AMap.get?_of_mem hnd hm).symm.trans (hemit p x)
    cases hf : reps.filter (fun r => (r.pkg, r.api) = (p, x)) with
    | nil => rw [hf] at hget; cases hget
    | cons y l =>
      rw [hf] at hget
      cases Option.some.inj hget
      obtain ⟨e1, e2, e3⟩ := hentry _ _ _ _ hf
      refine ⟨(hgen y (e3 y (by simp)).1).1, fun u hu => ?_⟩
      obtain ⟨z, hz, rfl⟩ := List.mem_map.mp hu
      obtain ⟨g1, g2, g3⟩ := e3 z hz
      have := (hgen z g1).2
      rw [g2, g3] at this
      simp only [e1, e2]
      exact this

/-- What the checker is asked about: exactly the uses of APIs. -/
theorem scanned_usages {idx : Index} {c : State} {tr : List CEv} {b : Bin} {objs : List Obj} {ps : List Problem}
    (hs : Scanned idx c tr b objs ps) (hin : ∀ f ∈ b.inlined, Agrees b f.from_ ∧ Agrees b f.to) :
    ∃ (aus : List ApiUsages) (c' : State) (qs : List Problem) (out : List (PkgId × Api × Str)), apisUsed c aus = some (c', qs) ∧ ps = qs ++ out.flatMap (exportProblem c') ∧
      (∀ pkg a loc name, UsesApi c b objs pkg a loc name → ∃ au ∈ aus, au.pkg = pkg ∧ au.api = a ∧
        ∃ u ∈ au.usages, SamePlace u.loc loc) ∧
      ∀ au ∈ aus, au.scope = determine au.pkg b.crate ∧ ∀ u ∈ au.usages, UsesApi c b objs au.pkg au.api u.loc u.toName := by
  obtain ⟨n, order, out, c', hperm, hscan, hprob⟩ := hs.scan
  obtain ⟨hall, hsound⟩ := scan_usages hs.apis hperm hscan hin
  unfold scanProblems at hprob
  cases hap : apisUsed c out.usages with
  | none => rw [hap] at hprob; cases hprob
  | some res =>
    obtain ⟨c3, ps3⟩ := res
    rw [hap] at hprob
    cases hprob
    exact ⟨_, _, _, _, hap, rfl, hall, hsound⟩

/-! ## The properties -/

/-- **C77.** For all states of the checker, binaries, object files and orders of iteration: if a binary was checked
without an error, then every use of an API that is not permitted was reported, with its place, provided that debug info
names inlined functions as it names their symbols, and that no use of the API by the package at the same place is by the
name of a package that is not among its dependencies.

What is missing: inlined functions with other names, see `C77_other_name`; names of packages that are not dependencies,
see `C77_off_tree`. -/
theorem C77_reported_partial (idx : Index) (c : State) (tr : List CEv) (b : Bin) (objs : List Obj) (ps : List Problem)
    (hs : Scanned idx c tr b objs ps) (hin : ∀ f ∈ b.inlined, Agrees b f.from_ ∧ Agrees b f.to) (pkg : PkgId) (a : Api)
    (loc : SourceLoc) (name : List Str) (hu : UsesApi c b objs pkg a loc name)
    (htree : ∀ l m, SamePlace l loc → UsesApi c b objs pkg a l m → OnTree idx pkg m)
    (hk : Known idx pkg.name (determine pkg b.crate)) (hr : Refused tr b pkg a) :
    ∃ q ∈ ps, Reports q pkg (determine pkg b.crate) a loc := by
  obtain ⟨aus, c', qs0, out, hap, rfl, hall, hsound⟩ := scanned_usages hs hin
  obtain ⟨au, hau, rfl, rfl, u, hu1, hu2⟩ := hall pkg a loc name hu
  obtain ⟨hscope, hgen⟩ := hsound au hau
  obtain ⟨c1, tr1, c2, qs, hrun, hload, hused, hsub⟩ := apisUsed_mem aus c tr c' qs0 hs.run hap au hau
  obtain ⟨_, hno⟩ := C06_api_use_reported idx c1 tr1 hrun au (by rw [hscope]; exact hk)
  obtain ⟨hn, hd⟩ := hno (fun cfg hc => by rw [hscope]; exact hr cfg ((hload cfg).mp hc))
  cases hdeps : idx.deps.get? au.pkg with
  | none =>
    have := hn hdeps
    rw [hused] at this
    rw [if_neg (by intro e; rw [e] at hu1; cases hu1)] at this
    cases this
    refine ⟨.disallowedApiUsage au, List.mem_append_left _ (hsub _ (by simp)), au.usages, .inr ?_, u, hu1, hu2⟩
    rw [← hscope]
  | some deps =>
    obtain ⟨_, hrest⟩ := hd deps hdeps
    obtain ⟨h1, h2, _⟩ := hrest c2 qs hused
    have hon : ∀ p, ¬ OffTree c1 deps u p := by
      rintro p ⟨first, e1, e2, e3⟩
      rw [run_idx hrun] at e3
      rcases htree u.loc u.toName hu2 (hgen u hu1) deps hdeps first e1 with h | h
      · exact e2 h
      · rw [h] at e3
        cases e3
    have hmem : u ∈ qs.flatMap Problem.apiUsages := by
      classical
      refine (h1 (fun x => ! decide ((∃ p, OffTree c1 deps x p) ∧ Excused c1 x))
        (fun x => by simp only [Bool.not_eq_false', decide_eq_true_eq])).mem_iff.mpr ?_
      refine List.mem_filter.mpr ⟨hu1, ?_⟩
      simp only [Bool.not_eq_true', decide_eq_false_iff_not]
      rintro ⟨⟨p, hp⟩, _⟩
      exact hon p hp
    obtain ⟨q, hq, huq⟩ := List.mem_flatMap.mp hmem
    rcases h2 q hq with ⟨us, _, rfl, _⟩ | ⟨us, p, _, rfl, _⟩
    · refine ⟨_, List.mem_append_left _ (hsub _ hq), us, .inr ?_, u, huq, hu2⟩
      rw [← hscope]
    · refine ⟨_, List.mem_append_left _ (hsub _ hq), us, .inl ⟨p, ?_⟩, u, huq, hu2⟩
      rw [← hscope]

/-- **C78.** For all states of the checker, binaries, object files and orders of iteration: every reported use of an API
is at the place of a reference from a function that is not part of the API to one that is, in a source file of the package,
and the API is not granted, provided that debug info names inlined functions as it names their symbols.

What is missing: inlined functions with other names, see `C78_other_name`. -/
theorem C78_genuine_partial (idx : Index) (c : State) (tr : List CEv) (b : Bin) (objs : List Obj) (ps : List Problem)
    (hs : Scanned idx c tr b objs ps) (hin : ∀ f ∈ b.inlined, Agrees b f.from_ ∧ Agrees b f.to) (q : Problem) (hq : q ∈ ps)
    (au : ApiUsages) (hf : q = .disallowedApiUsage au ∨ ∃ other, q = .offTreeApiUsage au other) :
    Genuine idx c tr b objs au := by
  obtain ⟨aus, c', qs0, out, hap, rfl, _, hsound⟩ := scanned_usages hs hin
  rcases List.mem_append.mp hq with hq | hq
  · obtain ⟨au0, ha0, c1, tr1, c2, qs, hrun, hload, hused, hqs⟩ := apisUsed_of aus c tr c' qs0 hs.run hap q hq
    obtain ⟨hscope, hgen⟩ := hsound au0 ha0
    obtain ⟨us, hform, hne, hsub⟩ := apiUsed_sub hused q hqs
    have hau : au = { au0 with usages := us } := by
      rcases hform with rfl | ⟨_, rfl⟩ <;> rcases hf with hf | ⟨_, hf⟩ <;> cases hf <;> rfl
    subst hau
    refine ⟨hne, hscope, fun u hu => hgen u (hsub u hu), fun hk cfg hc hgr => ?_⟩
    obtain ⟨hyes, _⟩ := C06_api_use_reported idx c1 tr1 hrun au0 (by rw [hscope]; exact hk)
    obtain ⟨c3, h3⟩ := hyes ⟨cfg, (hload cfg).mpr hc, by rw [hscope]; exact hgr⟩
    rw [hused] at h3
    cases h3
    cases hqs
  · obtain ⟨e, _, hq⟩ := List.mem_flatMap.mp hq
    have := exportProblem_kind hq
    rw [this] at hf
    rcases hf with hf | ⟨_, hf⟩ <;> cases hf

/-! ## Witnesses -/

/-- Showing that a use of an API is one by computing. -/
theorem usesApi_of_ref {c : State} {t : Trie} {b : Bin} {objs : List Obj} {refs : List Ref} {r : Ref} {n : Nat}
    {loc : SourceLoc} {ids : List PkgId} {pkg : PkgId} {a : Api} {name : List Str} {fh th : List Hit}
    (hapis : (AMap.keys c.cfg.apis).Nodup) (ht : trieOf c.cfg.apis = some t) (h : allRefs b objs = .ok refs) (hr : r ∈ refs)
    (hl : r.from_.loc = some loc) (hids : pkgIdsFromPath c (pathOf loc.file) = some ids) (hp : pkg ∈ ids)
    (hf : allHits t n r.from_.names = .ok fh) (hno : a ∉ fh.flatMap Hit.apis) (hto : allHits t n r.target = .ok th)
    (hm : ∃ k ∈ th, k.name = name ∧ a ∈ k.apis) (hn : name.head? ≠ some pkg.name) :
    UsesApi c b objs pkg a loc name := by
  obtain ⟨t', ht', hfits⟩ := C01_classification (Config.defsOf c.cfg.apis)
    (by simpa [Config.defsOf, AMap.keys, List.map_map, Function.comp_def] using hapis) .empty
  have htrie : trieOf c.cfg.apis = some t' := ht'
  rw [ht] at htrie
  cases htrie
  obtain ⟨k, hk, rfl, ha⟩ := hm
  obtain ⟨f1, _⟩ := allHits_spec hfits hf
  obtain ⟨_, t2⟩ := allHits_spec hfits hto
  refine ⟨⟨ids, hids, hp⟩, _, _, ref_uses h hr hl, ?_, (t2 k hk).1, ((t2 k hk).2 a).mp ha, hn⟩
  rintro ⟨m, hc, hcl⟩
  obtain ⟨q, hq, _, haq⟩ := f1 m a hc hcl
  exact hno (List.mem_flatMap.mpr ⟨q, hq, haq⟩)

/-- What is reported for a binary, if the groups are gone through in the order of their creation. -/
def report (c : State) (b : Bin) (objs : List Obj) : Option (List Problem) :=
  match scanBin c 40 id b objs with
  | .ok out => (scanProblems c out).map Prod.snd
  | _ => none

theorem scanned {idx : Index} {c : State} {tr : List CEv} {b : Bin} {objs : List Obj} {ps : List Problem}
    (hr : CRun idx c tr) (ha : (AMap.keys c.cfg.apis).Nodup) (h : report c b objs = some ps) : Scanned idx c tr b objs ps := by
  unfold report at h
  split at h
  · rename_i out hout
    cases hp : scanProblems c out with
    | none => rw [hp] at h; cases h
    | some r =>
      rw [hp] at h
      cases h
      exact ⟨hr, ha, 40, id, out, r.1, fun g => .refl _, hout, hp⟩
  · cases h

def pp : PkgId := ⟨str! "p", str! "1.0.0", true⟩
def pq : PkgId := ⟨str! "q", str! "1.0.0", true⟩
/-- Package `q` is a dependency of `p`, or not. -/
def wIdx (deps : List Str) : Index :=
  { pkgs := [⟨str! "p", true, false⟩, ⟨str! "q", true, false⟩], deps := [(pp, deps)], libs := [(str! "q", pq)] }
def wCfg : Raw := { apis := [(str! "fs", { incl := [str! "std::fs", str! "q::fs"] })] }
def wState (deps : List Str) : State :=
  { updateConfig { idx := wIdx deps } wCfg with
    paths := [(pathOf (str! "/p/a.rs"), [pp]), (pathOf (str! "/q/a.rs"), [pq])] }
def wTree : Trie := (trieOf wCfg.apis).getD .empty

theorem wRun (deps : List Str) : CRun (wIdx deps) (wState deps) [.loaded wCfg] :=
  .other _ _ (.load wCfg (by simp [AMap.keys, wCfg]) .init)

theorem wApis (deps : List Str) : (AMap.keys (wState deps).cfg.apis).Nodup := by
  simp [wState, wCfg, updateConfig, AMap.keys]

theorem wTrie (deps : List Str) : trieOf (wState deps).cfg.apis = some wTree := by
  show trieOf wCfg.apis = some wTree
  unfold wTree
  cases h : trieOf wCfg.apis with
  | some t => rfl
  | none =>
    have : (trieOf wCfg.apis).isSome = true := by decide +kernel
    rw [h] at this
    cases this

theorem wKnown (deps : List Str) : Known (wIdx deps) (str! "p") .all :=
  ⟨⟨str! "p", true, false⟩, by simp [wIdx], rfl, by simp, by simp⟩

theorem wRefused (b : Bin) : Refused [.loaded wCfg] b pp (str! "fs") := by
  intro cfg hc
  simp only [List.mem_singleton, CEv.loaded.injEq] at hc
  subst hc
  rintro ⟨s, _, p, hp, _⟩
  cases s <;> cases hp

/-- A function of `p` at line 3 of `/p/a.rs` that was inlined into a function of `q`. It refers to `std::fs::read`
and to `q::fs`. -/
def wObj : Obj where
  symbols := [(0, ⟨str! "qf", some 1, true, 0⟩), (1, ⟨str! "sr", none, false, 0⟩), (2, ⟨str! "qfs", none, false, 0⟩)]
  sections := [(1, [(4, .symbol 1), (8, .symbol 2)])]
def wBin : Bin where
  path := str! "/bin"
  crate := ⟨pp, .primary⟩
  symbols := [(str! "qf", 100)]
  debug := [(str! "qf", ⟨⟨str! "/q/a.rs", 1, none⟩, none⟩),
    (str! "sr", ⟨⟨str! "/std/fs.rs", 1, none⟩, some ⟨[str! "std", str! "fs"], str! "read"⟩⟩),
    (str! "qfs", ⟨⟨str! "/q/b.rs", 1, none⟩, some ⟨[str! "q"], str! "fs"⟩⟩)]
  inlined := []
  frame _ := some (some (str! "pf"), some ⟨str! "/p/a.rs", 3, none⟩)
def wPlace : SourceLoc := ⟨str! "/p/a.rs", 3, none⟩
def wRef : Ref :=
  { address := 104, symbolStart := 100, outer := some ⟨⟨some (str! "qf"), none⟩, some ⟨str! "/q/a.rs", 1, none⟩⟩,
    from_ := ⟨⟨some (str! "pf"), none⟩, some wPlace⟩,
    target := ⟨some (str! "sr"), some ⟨[str! "std", str! "fs"], str! "read"⟩⟩ }

private theorem wUses (deps : List Str) :
    UsesApi (wState deps) wBin [wObj] pp (str! "fs") wPlace [str! "std", str! "fs", str! "read"] :=
  usesApi_of_ref (n := 40) (r := wRef) (ids := [pp]) (fh := []) (wApis deps) (wTrie deps)
    (refs := [wRef, { wRef with address := 108, target := ⟨some (str! "qfs"), some ⟨[str! "q"], str! "fs"⟩⟩ }])
    (by decide +kernel) (by simp) rfl rfl (by simp) (by decide +kernel) (by simp)
    (th := [⟨[str! "std", str! "fs", str! "read"], .debugName [str! "std", str! "fs"] (str! "read"), [str! "fs"]⟩])
    (by decide +kernel) ⟨_, List.mem_singleton.mpr rfl, rfl, List.mem_singleton.mpr rfl⟩ (by decide)

/-- The use of `std::fs::read` is not reported: at the same place there is the use of `q::fs`, whose name is shorter,
so it stands for both; then it is ignored, since it is a use of a package that is not a dependency, in code of that
package. -/
theorem C77_off_tree : ¬ C77_Claim := by
  intro h
  obtain ⟨q, hq, _⟩ := h (wIdx []) (wState []) [.loaded wCfg] wBin [wObj] [] (scanned (wRun []) (wApis []) (by decide +kernel))
    pp (str! "fs") wPlace _ (wUses []) (by
      intro deps _ first hf
      cases hf
      right
      decide) (wKnown []) (wRefused wBin)
  cases hq

/-- Two inlined functions with the same symbol: the name of the first one has lost its namespace. -/
private def iBin : Bin where
  path := str! "/bin"
  crate := ⟨pp, .primary⟩
  symbols := []
  debug := [(str! "s", ⟨⟨str! "/std/fs.rs", 1, none⟩, some ⟨[str! "std", str! "fs"], str! "read"⟩⟩)]
  inlined := [⟨8, 4, ⟨some (str! "f"), none⟩, ⟨some (str! "s"), some ⟨[], str! "read"⟩⟩, some ⟨str! "/p/a.rs", 2, none⟩⟩,
    ⟨8, 4, ⟨some (str! "f"), none⟩, ⟨some (str! "s"), some ⟨[str! "std", str! "fs"], str! "read"⟩⟩, some wPlace⟩]
  frame _ := some (none, none)

/-- A use is lost also if debug info gives two names for one symbol: after the first name, which is not in an API,
the symbol is skipped. -/
theorem C77_other_name : ∃ (idx : Index) (c : State) (tr : List CEv) (b : Bin) (objs : List Obj) (ps : List Problem)
    (pkg : PkgId) (a : Api) (loc : SourceLoc) (name : List Str), Scanned idx c tr b objs ps ∧
    UsesApi c b objs pkg a loc name ∧ (∀ m, OnTree idx pkg m) ∧ Known idx pkg.name (determine pkg b.crate) ∧
    Refused tr b pkg a ∧ ¬ ∃ q ∈ ps, Reports q pkg (determine pkg b.crate) a loc := by
  refine ⟨wIdx [str! "q"], wState [str! "q"], [.loaded wCfg], iBin, [], [], pp, str! "fs", wPlace, _,
    scanned (wRun _) (wApis _) (by decide +kernel),
    usesApi_of_ref (n := 40) (r := inlinedRef ⟨8, 4, ⟨some (str! "f"), none⟩, ⟨some (str! "s"), some ⟨[str! "std", str! "fs"], str! "read"⟩⟩, some wPlace⟩)
      (ids := [pp]) (fh := []) (wApis _) (wTrie _) (refs := iBin.inlined.map inlinedRef) rfl
      (List.mem_cons_of_mem _ (List.mem_singleton.mpr rfl)) rfl rfl (by simp) (by decide +kernel) (by simp)
      (th := [⟨[str! "std", str! "fs", str! "read"], .debugName [str! "std", str! "fs"] (str! "read"), [str! "fs"]⟩])
      (by decide +kernel) ⟨_, List.mem_singleton.mpr rfl, rfl, List.mem_singleton.mpr rfl⟩ (by decide),
    fun m deps hd first hf => ?_, wKnown _, wRefused _, by simp⟩
  cases hd
  by_cases e : first = str! "q"
  · exact .inl (by rw [e]; simp)
  · refine .inr ?_
    simp only [wIdx, AMap.get?]
    rw [if_neg (fun e' => e e'.symm)]

/-- Here the function that refers to `std::fs::write` has two names. -/
private def jBin : Bin :=
  { iBin with
    inlined := [⟨8, 4, ⟨some (str! "s"), some ⟨[], str! "read"⟩⟩, ⟨some (str! "f"), none⟩, some ⟨str! "/p/a.rs", 2, none⟩⟩,
      ⟨8, 4, ⟨some (str! "s"), some ⟨[str! "std", str! "fs"], str! "read"⟩⟩,
        ⟨none, some ⟨[str! "std", str! "fs"], str! "write"⟩⟩, some wPlace⟩] }
private def jUsage : ApiUsage :=
  { address := 8, symbolStart := 4, binPath := str! "/bin", scope := .all, loc := wPlace, outer := none,
    from_ := .debugName [str! "std", str! "fs"] (str! "read"), to := .debugName [str! "std", str! "fs"] (str! "write"),
    toName := [str! "std", str! "fs", str! "write"], toSource := .debugName [str! "std", str! "fs"] (str! "write") }
private def jUsages : ApiUsages := { pkg := pp, scope := .all, api := str! "fs", usages := [jUsage] }

/-- Also for the function that refers to others: if it was skipped, it is not known to be part of the API, and its own
use of the API is reported. -/
theorem C78_other_name : ¬ C78_Claim := by
  intro h
  obtain ⟨_, _, hu, _⟩ := h (wIdx []) (wState []) [.loaded wCfg] jBin [] [.disallowedApiUsage jUsages]
    (scanned (wRun []) (wApis []) (by decide +kernel)) _ (List.mem_singleton.mpr rfl) jUsages (.inl rfl)
  obtain ⟨_, origin, target, huses, hno, _⟩ := hu jUsage (List.mem_singleton.mpr rfl)
  generalize hplace : jUsage.loc = place at huses
  cases huses with
  | @inlined f _ hf hl =>
    subst hplace
    simp only [jBin, List.mem_cons, List.not_mem_nil, or_false] at hf
    rcases hf with rfl | rfl
    · simp only [Option.some.injEq] at hl
      have := congrArg SourceLoc.line hl
      cases this
    · apply hno
      obtain ⟨t', ht', hfits⟩ := C01_classification (Config.defsOf (wState []).cfg.apis)
        (by simp [Config.defsOf, wState, wCfg, updateConfig]) .empty
      have htrie : trieOf (wState []).cfg.apis = some t' := ht'
      rw [wTrie] at htrie
      cases htrie
      obtain ⟨_, f2⟩ := allHits_spec hfits (n := 40)
        (x := ⟨some (str! "s"), some ⟨[str! "std", str! "fs"], str! "read"⟩⟩)
        (hits := [⟨[str! "std", str! "fs", str! "read"], .debugName [str! "std", str! "fs"] (str! "read"), [str! "fs"]⟩])
        (by decide +kernel)
      obtain ⟨g1, g2⟩ := f2 _ (List.mem_singleton.mpr rfl)
      exact ⟨_, g1, (g2 _).mp (List.mem_singleton.mpr rfl)⟩
  | relocation ho => cases ho

/-! ## Non-vacuity -/

theorem wTreeAll (m : List Str) : OnTree (wIdx [str! "q"]) pp m := by
  intro deps hd first hf
  cases hd
  by_cases e : first = str! "q"
  · exact .inl (by rw [e]; simp)
  · refine .inr ?_
    simp only [wIdx, AMap.get?]
    rw [if_neg (fun e' => e e'.symm)]

private def wUsage : ApiUsage :=
  { address := 108, symbolStart := 100, binPath := str! "/bin", scope := .all, loc := wPlace,
    outer := some ⟨str! "/q/a.rs", 1, none⟩, from_ := .symbol (str! "pf"), to := .debugName [str! "q"] (str! "fs"),
    toName := [str! "q", str! "fs"], toSource := .debugName [str! "q"] (str! "fs") }

/-- The binary from above, where `q` is a dependency of `p`. -/
private theorem wScanned : Scanned (wIdx [str! "q"]) (wState [str! "q"]) [.loaded wCfg] wBin [wObj]
    [.disallowedApiUsage ⟨pp, .all, str! "fs", [wUsage]⟩] :=
  scanned (wRun _) (wApis _) (by decide +kernel)

example : ∃ q ∈ [Problem.disallowedApiUsage ⟨pp, .all, str! "fs", [wUsage]⟩], Reports q pp .all (str! "fs") wPlace :=
  C77_reported_partial _ _ _ _ _ _ wScanned (by intro f hf; cases hf) pp _ wPlace _ (wUses _) (fun _ m _ _ => wTreeAll m)
    (wKnown _) (wRefused _)

example : Genuine (wIdx [str! "q"]) (wState [str! "q"]) [.loaded wCfg] wBin [wObj] ⟨pp, .all, str! "fs", [wUsage]⟩ :=
  C78_genuine_partial _ _ _ _ _ _ wScanned (by intro f hf; cases hf) _ (List.mem_singleton.mpr rfl) _ (.inl rfl)

end Cackle.Graph
