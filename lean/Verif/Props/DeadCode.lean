import Verif.Props.EndToEnd
import Verif.Props.Dwarf

/-!
# C143: code that is not in the binary does not count
-/

namespace Cackle.Graph
open Cackle Config Perm Checker
open Cackle.ApiMap (Api Classified C01_classification)

/-! ## Specification -/

/-- What linkers write into debug information as the address of a function that they removed: GNU ld writes 0, or 1 in
lists of ranges; lld writes the greatest address. -/
def Removed (a : Nat) : Prop := a = 0 ∨ a = 1 ∨ a = 2 ^ 64 - 1

/-- There is code in the binary that stems from this place: a function that was inlined at an address that is not that
of removed code, or a section whose first symbol is in the binary. -/
inductive InCode (removed : Nat → Prop) (w : Dwarf.World) (b : Bin) (objs : List Obj) (loc : SourceLoc) : Prop
  | inlined {p : Dwarf.DUnit × Dwarf.Forest} {anc : List Dwarf.Entry} {o : Nat} {e : Dwarf.Entry} {f : Inlined} :
      p ∈ w → Dwarf.Inside [] p.2 anc o e → Dwarf.LastOf Dwarf.address e.attrs (some f.address) → ¬ removed f.address →
      f ∈ b.inlined → f.loc = some loc → InCode removed w b objs loc
  | linked {o : Obj} {k start : Nat} {relocs : List (Nat × Target)} {first : ObjSym} : o ∈ objs → (k, relocs) ∈ o.sections →
      relocs ≠ [] → FirstIn o.symbols k first → (first.name, start) ∈ b.symbols → InCode removed w b objs loc

/-- What users rely on: a use of an API is only reported if the code is in the binary. -/
def OnlyCode (removed : Nat → Prop) : Prop :=
  ∀ (idx : Index) (c : State) (tr : List CEv) (w : Dwarf.World) (isStd : Str → Bool) (st : Dwarf.Scan) (b : Bin)
    (objs : List Obj) (ps : List Problem), w.Ok → Dwarf.scan (w.map Prod.fst) isStd = .ok st → b.inlined = st.inlined →
    (∀ f ∈ b.inlined, Agrees b f.from_ ∧ Agrees b f.to) → Scanned idx c tr b objs ps →
    ∀ q ∈ ps, ∀ au, (q = .disallowedApiUsage au ∨ ∃ other, q = .offTreeApiUsage au other) →
      ∀ u ∈ au.usages, InCode removed w b objs u.loc

/-- The claim for all linkers. -/
def C143_Claim : Prop := OnlyCode Removed

/-- No function of the object file is in the binary. -/
def Unlinked (b : Bin) (o : Obj) : Prop :=
  ∀ i s, (i, s) ∈ o.symbols → s.definition = true → ∀ a, (s.name, a) ∉ b.symbols

/-- Definitions are in sections that there are. -/
def WellFormed (o : Obj) : Prop :=
  ∀ i s k, (i, s) ∈ o.symbols → s.section_ = some k → k ∈ AMap.keys o.sections

/-! ## Proofs -/

/-- **C143 (partial).** For a linker that writes 0 or 1, a use of an API is only reported if the code is in the binary.
Missing: linkers that write something else, see `C143_tombstone`. -/
theorem C143_partial : OnlyCode (fun a => a = 0 ∨ a = 1) := by
  intro idx c tr w isStd st b objs ps hw hs hin hag hsc q hq au hau u hu
  obtain ⟨_, _, hall, _⟩ := C78_genuine_partial idx c tr b objs ps hsc hag q hq au hau
  obtain ⟨_, origin, target, huses, _⟩ := hall u hu
  generalize u.loc = loc at huses ⊢
  cases huses with
  | @inlined f _ hf hl =>
    obtain ⟨_, _, _, hsound, _⟩ := Dwarf.scan_ok w {} st hw.1 hs
    rcases hsound f (hin ▸ hf) with h | ⟨p, hp, _, anc, o, e, fs, s, info, hi, _, ha⟩
    · cases h
    · obtain ⟨_, g2, _, g4, _⟩ := Dwarf.inlined_some ha.inlined
      refine .inlined hp hi ?_ (by omega) hf hl
      have := Dwarf.lastOf_loop (g := Dwarf.Scanner.lowPc) Dwarf.handle_address rfl ha.attrs
      rw [g2] at this
      exact this
  | relocation ho hsec hrel hfirst haddr _ _ _ _ =>
    obtain ⟨before, after, e, _⟩ := haddr
    have hm := List.mem_filter.mp (show _ ∈ linked b by rw [e]; exact List.mem_append_right _ List.mem_cons_self)
    exact .linked ho hsec (List.ne_nil_of_mem hrel) hfirst hm.1

theorem loop_skip {σ α : Type} (f : σ → α → Res σ) (x : α) (hx : ∀ s, f s x = .ok s) (after : List α) :
    ∀ (before : List α) (s : σ), Res.loop f s (before ++ x :: after) = Res.loop f s (before ++ after)
  | [], s => by
    show (f s x).bind _ = _
    rw [hx]; rfl
  | y :: before, s => by
    show (f s y).bind _ = (f s y).bind _
    congr 1
    funext s'
    exact loop_skip f x hx after before s'

theorem objectRefs_unlinked {b : Bin} {o : Obj} (hu : Unlinked b o) (hw : WellFormed o) {addresses : AMap Str Nat}
    (ha : loadSymbols b.symbols = .ok addresses) : objectRefs b addresses o = .ok [] := by
  unfold objectRefs
  cases hi : sectionInfos o with
  | none =>
    obtain ⟨x, hx, k, hd, hk⟩ := (addFirsts_none _ _).mp hi
    have := le_maxIndex (hw x.1 x.2 k hx hd.2.2)
    omega
  | some infos =>
    have hsec : ∀ s, sectionRefs b o infos addresses s = .ok [] := by
      intro s
      unfold sectionRefs
      cases hg : infos.get? s.1 with
      | none => rfl
      | some first =>
        obtain ⟨s', ⟨i, before, after, e, hd, _⟩, rfl⟩ := (sectionInfos_describes hi s.1).1 first hg
        have : addresses.get? s'.name = none := by
          cases hga : addresses.get? s'.name with
          | none => rfl
          | some a =>
            obtain ⟨be, af, e', _⟩ := addressOf ha hga
            have hm := List.mem_filter.mp (show _ ∈ linked b by rw [e']; exact List.mem_append_right _ List.mem_cons_self)
            exact absurd hm.1 (hu i s' (by rw [e]; simp) hd.2.1 a)
        dsimp only
        rw [this]
    show Res.loop _ [] o.sections = _
    have : ∀ (l : AMap Nat (List (Nat × Target))),
        Res.loop (fun l s => (sectionRefs b o infos addresses s).bind fun l' => .ok (l ++ l')) [] l = .ok [] := by
      intro l
      induction l with
      | nil => rfl
      | cons x l ih =>
        show Res.bind ((sectionRefs b o infos addresses x).bind _) _ = _
        rw [hsec]
        exact ih
    exact this _

/-- **C143.** An object file of which nothing is in the binary makes no difference, whatever its code refers to. -/
theorem C143_unlinked {b : Bin} {o : Obj} (hu : Unlinked b o) (hw : WellFormed o) (c : State) (n : Nat)
    (order : AMap Key (List Single) → List (Key × List Single)) (before after : List Obj) :
    scanBin c n order b (before ++ o :: after) = scanBin c n order b (before ++ after) := by
  have : allRefs b (before ++ o :: after) = allRefs b (before ++ after) := by
    unfold allRefs
    cases ha : loadSymbols b.symbols with
    | ok addresses =>
      show Res.loop _ _ _ = Res.loop _ _ _
      exact loop_skip _ o (fun s => by rw [objectRefs_unlinked hu hw ha]; show Res.ok _ = _; rw [List.append_nil]) after before _
    | err => rfl
    | panic => rfl
    | stuck => rfl
  unfold scanBin
  rw [this]

/-! ## A linker that writes the greatest address -/

/-- A function at the address `a` in the package `p` into which `std::fs::read` was inlined. -/
def deadUnit (a : Nat) : Dwarf.DUnit × Dwarf.Forest :=
  let cu : Dwarf.Entry := ⟨.other, [], true⟩
  let std : Dwarf.Entry := ⟨.namespace_, [.name (str! "std")], true⟩
  let fs : Dwarf.Entry := ⟨.namespace_, [.name (str! "fs")], true⟩
  let read : Dwarf.Entry := ⟨.subprogram, [.name (str! "read")], false⟩
  let main : Dwarf.Entry := ⟨.subprogram, [.name (str! "unused"), .lowPc (some a)], true⟩
  let inl : Dwarf.Entry := ⟨.inlined, [.origin (.unit 4), .lowPc (some a), .callFile (some (none, str! "a.rs")),
    .callLine (some 3)], false⟩
  (⟨0, str! "/p", [(1, some cu), (2, some std), (3, some fs), (4, some read), (5, none), (6, none), (7, some main),
      (8, some inl), (9, none), (10, none)]⟩,
    .node 1 cu (.node 2 std (.node 3 fs (.node 4 read .nil 0 .nil) 5 .nil) 6 (.node 7 main (.node 8 inl .nil 0 .nil) 9 .nil)) 10 .nil)

theorem deadOk (a : Nat) : Dwarf.World.Ok [deadUnit a] := by
  refine ⟨fun p hp => ?_, ?_⟩
  · rw [List.mem_singleton.mp hp]
    exact ⟨⟨[], by simp [deadUnit, Dwarf.Forest.flatten]⟩, by simp [deadUnit, Dwarf.Forest.Ok], by simp [deadUnit]⟩
  · simp [Dwarf.World.Ordered, deadUnit]

/-- What is found out about it. -/
def deadInlined (a : Nat) : Inlined :=
  ⟨a, a, ⟨none, some ⟨[], str! "unused"⟩⟩, ⟨none, some ⟨[str! "std", str! "fs"], str! "read"⟩⟩,
    some ⟨str! "/p/a.rs", 3, none⟩⟩

def maxAddr : Nat := 18446744073709551615

/-- A binary without any function. -/
def deadBin (a : Nat) : Bin where
  path := str! "/bin"
  crate := ⟨pp, .primary⟩
  symbols := []
  debug := []
  inlined := [deadInlined a]
  frame _ := some (none, none)

theorem deadScan : ∃ st, Dwarf.scan ([deadUnit maxAddr].map Prod.fst) (fun _ => false) = .ok st ∧
    st.inlined = [deadInlined maxAddr] := ⟨_, rfl, rfl⟩

/-- It says that an API is used at line 3 of `/p/a.rs`. -/
def isDead : Problem → Bool
  | .disallowedApiUsage au => au.usages.any (fun u => decide (u.loc = ⟨str! "/p/a.rs", 3, none⟩))
  | _ => false

/-- **C143, disagreement.** A linker that marks removed code by the greatest address, as lld does: the code is
considered to be in the binary, and what was inlined into it is reported. -/
theorem C143_tombstone : ¬ C143_Claim := by
  intro h
  obtain ⟨st, hst, hin⟩ := deadScan
  have hr : (match report (wState []) (deadBin maxAddr) [] with | some ps => ps.any isDead | none => false) = true := by
    decide +kernel
  cases hps : report (wState []) (deadBin maxAddr) [] with
  | none => rw [hps] at hr; cases hr
  | some ps =>
    rw [hps] at hr
    obtain ⟨q, hq, hd⟩ := List.any_eq_true.mp hr
    cases q with
    | disallowedApiUsage au =>
      obtain ⟨u, hu, _⟩ := List.any_eq_true.mp (show au.usages.any _ = true from hd)
      have hc := h (wIdx []) (wState []) [.loaded wCfg] [deadUnit maxAddr] (fun _ => false) st (deadBin maxAddr) [] ps (deadOk _)
        hst hin.symm (by
          intro f hf
          rw [List.mem_singleton.mp (show f ∈ [deadInlined maxAddr] from hf)]
          exact ⟨fun s _ hs => (by cases hs), fun s _ hs => (by cases hs)⟩)
        (scanned (wRun []) (wApis []) hps) _ hq au (.inl rfl) u hu
      cases hc with
      | inlined _ _ _ hn hf _ =>
        rw [List.mem_singleton.mp (show _ ∈ [deadInlined maxAddr] from hf)] at hn
        exact hn (.inr (.inr rfl))
      | linked ho _ _ _ _ => cases ho
    | _ => cases hd

/-- With 0 nothing is found. -/
example : (match Dwarf.scan ([deadUnit 0].map Prod.fst) (fun _ => false) with
    | .ok st => st.inlined.length | _ => 7) = 0 := by decide +kernel

/-! ## The fallback in HOW_IT_WORKS.md -/

/-- HOW_IT_WORKS.md: "If the output binary doesn't have that symbol, then we fall back to using debug information for
the symbol." So a reference in a section whose symbol is not in the binary counts, if there is debug information. -/
def C143_Fallback_Claim : Prop :=
  ∀ (idx : Index) (c : State) (tr : List CEv) (b : Bin) (objs : List Obj) (ps : List Problem),
    Scanned idx c tr b objs ps → ∀ (o : Obj) (k offset : Nat) (relocs : List (Nat × Target)) (t : Target) (first : ObjSym)
      (info : DebugInfo) (s : Str) (ids : List PkgId) (pkg : PkgId) (a : Api) (name : List Str),
    o ∈ objs → (k, relocs) ∈ o.sections → (offset, t) ∈ relocs → FirstIn o.symbols k first →
    (∀ x, (first.name, x) ∉ b.symbols) → b.debug.get? first.name = some info → StandsFor o (linked b) t (.inl s) →
    pkgIdsFromPath c (pathOf info.loc.file) = some ids → pkg ∈ ids →
    Called (Config.defsOf c.cfg.apis) (functionOf b s) name → Classified (Config.defsOf c.cfg.apis) name a →
    ¬ InApi (Config.defsOf c.cfg.apis) (functionOf b first.name) a → name.head? ≠ some pkg.name → OnTree idx pkg name →
    Known idx pkg.name (determine pkg b.crate) → Refused tr b pkg a →
    ∃ q ∈ ps, Reports q pkg (determine pkg b.crate) a info.loc

/-- The binary of `wBin` without its symbols. -/
def strippedBin : Bin := { wBin with symbols := [] }

/-- **C143, disagreement.** There is no such fallback. -/
theorem C143_no_fallback : ¬ C143_Fallback_Claim := by
  intro h
  obtain ⟨t', ht', hfits⟩ := C01_classification (Config.defsOf (wState []).cfg.apis)
    (by simpa [Config.defsOf, AMap.keys, List.map_map, Function.comp_def] using wApis []) .empty
  have htrie : trieOf (wState []).cfg.apis = some t' := ht'
  rw [wTrie []] at htrie
  cases htrie
  have hto : allHits wTree 40 (functionOf strippedBin (str! "sr")) =
      .ok [⟨[str! "std", str! "fs", str! "read"], .debugName [str! "std", str! "fs"] (str! "read"), [str! "fs"]⟩] := by
    decide +kernel
  have hfrom : allHits wTree 40 (functionOf strippedBin (str! "qf")) = .ok [] := by decide +kernel
  obtain ⟨f1, _⟩ := allHits_spec hfits hfrom
  obtain ⟨_, t2⟩ := allHits_spec hfits hto
  have t3 := t2 _ List.mem_cons_self
  obtain ⟨q, hq, _⟩ := h (wIdx []) (wState []) [.loaded wCfg] strippedBin [wObj] []
    (scanned (wRun []) (wApis []) (by decide +kernel)) wObj 1 4 [(4, .symbol 1), (8, .symbol 2)] (.symbol 1)
    ⟨str! "qf", some 1, true, 0⟩ ⟨⟨str! "/q/a.rs", 1, none⟩, none⟩ (str! "sr") [pq] pq (str! "fs")
    [str! "std", str! "fs", str! "read"] List.mem_cons_self List.mem_cons_self List.mem_cons_self
    ⟨0, [], _, rfl, ⟨by decide, rfl, rfl⟩, by simp, by
      intro x hx hd
      rcases List.mem_cons.mp hx with rfl | hx
      · exact absurd hd.2.1 (by decide)
      · rw [List.mem_singleton.mp hx] at hd
        exact absurd hd.2.1 (by decide)⟩
    (by intro x hx; cases hx) rfl (.named (i := 1) (e := ⟨str! "sr", none, false, 0⟩) rfl (by decide) (.inr rfl))
    (by decide +kernel) (by simp) t3.1 ((t3.2 _).mp (by simp))
    (by
      rintro ⟨m, hc, hcl⟩
      obtain ⟨k, hk, _⟩ := f1 m _ hc hcl
      cases hk)
    (by decide) (by
      intro deps hd
      have : (wIdx []).deps.get? pq = none := by decide +kernel
      rw [this] at hd
      cases hd)
    ⟨⟨str! "q", true, false⟩, by simp [wIdx], rfl, by decide +kernel, by decide +kernel⟩ (by
      intro cfg hc
      simp only [List.mem_singleton, CEv.loaded.injEq] at hc
      subst hc
      rintro ⟨s, _, p, hp, _⟩
      cases s <;> cases hp)
  cases hq

/-! ## Examples -/

/-- With its symbol the code counts. -/
example : (report (wState []) wBin [wObj]) ≠ none := by decide +kernel

/-- `wObj` is not part of the stripped binary. -/
example : scanBin (wState []) 40 id strippedBin [wObj] = scanBin (wState []) 40 id strippedBin [] :=
  C143_unlinked (fun _ _ _ _ _ h => by cases h) (by
    intro i s k hm hs
    simp only [wObj, List.mem_cons, List.not_mem_nil, or_false, Prod.mk.injEq] at hm
    rcases hm with ⟨_, rfl⟩ | ⟨_, rfl⟩ | ⟨_, rfl⟩ <;> cases hs
    decide) _ _ _ [] []

end Cackle.Graph
