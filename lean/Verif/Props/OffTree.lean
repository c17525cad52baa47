import Verif.Props.EndToEnd
import Verif.Props.LibTree

/-!
# C161 (a package that is called a non-dependency is not a dependency)

The report of a use says "`a` uses `fs` API from non-dependency `b`". What is known about dependencies comes from the output of
`cargo tree` (C16, C80), which is run for normal dependencies only (lib_tree.rs:46).
-/

namespace Cackle.Graph
open Cackle Perm Checker

/-- The packages of a build with all of their dependencies: `normal` (without proc macros, as `cargo tree` is asked for), and those of tests,
examples and benchmarks (`dev`) and of build scripts (`build`). -/
structure Project (P : Type) where
  normal : LibTree.Graph P
  dev : P → List P
  build : P → List P

/-- Some code of package `p`, its tests and build script included, may use `q`: `q` is a dependency of `p`, or one of those. -/
def Project.MayUse {P : Type} (pr : Project P) (p q : P) : Prop :=
  ∃ d, (d ∈ pr.normal.deps p ∨ d ∈ pr.dev p ∨ d ∈ pr.build p) ∧ (q = d ∨ pr.normal.Dep d q)

/-- The checker knows of dependencies what was read from the output of `cargo tree`. -/
def KnowsTree {P : Type} (pr : Project P) (idx : Index) : Prop :=
  ∃ (names : AMap Str (List PkgId)) (valid : Str → Bool) (roots : List P) (es : List (Nat × P)) (listed : List P) (stdout : Str)
    (st : LibTree.St), pr.normal.Acyclic ∧ LibTree.Known pr.normal names valid ∧
    (∀ p q, pr.normal.id p = pr.normal.id q → p = q) ∧ LibTree.Listing pr.normal [] 0 roots es listed ∧
    LibTree.Printed pr.normal es stdout ∧ (∀ e ∈ es, e.1 < 2 ^ 64) ∧ LibTree.build names valid stdout = some st ∧
    idx.deps = st.trans ∧ idx.libs = st.libs

/-- C161 in full: what is called a non-dependency of a package is not a dependency of it. -/
def C161_Claim : Prop :=
  ∀ (P : Type) (pr : Project P) (idx : Index) (c : State) (tr : List CEv) (b : Bin) (objs : List Obj) (ps : List Problem),
    KnowsTree pr idx → Scanned idx c tr b objs ps → ∀ au other, Problem.offTreeApiUsage au other ∈ ps →
      ∀ p q, pr.normal.id p = au.pkg → pr.normal.id q = other → ¬ pr.MayUse p q

/-- And it is another package. -/
def C161_OtherClaim : Prop :=
  ∀ (P : Type) (pr : Project P) (idx : Index) (c : State) (tr : List CEv) (b : Bin) (objs : List Obj) (ps : List Problem),
    KnowsTree pr idx → Scanned idx c tr b objs ps → ∀ au other, Problem.offTreeApiUsage au other ∈ ps → other ≠ au.pkg

/-! ## What is known of a reported use -/

theorem offTree_of_apiUsed {c c' : State} {au : ApiUsages} {qs : List Problem} (h : apiUsed c au = some (c', qs))
    {au' : ApiUsages} {other : PkgId} (hq : Problem.offTreeApiUsage au' other ∈ qs) :
    au'.pkg = au.pkg ∧ au'.usages ≠ [] ∧ ∃ deps, c.idx.deps.get? au.pkg = some deps ∧
      ∀ u ∈ au'.usages, OffTree c deps u other := by
  unfold apiUsed at h
  simp only [] at h
  split at h
  · cases h; cases hq
  · split at h
    · cases h
    · rename_i on off hsplit
      cases h
      rcases List.mem_append.mp hq with hq | hq
      · obtain ⟨e, he, heq⟩ := List.mem_map.mp hq
        cases heq
        unfold treeSplit at hsplit
        split at hsplit
        · rename_i deps hdeps
          obtain ⟨_, g2, _, _⟩ := partition_aux c deps au.usages ([], []) (on, off) hsplit
            (by simp) (by simp) (by simp [AMap.keys])
          refine ⟨rfl, (g2 e he).1, deps, hdeps, fun u hu => ?_⟩
          have hc := (g2 e he).2 u hu
          unfold classify at hc
          split at hc
          · cases hc
          · rename_i first hf
            split at hc
            · cases hc
            · rename_i hnd
              split at hc
              · cases hc
              · rename_i pkg hpkg
                split at hc
                · cases hc
                · cases hc
                · cases hc
                  exact ⟨first, hf, hnd, hpkg⟩
        · cases hsplit
          cases he
      · split at hq
        · cases hq
        · cases List.mem_singleton.mp hq

/-- A use that is reported with a non-dependency: its name begins with the crate name of a package that was listed, and with that of
no normal dependency. -/
theorem offTree_spec {P : Type} {pr : Project P} {idx : Index} {c : State} {tr : List CEv} {b : Bin} {objs : List Obj}
    {ps : List Problem} (ht : KnowsTree pr idx) (hs : Scanned idx c tr b objs ps) {au : ApiUsages} {other : PkgId}
    (hm : Problem.offTreeApiUsage au other ∈ ps) {p q : P} (hp : pr.normal.id p = au.pkg) (hq : pr.normal.id q = other) :
    au.usages ≠ [] ∧ (∀ u ∈ au.usages, u.toName.head? = some (pr.normal.crateName q)) ∧
      ∀ r, pr.normal.Dep p r → pr.normal.crateName r ≠ pr.normal.crateName q := by
  obtain ⟨names, valid, roots, es, listed, stdout, st, hac, hk, hinj, hl, hpr, hd, hb, hdeps, hlibs⟩ := ht
  obtain ⟨st1, h1, hexact, hlisted, hnone⟩ := LibTree.C16_partial pr.normal names valid roots es listed stdout hac hk hinj hl hpr hd
  obtain ⟨st2, h2, _, _, hprov, _⟩ := LibTree.C80_providers pr.normal names valid roots es listed stdout hk hl hpr hd
  rw [hb] at h1 h2
  cases h1
  cases h2
  obtain ⟨n, order, out, c', hperm, hscan, hprob⟩ := hs.scan
  unfold scanProblems at hprob
  cases hap : apisUsed c out.usages with
  | none => rw [hap] at hprob; cases hprob
  | some res =>
    obtain ⟨c3, ps3⟩ := res
    rw [hap] at hprob
    simp only [Option.some.injEq, Prod.mk.injEq] at hprob
    obtain ⟨_, rfl⟩ := hprob
    rcases List.mem_append.mp hm with hm | hm
    · obtain ⟨au0, _, c1, tr1, c2, qs, hrun, _, hused, hqs⟩ := apisUsed_of out.usages c tr c3 ps3 hs.run hap _ hm
      obtain ⟨hpkg, hne, deps, hg, hoff⟩ := offTree_of_apiUsed hused hqs
      have hidx := run_idx hrun
      have hfirst : ∀ u ∈ au.usages, u.toName.head? = some (pr.normal.crateName q) ∧ pr.normal.crateName q ∉ deps := by
        intro u hu
        obtain ⟨first, hf, hnd, hlib⟩ := hoff u hu
        rw [hidx, hlibs] at hlib
        obtain ⟨q', _, hname, hid⟩ := hprov first other hlib
        have : q' = q := hinj _ _ (by rw [hid, hq])
        subst this
        rw [hname]
        exact ⟨hf, hnd⟩
      refine ⟨hne, fun u hu => (hfirst u hu).1, ?_⟩
      intro r hr he
      obtain ⟨u, hu⟩ := List.exists_mem_of_ne_nil _ hne
      rw [← hpkg, ← hp, hidx, hdeps] at hg
      have hpl : p ∈ listed := Classical.byContradiction (fun hn => by rw [hnone p hn] at hg; cases hg)
      obtain ⟨ns, hns, hex⟩ := hlisted p hpl
      rw [hns] at hg
      cases hg
      exact (hfirst u hu).2 (by rw [← he]; exact (hex _).mpr ⟨r, hr, rfl⟩)
    · exfalso
      obtain ⟨e, _, he⟩ := List.mem_flatMap.mp hm
      cases exportProblem_kind he

/-- **C161 (partial).** For all projects, states of the checker, binaries and object files: what is called a non-dependency of a package
is not among its normal dependencies, direct or not, nor is any other package that provides a crate of this name. What is missing is
dependencies of tests and build scripts (`C161_dev_dependency`). -/
theorem C161_not_normal_partial {P : Type} (pr : Project P) (idx : Index) (c : State) (tr : List CEv) (b : Bin) (objs : List Obj)
    (ps : List Problem) (ht : KnowsTree pr idx) (hs : Scanned idx c tr b objs ps) (au : ApiUsages) (other : PkgId)
    (hm : Problem.offTreeApiUsage au other ∈ ps) (p q : P) (hp : pr.normal.id p = au.pkg) (hq : pr.normal.id q = other) :
    (∀ u ∈ au.usages, u.toName.head? = some (pr.normal.crateName q)) ∧
      ∀ r, pr.normal.Dep p r → r ≠ q ∧ pr.normal.crateName r ≠ pr.normal.crateName q := by
  obtain ⟨_, h1, h2⟩ := offTree_spec ht hs hm hp hq
  exact ⟨h1, fun r hr => ⟨fun e => h2 r hr (by rw [e]), h2 r hr⟩⟩

/-- **C161 (partial).** A package is called a non-dependency of itself only if its crate name is not the name of the package, for
binaries in which debug info names inlined functions as it names their symbols (compare C78). -/
theorem C161_itself_partial {P : Type} (pr : Project P) (idx : Index) (c : State) (tr : List CEv) (b : Bin) (objs : List Obj)
    (ps : List Problem) (ht : KnowsTree pr idx) (hs : Scanned idx c tr b objs ps)
    (hin : ∀ f ∈ b.inlined, Agrees b f.from_ ∧ Agrees b f.to) (au : ApiUsages)
    (hm : Problem.offTreeApiUsage au au.pkg ∈ ps) (p : P) (hp : pr.normal.id p = au.pkg) :
    pr.normal.crateName p ≠ (pr.normal.id p).name := by
  obtain ⟨hne, h1, _⟩ := offTree_spec ht hs hm hp hp
  obtain ⟨u, hu⟩ := List.exists_mem_of_ne_nil _ hne
  obtain ⟨_, _, hgen, _⟩ := C78_genuine_partial idx c tr b objs ps hs hin _ hm au (.inr ⟨_, rfl⟩)
  obtain ⟨_, _, _, _, _, _, _, hown⟩ := hgen u hu
  rw [h1 u hu, ← hp] at hown
  exact fun e => hown (by rw [e])

/-! ## Where it fails

The workspace of `app` and `app-2` (C16): `app` uses `left` and `right`, both of which use `my-base`; `app-2` uses `right`, and its
tests use `left`. -/

open Cackle.LibTree (Dia dia diaIdx diaText)

private def pr : Project Dia where
  normal := dia
  dev | .app2 => [.left] | _ => []
  build _ := []
private def st : LibTree.St := (LibTree.build diaIdx (fun _ => true) diaText).getD {}
private def ix : Index :=
  { pkgs := [⟨str! "app-2", false, true⟩, ⟨str! "my-base", false, false⟩], deps := st.trans, libs := st.libs }

private theorem built : LibTree.build diaIdx (fun _ => true) diaText = some st := by
  unfold st
  cases h : LibTree.build diaIdx (fun _ => true) diaText with
  | some s => rfl
  | none =>
    have : (LibTree.build diaIdx (fun _ => true) diaText).isSome = true := by decide +kernel
    rw [h] at this
    cases this

private theorem knows : KnowsTree pr ix :=
  ⟨diaIdx, fun _ => true, [.app, .app2], _, _, diaText, st, LibTree.dia_acyclic, LibTree.dia_known,
    (by intro p q h; cases p <;> cases q <;> first | rfl | exact absurd h (by decide)),
    LibTree.dia_listing, LibTree.dia_printed, by decide, built, rfl, rfl⟩

private def cfg : Config.Raw := { apis := [(str! "fs", { incl := [str! "left::fs", str! "my_base::fs"] })] }
private def state : State :=
  { updateConfig { idx := ix } cfg with
    paths := [(pathOf (str! "/w/app2/t.rs"), [dia.id .app2]), (pathOf (str! "/base/lib.rs"), [dia.id .base])] }
private theorem run : CRun ix state [.loaded cfg] := .other _ _ (.load cfg (by simp [AMap.keys, cfg]) .init)
private theorem apis : (AMap.keys state.cfg.apis).Nodup := by simp [state, cfg, updateConfig, AMap.keys]

/-- A function of `my-base` or of the tests of `app-2` that refers to a function. -/
private def bin (file : Str) (ns : List Str) (kind : CrateKind) : Bin where
  path := str! "/bin"
  crate := ⟨dia.id .app2, kind⟩
  symbols := []
  debug := []
  inlined := [⟨8, 4, ⟨some (str! "f"), none⟩, ⟨none, some ⟨ns, str! "read"⟩⟩, some ⟨file, 3, none⟩⟩]
  frame _ := some (none, none)
private def use (file : Str) (ns : List Str) (s : Scope) : ApiUsage :=
  { address := 8, symbolStart := 4, binPath := str! "/bin", scope := s, loc := ⟨file, 3, none⟩, outer := none,
    from_ := .symbol (str! "f"), to := .debugName ns (str! "read"), toName := ns ++ [str! "read"], toSource := .debugName ns (str! "read") }

private theorem testUses : Scanned ix state [.loaded cfg] (bin (str! "/w/app2/t.rs") [str! "left", str! "fs"] .test) []
    [.offTreeApiUsage { pkg := dia.id .app2, scope := .test, api := str! "fs", usages := [use (str! "/w/app2/t.rs") [str! "left", str! "fs"] .test] }
      (dia.id .left)] :=
  scanned run apis (by decide +kernel)

private theorem baseUses : Scanned ix state [.loaded cfg] (bin (str! "/base/lib.rs") [str! "my_base", str! "fs"] .primary) []
    [.offTreeApiUsage { pkg := dia.id .base, scope := .all, api := str! "fs", usages := [use (str! "/base/lib.rs") [str! "my_base", str! "fs"] .all] }
      (dia.id .base)] :=
  scanned run apis (by decide +kernel)

/-- **C161, disagreement.** The tests of `app-2` use an API of `left`, on which they depend. Since `cargo tree` is run for normal dependencies
only, the report calls `left` a non-dependency of `app-2`. -/
theorem C161_dev_dependency : ¬ C161_Claim := by
  intro h
  exact h Dia pr ix state _ _ _ _ knows testUses _ _ (List.mem_singleton.mpr rfl) .app2 .left rfl rfl
    ⟨.left, .inr (.inl (by simp [pr])), .inl rfl⟩

/-- **C161, disagreement.** A package whose name has a hyphen calls a function of its own that is part of an API: the report says that it uses the
API from non-dependency `my-base`, which is the package itself. -/
theorem C161_own_code : ¬ C161_OtherClaim := by
  intro h
  exact h Dia pr ix state _ _ _ _ knows baseUses _ _ (List.mem_singleton.mpr rfl) rfl

/-! The hypotheses of the partial theorems are met by these reports. -/
example := C161_not_normal_partial pr ix state _ _ _ _ knows testUses _ _ (List.mem_singleton.mpr rfl) .app2 .left rfl rfl

private theorem agrees (file : Str) (ns : List Str) (kind : CrateKind) : ∀ f ∈ (bin file ns kind).inlined,
    Agrees (bin file ns kind) f.from_ ∧ Agrees (bin file ns kind) f.to := by
  intro f hf
  cases List.mem_singleton.mp hf
  constructor
  · intro s info _ hd; cases hd
  · intro s info _ hd; cases hd

example : dia.crateName .base ≠ (dia.id .base).name :=
  C161_itself_partial pr ix state _ _ _ _ knows baseUses (agrees _ _ _) _ (List.mem_singleton.mpr rfl) .base rfl

end Cackle.Graph
