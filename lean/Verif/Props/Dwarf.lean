import Verif.Lemmas.Dwarf

/-!
# C44, C82, C83, C84: what is learnt from debug information
-/

namespace Cackle.Dwarf
open Cackle Graph

/-! ## Examples -/

/-- The root of a unit. -/
def cu : Entry := ⟨.other, [], true⟩

/-- A function with a name. -/
def fn (n : Str) (children : Bool := false) : Entry := ⟨.subprogram, [.name n], children⟩

/-- A namespace. -/
def nsp (n : Str) : Entry := ⟨.namespace_, [.name n], true⟩

theorem plain_cu : Plain [cu] := by
  intro a ha
  rw [List.mem_singleton.mp ha]
  exact ⟨by decide, by decide⟩

theorem own_fn {anc n b ns} (h : Scopes anc ns) : Own anc (fn n b) ⟨none, some ⟨ns, n⟩⟩ where
  symbol := .inr ⟨by intro m; simp [fn], rfl⟩
  debug := .inl ⟨n, ns, ⟨[], [], rfl, by simp⟩, h, rfl⟩

/-! ## C44: namespaces -/

/-- **C44** (functions of a unit): the namespace computed for a function is the sequence of the names of the
namespaces and types around it, if none of them is an enumeration or a union. -/
theorem C44_functions_partial {u : DUnit} {f : Forest} {anc : List Entry} {o : Nat} {e : Entry} {ns : List Str}
    (h : Encodes u f) (hi : Inside [] f anc o e) (ht : e.tag = .subprogram) (hs : Scopes anc ns) (hp : Plain anc) :
    ((namespaces u).get? o).getD [] = ns := by
  rw [namespaces_get h hi ht]
  exact scopes_top hs hp

/-- **C44** in full: every reference, whether to the same unit or to another one, is resolved to the names of the
function that it leads to, with the namespace in which that function is. -/
def C44_Claim : Prop :=
  ∀ (w : World) (p : DUnit × Forest) (r : Ref) (x : SymName), w.Ok → p ∈ w → Resolves w 10 p r x →
    refNames (w.map Prod.fst) p.1 (namespaces p.1) 10 r = .ok x

/-- `a::f` in one unit. -/
def unitA : DUnit × Forest :=
  (⟨0, [], [(1, some cu), (2, some (nsp (str! "a"))), (3, some (fn (str! "f"))), (4, none), (5, none)]⟩,
    .node 1 cu (.node 2 (nsp (str! "a")) (.node 3 (fn (str! "f")) .nil 0 .nil) 4 .nil) 5 .nil)

/-- `b::g` in another unit, at the same place in it. -/
def unitB : DUnit × Forest :=
  (⟨100, [], [(1, some cu), (2, some (nsp (str! "b"))), (3, some (fn (str! "g"))), (4, none), (5, none)]⟩,
    .node 1 cu (.node 2 (nsp (str! "b")) (.node 3 (fn (str! "g")) .nil 0 .nil) 4 .nil) 5 .nil)

theorem encodesA : Encodes unitA.1 unitA.2 where
  items := ⟨[], rfl⟩
  ok := by simp [unitA, Forest.Ok, cu, nsp, fn]
  offsets := by decide

theorem encodesB : Encodes unitB.1 unitB.2 where
  items := ⟨[], rfl⟩
  ok := by simp [unitB, Forest.Ok, cu, nsp, fn]
  offsets := by decide

theorem okAB : World.Ok [unitA, unitB] := by
  refine ⟨fun p hp => ?_, ?_⟩
  · rcases List.mem_cons.mp hp with rfl | hp
    · exact encodesA
    · rw [List.mem_singleton.mp hp]; exact encodesB
  · simp only [World.Ordered, List.mem_singleton, forall_eq, List.not_mem_nil, false_implies, implies_true, and_true, true_and]
    refine ⟨?_, ?_, ?_, ?_⟩ <;> decide

theorem scopesA : Scopes [nsp (str! "a"), cu] [str! "a"] :=
  .scope (ns := []) (.inl rfl) ⟨[], [], rfl, by simp⟩ (.stop (.inl (by unfold IsScope cu; decide)))

theorem resolvesA : Resolves [unitA, unitB] 10 unitB (.info 3) ⟨none, some ⟨[str! "a"], str! "f"⟩⟩ :=
  .own (.info (q := unitA) (o := 3) List.mem_cons_self) (.child (.child .here)) rfl (by simp [fn]) (own_fn scopesA)

/-- The code does not do this: for a reference to a function of another unit it takes the namespace of whatever is at
the same offset of the unit it is in. Here `a::f` becomes `b::f`. -/
theorem C44_fails : ¬ C44_Claim := by
  intro h
  have h1 := h [unitA, unitB] unitB (.info 3) _ okAB (by simp) resolvesA
  have h2 : refNames ([unitA, unitB].map Prod.fst) unitB.1 (namespaces unitB.1) 10 (.info 3) =
      .ok ⟨none, some ⟨[str! "b"], str! "f"⟩⟩ := by decide +kernel
  rw [h2] at h1
  exact absurd h1 (by decide)

/-- A function in an enumeration type: `a::E::f`. -/
def unitE : DUnit × Forest :=
  (⟨0, [], [(1, some (nsp (str! "a"))), (2, some ⟨.enumeration, [.name (str! "E")], true⟩), (3, some (fn (str! "f"))),
      (4, none), (5, none)]⟩,
    .node 1 (nsp (str! "a")) (.node 2 ⟨.enumeration, [.name (str! "E")], true⟩ (.node 3 (fn (str! "f")) .nil 0 .nil) 4 .nil)
      5 .nil)

/-- Functions of enumeration types lose their namespace altogether. -/
theorem C44_enumeration : ∃ (u : DUnit) (f : Forest) (anc : List Entry) (o : Nat) (e : Entry) (ns : List Str),
    Encodes u f ∧ Inside [] f anc o e ∧ e.tag = .subprogram ∧ Scopes anc ns ∧ ns ≠ [] ∧ (namespaces u).get? o = none := by
  refine ⟨unitE.1, unitE.2, [⟨.enumeration, [.name (str! "E")], true⟩, nsp (str! "a")], 3, fn (str! "f"),
    [str! "a", str! "E"], ⟨⟨[], rfl⟩, by simp [unitE, Forest.Ok, nsp, fn], by decide⟩, .child (.child .here), rfl,
    .scope (ns := [str! "a"]) (.inr (.inr (.inl rfl))) ⟨[], [], rfl, by simp⟩
      (.scope (ns := []) (.inl rfl) ⟨[], [], rfl, by simp⟩ .top), by simp, by decide +kernel⟩

/-- **C44** for references: within a unit that does not refer to other units and has no functions in enumeration or
union types, every reference is resolved to the names of the function it leads to, with its namespace. Missing:
references to other units, and enumeration and union types (`C44_fails`, `C44_enumeration`). -/
theorem C44_references_partial {w : World} {us : List DUnit} {p : DUnit × Forest} {r : Ref} {x : SymName}
    (hw : ∀ p ∈ w, Encodes p.1 p.2) (hp : p ∈ w) (hl : SelfContained p.2) (hr : ∃ o, r = .unit o)
    (h : Resolves w 10 p r x) : refNames us p.1 (namespaces p.1) 10 r = .ok x :=
  refNames_local hw h hp hl hr

/-- **C44** for references to any unit: the reference is followed to the right entry. The symbol and the name are
those of that entry; only the namespace is another one. -/
theorem C44_any_unit {w : World} {p q : DUnit × Forest} {r : Ref} {anc : List Entry} {o : Nat} {e : Entry} (hw : w.Ok)
    (hr : Refers w p r q o) (hq : q ∈ w) (hi : Inside [] q.2 anc o e) (hs : ∀ r, .spec r ∉ e.attrs) :
    ∃ x, refNames (w.map Prod.fst) p.1 (namespaces p.1) 10 r = .ok x ∧
      (∀ s, HasLinkage e s → x.symbol = some s) ∧ (NoLinkage e → x.symbol = none) ∧
      (∀ n, HasName e n → ∃ ns, x.debug = some ⟨ns, n⟩) ∧ (NoName e → x.debug = none) := by
  refine ⟨ownNames (((namespaces p.1).get? o).getD []) e.attrs, ?_, ?_, ?_, ?_, ?_⟩
  · rw [refNames_eq (locate_refers hw hr hq hi) (entryAt_inside (hw.1 q hq) hi), specRef_none hs]
  · intro s h; rw [ownNames_eq, linkageAttr_some h]
  · intro h; rw [ownNames_eq]; exact linkageAttr_none.mpr h
  · intro n h; exact ⟨_, by rw [ownNames_eq, nameAttr_some h]; rfl⟩
  · intro h; rw [ownNames_eq, nameAttr_none.mpr h]; rfl

theorem insideA {anc o e} (h : Inside [] unitA.2 anc o e) :
    (anc = [] ∧ e = cu) ∨ (anc = [cu] ∧ e = nsp (str! "a")) ∨ (anc = [nsp (str! "a"), cu] ∧ e = fn (str! "f")) := by
  cases h with
  | here => exact .inl ⟨rfl, rfl⟩
  | next h => cases h
  | child h =>
    cases h with
    | here => exact .inr (.inl ⟨rfl, rfl⟩)
    | next h => cases h
    | child h =>
      cases h with
      | here => exact .inr (.inr ⟨rfl, rfl⟩)
      | next h => cases h
      | child h => cases h

theorem selfContainedA : SelfContained unitA.2 := by
  refine ⟨fun anc o e r h hr => ?_, fun anc o e h _ => ?_⟩
  · rcases insideA h with ⟨_, rfl⟩ | ⟨_, rfl⟩ | ⟨_, rfl⟩ <;> simp [cu, nsp, fn] at hr
  · rcases insideA h with ⟨rfl, _⟩ | ⟨rfl, _⟩ | ⟨rfl, _⟩ <;> intro a ha <;> simp at ha
    · rw [ha]; decide
    · rcases ha with rfl | rfl <;> decide

example : ((namespaces unitA.1).get? 3).getD [] = [str! "a"] :=
  C44_functions_partial encodesA (.child (.child .here)) rfl scopesA (by
    intro a ha; simp at ha; rcases ha with rfl | rfl <;> decide)

example : refNames [] unitA.1 (namespaces unitA.1) 10 (.unit 3) = .ok ⟨none, some ⟨[str! "a"], str! "f"⟩⟩ :=
  C44_references_partial (w := [unitA]) (by intro p hp; rw [List.mem_singleton.mp hp]; exact encodesA) (by simp)
    selfContainedA ⟨_, rfl⟩ (.own .unit (.child (.child .here)) rfl (by simp [fn]) (own_fn scopesA))

example : ∃ x, refNames ([unitA, unitB].map Prod.fst) unitB.1 (namespaces unitB.1) 10 (.info 3) = .ok x ∧
    ∃ ns, x.debug = some ⟨ns, str! "f"⟩ := by
  obtain ⟨x, h1, _, _, h2, _⟩ := C44_any_unit (p := unitB) okAB (.info (q := unitA) (o := 3) List.mem_cons_self) (by simp)
    (.child (.child .here)) (by simp [fn])
  exact ⟨x, h1, h2 _ ⟨[], [], rfl, by simp⟩⟩

/-! ## C82: inlined functions -/

/-- **C82** in full: for every inlined function with code there is a report with its address, its names, the nearest
enclosing function that has a name and is not looked through, and the place of the call. -/
def C82_Claim : Prop :=
  ∀ (w : World) (isStd : Str → Bool) (st : Scan), w.Ok → scan (w.map Prod.fst) isStd = .ok st →
    ∀ p ∈ w, isStd p.1.compDir = false → ∀ anc o e pc x y c, Inside [] p.2 anc o e → e.tag = .inlined →
      LastOf address e.attrs (some pc) → 1 < pc → EntryNames w p anc e x → Named x → CalledBy w p e anc y c →
      ∃ i ∈ st.inlined, i.address = pc ∧ i.to = x ∧ i.from_ = y ∧ CallPlace p.1.compDir c i.loc

/-- A function whose code begins at 90. -/
def mainFn : Entry := ⟨.subprogram, [.name (str! "main"), .lowPc (some 90)], true⟩

theorem own_main {anc ns} (h : Scopes anc ns) : Own anc mainFn ⟨none, some ⟨ns, str! "main"⟩⟩ where
  symbol := .inr ⟨by intro m; simp [mainFn], rfl⟩
  debug := .inl ⟨_, ns, ⟨[], [.lowPc (some 90)], rfl, by simp⟩, h, rfl⟩

/-- `api` is inlined into `main`; `attrs` says where its code is. -/
def unitI (attrs : List Attr) : DUnit × Forest :=
  (⟨0, [], [(1, some cu), (2, some (fn (str! "api"))), (3, some (mainFn)),
      (4, some ⟨.inlined, .origin (.unit 2) :: attrs, false⟩), (5, none), (6, none)]⟩,
    .node 1 cu (.node 2 (fn (str! "api")) .nil 0 (.node 3 (mainFn)
      (.node 4 ⟨.inlined, .origin (.unit 2) :: attrs, false⟩ .nil 0 .nil) 5 .nil)) 6 .nil)

theorem encodesI (attrs : List Attr) : Encodes (unitI attrs).1 (unitI attrs).2 where
  items := ⟨[], by simp [unitI, Forest.flatten, cu, fn, mainFn]⟩
  ok := by simp [unitI, Forest.Ok, cu, fn, mainFn]
  offsets := by simp [unitI]

theorem okI (attrs : List Attr) : World.Ok [unitI attrs] := by
  refine ⟨fun p hp => ?_, ?_⟩
  · rw [List.mem_singleton.mp hp]; exact encodesI attrs
  · simp [World.Ordered, unitI]

theorem scopes_cu : Scopes [cu] [] := .stop (.inl (by unfold IsScope cu; decide))

theorem namesI (attrs : List Attr) : EntryNames [unitI attrs] (unitI attrs) [mainFn, cu]
    ⟨.inlined, .origin (.unit 2) :: attrs, false⟩ ⟨none, some ⟨[], str! "api"⟩⟩ :=
  .origin (.inr (.inl rfl)) List.mem_cons_self
    (.own .unit (.child .here) rfl (by simp [fn]) (own_fn scopes_cu))

theorem calledI (attrs : List Attr) : CalledBy [unitI attrs] (unitI attrs) ⟨.inlined, .origin (.unit 2) :: attrs, false⟩
    [mainFn, cu] ⟨none, some ⟨[], str! "main"⟩⟩ ⟨.inlined, .origin (.unit 2) :: attrs, false⟩ :=
  .found (.own (.inl rfl) (by simp [mainFn]) (by simp [mainFn]) (own_main scopes_cu)) (.inr rfl) (fun s h => by cases h)

/-- The code does not do this: an inlined function whose code is in several pieces (`DW_AT_ranges`) is not reported. -/
theorem C82_fails : ¬ C82_Claim := by
  intro h
  have h1 : scan ([unitI [.ranges (some 100)]].map Prod.fst) (fun _ => false) = .ok {} := rfl
  obtain ⟨i, hi, _⟩ := h _ (fun _ => false) _ (okI _) h1 _ List.mem_cons_self rfl _ 4 _ 100 _ _ _
    (.child (.next (.child .here))) rfl
    (.inr ⟨[.origin (.unit 2)], .ranges (some 100), [], rfl, rfl, by simp⟩) (by decide) (namesI _) (.inr rfl) (calledI _)
  cases hi

/-- `api` is inlined into a function that is declared at 3 and defined at 4. -/
def unitS : DUnit × Forest :=
  (⟨0, [], [(1, some cu), (2, some (fn (str! "api"))), (3, some (fn (str! "method"))),
      (4, some ⟨.subprogram, [.spec (.unit 3), .lowPc (some 90)], true⟩),
      (5, some ⟨.inlined, [.origin (.unit 2), .lowPc (some 100)], false⟩), (6, none), (7, none)]⟩,
    .node 1 cu (.node 2 (fn (str! "api")) .nil 0 (.node 3 (fn (str! "method")) .nil 0
      (.node 4 ⟨.subprogram, [.spec (.unit 3), .lowPc (some 90)], true⟩
        (.node 5 ⟨.inlined, [.origin (.unit 2), .lowPc (some 100)], false⟩ .nil 0 .nil) 6 .nil))) 7 .nil)

theorem okS : World.Ok [unitS] := by
  refine ⟨fun p hp => ?_, ?_⟩
  · rw [List.mem_singleton.mp hp]
    exact ⟨⟨[], rfl⟩, by simp [unitS, Forest.Ok, cu, fn], by decide⟩
  · simp [World.Ordered, unitS]

/-- Nor is a function reported that is inlined into one whose definition is apart from its declaration
(`DW_AT_specification`), as methods are. -/
theorem C82_specification : ∃ (w : World) (st : Scan) (p : DUnit × Forest) (anc : List Entry) (o : Nat) (e c : Entry)
    (pc : Nat) (x y : SymName), w.Ok ∧ scan (w.map Prod.fst) (fun _ => false) = .ok st ∧ p ∈ w ∧ Inside [] p.2 anc o e ∧
      e.tag = .inlined ∧ .lowPc (some pc) ∈ e.attrs ∧ 1 < pc ∧ EntryNames w p anc e x ∧ Named x ∧ CalledBy w p e anc y c ∧
      Named y ∧ st.inlined = [] :=
  ⟨[unitS], {}, unitS, [⟨.subprogram, [.spec (.unit 3), .lowPc (some 90)], true⟩, cu], 5,
    ⟨.inlined, [.origin (.unit 2), .lowPc (some 100)], false⟩, ⟨.inlined, [.origin (.unit 2), .lowPc (some 100)], false⟩, 100,
    ⟨none, some ⟨[], str! "api"⟩⟩, ⟨none, some ⟨[], str! "method"⟩⟩, okS, rfl, by simp,
    .child (.next (.next (.child .here))), rfl, by simp, by decide,
    .origin (.inr (.inl rfl)) List.mem_cons_self
      (.own .unit (.child .here) rfl (by simp [fn]) (own_fn scopes_cu)),
    .inr rfl,
    .found (.spec (.inl rfl) List.mem_cons_self
      (.own .unit (.child (.next .here)) rfl (by simp [fn]) (own_fn scopes_cu))) (.inr rfl) (fun s h => by cases h),
    .inr rfl, rfl⟩

/-- **C82** as far as it holds: an inlined function whose code has a low end is reported, if its unit is self-contained
and neither it nor what encloses it is the definition of something declared elsewhere. Missing: code in several pieces,
definitions apart from their declarations, and references to other units. -/
theorem C82_partial {w : World} {isStd : Str → Bool} {st : Scan} (hw : w.Ok) (hs : scan (w.map Prod.fst) isStd = .ok st)
    {p : DUnit × Forest} (hp : p ∈ w) (hstd : isStd p.1.compDir = false) (hl : SelfContained p.2) {anc : List Entry} {o : Nat}
    {e : Entry} (hi : Inside [] p.2 anc o e) (hc : IsCode e) (hcl : ∀ a ∈ e :: anc, IsCode a → Clean a) {pc low : Nat}
    (hpc : LastOf address e.attrs (some pc)) (hlow : .lowPc (some low) ∈ e.attrs) (h1 : 1 < pc) {x y : SymName} {c : Entry}
    (hx : EntryNames w p anc e x) (hn : Named x) (hy : CalledBy w p e anc y c) :
    ∃ i ∈ st.inlined, i.address = pc ∧ i.to = x ∧ i.from_ = y ∧ CallPlace p.1.compDir c i.loc := by
  obtain ⟨_, _, hall, _, _⟩ := scan_ok w {} st hw.1 hs
  obtain ⟨fs, hf, h⟩ := hall p hp hstd anc o e hi
  obtain ⟨s, inl, info, ha, hin, _⟩ := h ((scanned_iff e).mpr hc)
  have hnames := scanner_names hw.1 hp hl hi hf ha.attrs hc (hcl e List.mem_cons_self hc) hx
  have haddr := lastOf_unique (lastOf_loop (g := Scanner.lowPc) handle_address rfl ha.attrs) hpc
  have hstart := start_some (a := low) e.attrs {} s ha.attrs (.inr hlow)
  obtain ⟨start, hstart⟩ := Option.isSome_iff_exists.mp hstart
  obtain ⟨call, hcall, hplace⟩ := caller_of hw.1 hp hl hy o e fs s.call hi hf
    (fun a ha => hcl a (List.mem_cons_of_mem _ ha)) (callPlace_of ha.attrs _)
  have := ha.inlined
  rw [inlined_of (by rw [hnames]; exact hn) haddr hstart h1 hcall] at this
  cases this
  exact ⟨_, hin _ rfl, rfl, hnames, rfl, hplace⟩

/-- **C82**, the other direction: what is reported is there. Every report is about a piece of code in a unit that is not
the standard library's, with its address, its names and its caller, if the units are self-contained, no entry is the
definition of something declared elsewhere, and all references lead to functions. -/
theorem C82_sound_partial {w : World} {isStd : Str → Bool} {st : Scan} (hw : w.Ok) (hs : scan (w.map Prod.fst) isStd = .ok st)
    (hl : ∀ p ∈ w, SelfContained p.2) (hcl : ∀ p ∈ w, ∀ anc o e, Inside [] p.2 anc o e → IsCode e → Clean e)
    (hres : ∀ p ∈ w, ∀ anc o e, Inside [] p.2 anc o e → ∃ x, EntryNames w p anc e x) {i : Inlined} (hi : i ∈ st.inlined) :
    ∃ p ∈ w, isStd p.1.compDir = false ∧ ∃ anc o e c, Inside [] p.2 anc o e ∧ IsCode e ∧
      LastOf address e.attrs (some i.address) ∧ 1 < i.address ∧ EntryNames w p anc e i.to ∧ Named i.to ∧
      CalledBy w p e anc i.from_ c ∧ CallPlace p.1.compDir c i.loc := by
  obtain ⟨_, _, _, hsound, _⟩ := scan_ok w {} st hw.1 hs
  rcases hsound i hi with h | ⟨p, hp, hstd, anc, o, e, fs, s, info, hin, hf, ha⟩
  · cases h
  · obtain ⟨g1, g2, _, g4, g5, call, g6, g7⟩ := inlined_some ha.inlined
    have hc := (scanned_iff e).mp ha.tag
    obtain ⟨x, hx⟩ := hres p hp anc o e hin
    have hnames := scanner_names hw.1 hp (hl p hp) hin hf ha.attrs hc (hcl p hp anc o e hin hc) hx
    obtain ⟨c, hc1, hc2⟩ := caller_sound hw.1 hp (hl p hp) (hcl p hp) (hres p hp) hf e o e s.call hin
      (callPlace_of ha.attrs _) g6
    refine ⟨p, hp, hstd, anc, o, e, c, hin, hc, ?_, g4, ?_, ?_, hc1, by rw [g7]; exact hc2⟩
    · rw [← g2]; exact lastOf_loop (g := Scanner.lowPc) handle_address rfl ha.attrs
    · rw [g5, hnames]; exact hx
    · rw [g5]; exact g1

theorem insideI {attrs anc o e} (h : Inside [] (unitI attrs).2 anc o e) :
    (anc = [] ∧ e = cu) ∨ (anc = [cu] ∧ (e = fn (str! "api") ∨ e = mainFn)) ∨
      (anc = [mainFn, cu] ∧ e = ⟨.inlined, .origin (.unit 2) :: attrs, false⟩) := by
  cases h with
  | here => exact .inl ⟨rfl, rfl⟩
  | next h => cases h
  | child h =>
    cases h with
    | here => exact .inr (.inl ⟨rfl, .inl rfl⟩)
    | child h => cases h
    | next h =>
      cases h with
      | here => exact .inr (.inl ⟨rfl, .inr rfl⟩)
      | next h => cases h
      | child h =>
        cases h with
        | here => exact .inr (.inr ⟨rfl, rfl⟩)
        | next h => cases h
        | child h => cases h

theorem selfContainedI : SelfContained (unitI [.lowPc (some 100), .callLine (some 7)]).2 := by
  refine ⟨fun anc o e r h hr => ?_, fun anc o e h _ => ?_⟩
  · rcases insideI h with ⟨_, rfl⟩ | ⟨_, rfl | rfl⟩ | ⟨_, rfl⟩ <;> simp [cu, fn, mainFn] at hr
    exact ⟨2, hr⟩
  · rcases insideI h with ⟨rfl, _⟩ | ⟨rfl, _⟩ | ⟨rfl, _⟩ <;> intro a ha <;> simp at ha
    · rw [ha]; decide
    · rcases ha with rfl | rfl <;> decide

theorem cleanI {anc o e} (h : Inside [] (unitI [.lowPc (some 100), .callLine (some 7)]).2 anc o e) : Clean e := by
  rcases insideI h with ⟨_, rfl⟩ | ⟨_, rfl | rfl⟩ | ⟨_, rfl⟩
  · exact ⟨by simp [cu], .inl (by simp [cu])⟩
  · exact ⟨by simp [fn], .inl (by simp [fn])⟩
  · exact ⟨by simp [mainFn], .inl (by simp [mainFn])⟩
  · exact ⟨by simp, .inr ⟨by intro m; simp, by intro m; simp, [], .unit 2, _, rfl, by simp, by simp⟩⟩

/-- The scan of the example. -/
def scanI : Scan := ⟨[], [⟨100, 100, ⟨none, some ⟨[], str! "main"⟩⟩, ⟨none, some ⟨[], str! "api"⟩⟩, some ⟨[], 7, none⟩⟩], []⟩

example : ∃ i ∈ scanI.inlined, i.address = 100 ∧ i.to = ⟨none, some ⟨[], str! "api"⟩⟩ ∧
    i.from_ = ⟨none, some ⟨[], str! "main"⟩⟩ ∧
    CallPlace [] ⟨.inlined, [.origin (.unit 2), .lowPc (some 100), .callLine (some 7)], false⟩ i.loc :=
  C82_partial (isStd := fun _ => false) (okI _) (st := scanI) rfl List.mem_cons_self rfl selfContainedI
    (.child (.next (.child .here))) (.inr (.inl rfl)) (by
      intro a ha hc
      simp only [List.mem_cons, List.not_mem_nil, or_false] at ha
      rcases ha with rfl | rfl | rfl
      · exact cleanI (.child (.next (.child .here)))
      · exact cleanI (.child (.next .here))
      · exact cleanI .here)
    (.inr ⟨[.origin (.unit 2)], .lowPc (some 100), [.callLine (some 7)], rfl, rfl, by simp [address]⟩) (low := 100) (by simp) (by decide)
    (namesI _) (.inr rfl) (calledI _)

/-- The hypotheses of `C82_sound_partial` hold for the example. -/
example : (∃ i, i ∈ scanI.inlined) ∧ scan ([unitI [.lowPc (some 100), .callLine (some 7)]].map Prod.fst) (fun _ => false) =
      .ok scanI ∧
    (∀ p ∈ [unitI [.lowPc (some 100), .callLine (some 7)]], SelfContained p.2 ∧
      (∀ anc o e, Inside [] p.2 anc o e → IsCode e → Clean e) ∧
      ∀ anc o e, Inside [] p.2 anc o e →
        ∃ x, EntryNames [unitI [.lowPc (some 100), .callLine (some 7)]] p anc e x) := by
  refine ⟨⟨_, List.mem_cons_self⟩, rfl, fun p hp => ?_⟩
  rw [List.mem_singleton.mp hp]
  refine ⟨selfContainedI, fun anc o e h _ => cleanI h, fun anc o e h => ?_⟩
  rcases insideI h with ⟨rfl, rfl⟩ | ⟨rfl, rfl | rfl⟩ | ⟨rfl, rfl⟩
  · exact ⟨_, .none (by unfold IsCode cu; decide)⟩
  · exact ⟨_, .own (.inl rfl) (by simp [fn]) (by simp [fn]) (own_fn scopes_cu)⟩
  · exact ⟨_, .own (.inl rfl) (by simp [mainFn]) (by simp [mainFn]) (own_main scopes_cu)⟩
  · exact ⟨_, namesI _⟩

/-! ## C83: the symbol that an inlined function is in -/

/-- `a` is the low end of the nearest enclosing function that is not inlined. -/
inductive SymbolStart : List Entry → Nat → Prop where
  | here {e anc a} : e.tag = .subprogram → .lowPc (some a) ∈ e.attrs → SymbolStart (e :: anc) a
  | up {e anc a} : e.tag ≠ .subprogram → SymbolStart anc a → SymbolStart (e :: anc) a

/-- **C83** in full: with the report of an inlined function goes the start of the symbol that its code is in, from
which the backtrace goes on. -/
def C83_Claim : Prop :=
  ∀ (w : World) (isStd : Str → Bool) (st : Scan), w.Ok → scan (w.map Prod.fst) isStd = .ok st → ∀ i ∈ st.inlined,
    ∃ p ∈ w, ∃ anc o e, Inside [] p.2 anc o e ∧ LastOf address e.attrs (some i.address) ∧
      ∀ a, SymbolStart anc a → i.symbolStart = a

/-- The code does not do this: with each report goes a low end of the inlined code itself. -/
theorem C83_own_start {w : World} {isStd : Str → Bool} {st : Scan} (hw : w.Ok) (hs : scan (w.map Prod.fst) isStd = .ok st)
    {i : Inlined} (hi : i ∈ st.inlined) : ∃ p ∈ w, ∃ anc o e, Inside [] p.2 anc o e ∧ IsCode e ∧
      LastOf address e.attrs (some i.address) ∧ .lowPc (some i.symbolStart) ∈ e.attrs := by
  obtain ⟨_, _, _, hsound, _⟩ := scan_ok w {} st hw.1 hs
  rcases hsound i hi with h | ⟨p, hp, _, anc, o, e, fs, s, info, hin, _, ha⟩
  · cases h
  · obtain ⟨_, g2, g3, _⟩ := inlined_some ha.inlined
    refine ⟨p, hp, anc, o, e, hin, (scanned_iff e).mp ha.tag, ?_, start_mem ha.attrs g3⟩
    rw [← g2]
    exact lastOf_loop (g := Scanner.lowPc) handle_address rfl ha.attrs

/-- The start of `main` is 90; 100 is recorded. -/
theorem C83_fails : ¬ C83_Claim := by
  intro h
  obtain ⟨p, hp, anc, o, e, h1, h2, h3⟩ := h _ (fun _ => false) scanI (okI [.lowPc (some 100), .callLine (some 7)]) rfl _
    List.mem_cons_self
  rw [List.mem_singleton.mp hp] at h1
  rcases insideI h1 with ⟨rfl, rfl⟩ | ⟨rfl, rfl | rfl⟩ | ⟨rfl, rfl⟩
  · exact absurd (lastOf_unique h2 (.inl ⟨rfl, by simp [cu]⟩)) (by decide)
  · exact absurd (lastOf_unique h2 (.inl ⟨rfl, by simp [fn, address]⟩)) (by decide)
  · exact absurd (lastOf_unique h2 (.inr ⟨[.name (str! "main")], .lowPc (some 90), [], rfl, rfl, by simp⟩)) (by decide)
  · exact absurd (h3 90 (.here rfl (by simp [mainFn]))) (by decide)

example : ∃ p ∈ [unitI [.lowPc (some 100), .callLine (some 7)]], ∃ anc o e, Inside [] p.2 anc o e ∧ IsCode e ∧
    LastOf address e.attrs (some 100) ∧ .lowPc (some 100) ∈ e.attrs :=
  C83_own_start (isStd := fun _ => false) (st := scanI) (okI _) rfl List.mem_cons_self

/-! ## C84: declarations of symbols -/

/-- **C84**, what is recorded: the name and place recorded for a symbol are those of a declaration of the symbol in a
unit that is not the standard library's (for functions and variables that are not in an enumeration or a union). -/
theorem C84_recorded_partial {w : World} {isStd : Str → Bool} {st : Scan} (hw : w.Ok) (hs : scan (w.map Prod.fst) isStd = .ok st)
    (hl : ∀ p ∈ w, ∀ anc o e, Inside [] p.2 anc o e → IsCode e → Plain anc) {sym : Str} {info : DebugInfo}
    (h : st.symbolDebugInfo.get? sym = some info) :
    ∃ p ∈ w, isStd p.1.compDir = false ∧ ∃ anc o e, Inside [] p.2 anc o e ∧ Declares p.1.compDir anc e sym info := by
  obtain ⟨_, _, _, _, hsound⟩ := scan_ok w {} st hw.1 hs
  rcases (get_debugs st.debug [] sym).1 info h with h | h
  · rcases hsound _ h with h | ⟨p, hp, hstd, anc, o, e, fs, s, inl, hin, hf, ha⟩
    · cases h
    · have := ha.info
      split at this
      · rename_i ht
        exact ⟨p, hp, hstd, anc, o, e, hin, (info_iff ht hf (hl p hp anc o e hin ((scanned_iff e).mp ha.tag))).mp this⟩
      · cases this
  · cases h

/-- A declaration with its place and its own name; nothing is said about the namespace. -/
def DeclaresAt (dir : Str) (e : Entry) (symbol : Str) (info : DebugInfo) : Prop :=
  (e.tag = .subprogram ∨ e.tag = .variable) ∧ (HasLinkage e symbol ∨ (NoLinkage e ∧ HasName e symbol)) ∧
    (∃ d n line column, LastOf declFile e.attrs (some (some (d, n))) ∧ LastOf declLine e.attrs (some line) ∧
      LastOf declColumn e.attrs column ∧
      info.loc = ⟨under (match d with | none => dir | some d => under dir d) n, line, column⟩) ∧
    ((∃ n ns, HasName e n ∧ info.name = some ⟨ns, n⟩) ∨ (NoName e ∧ info.name = none))

theorem info_at {dir : Str} {fs : List Frame} {e : Entry} {sym : Str} (ht : e.tag = .subprogram ∨ e.tag = .variable) :
    (∀ info, (e.attrs.foldl SymScanner.handle {}).info dir fs = .ok (some (sym, info)) → DeclaresAt dir e sym info) ∧
    ((∃ info, DeclaresAt dir e sym info) →
      ∃ info, (e.attrs.foldl SymScanner.handle {}).info dir fs = .ok (some (sym, info))) := by
  have hl := sym_line e.attrs
  have hc := sym_column e.attrs
  have hfl := sym_file e.attrs
  have hn := sym_name e.attrs
  have hk := sym_linkage e.attrs
  generalize e.attrs.foldl SymScanner.handle {} = s at hl hc hfl hn hk
  obtain ⟨name, linkage, line, column, file⟩ := s
  simp only at hl hc hfl hn hk
  constructor
  · intro info h
    unfold SymScanner.info at h
    simp only at h
    cases hsym : linkage.or name with
    | none => rw [hsym] at h; cases h
    | some sy =>
      cases line with
      | none => rw [hsym] at h; cases h
      | some line =>
        cases file with
        | none => rw [hsym] at h; cases h
        | some file =>
          cases file with
          | none => rw [hsym] at h; cases h
          | some f =>
            rw [hsym] at h
            cases h
            refine ⟨ht, ?_, ⟨f.1, f.2, line, column, hfl, hl, hc, ?_⟩, ?_⟩
            · cases hlk : linkage with
              | some l =>
                rw [hlk] at hsym
                cases hsym
                exact .inl (hasLinkage_of (by rw [← hk, hlk]))
              | none =>
                rw [hlk] at hsym
                exact .inr ⟨linkageAttr_none.mp (by rw [← hk, hlk]), hasName_of (by rw [← hn]; exact hsym)⟩
            · obtain ⟨d, n⟩ := f
              cases d <;> simp only [pushPath_eq]
            · cases hnm : name with
              | some n => exact .inl ⟨n, currentNs fs, hasName_of (by rw [← hn, hnm]), rfl⟩
              | none => exact .inr ⟨nameAttr_none.mp (by rw [← hn, hnm]), rfl⟩
  · rintro ⟨info, _, h2, ⟨d, n, line', column', h3, h4, h5, h6⟩, h7⟩
    have e1 := lastOf_unique hfl h3
    have e2 := lastOf_unique hl h4
    subst e1 e2
    have hsym : linkage.or name = some sym := by
      rcases h2 with h | ⟨h, h'⟩
      · rw [hk, linkageAttr_some h]; rfl
      · rw [hk, linkageAttr_none.mpr h, hn, nameAttr_some h']; rfl
    unfold SymScanner.info
    simp only [hsym]
    exact ⟨_, rfl⟩

/-- **C84**, the place and the own name are right everywhere, also in enumeration and union types. -/
theorem C84_place {w : World} {isStd : Str → Bool} {st : Scan} (hw : w.Ok) (hs : scan (w.map Prod.fst) isStd = .ok st)
    {sym : Str} {info : DebugInfo} (h : st.symbolDebugInfo.get? sym = some info) :
    ∃ p ∈ w, isStd p.1.compDir = false ∧ ∃ anc o e, Inside [] p.2 anc o e ∧ DeclaresAt p.1.compDir e sym info := by
  obtain ⟨_, _, _, _, hsound⟩ := scan_ok w {} st hw.1 hs
  rcases (get_debugs st.debug [] sym).1 info h with h | h
  · rcases hsound _ h with h | ⟨p, hp, hstd, anc, o, e, fs, s, inl, hin, hf, ha⟩
    · cases h
    · have := ha.info
      split at this
      · rename_i ht
        exact ⟨p, hp, hstd, anc, o, e, hin, (info_at ht).1 info this⟩
      · cases this
  · cases h

/-- **C84**, nothing is missed: every symbol that is declared in a unit that is not the standard library's has something
recorded. -/
theorem C84_complete {w : World} {isStd : Str → Bool} {st : Scan} (hw : w.Ok) (hs : scan (w.map Prod.fst) isStd = .ok st)
    {p : DUnit × Forest} (hp : p ∈ w) (hstd : isStd p.1.compDir = false) {anc : List Entry} {o : Nat} {e : Entry}
    (hi : Inside [] p.2 anc o e) {sym : Str} {info : DebugInfo} (h : DeclaresAt p.1.compDir e sym info) :
    (st.symbolDebugInfo.get? sym).isSome = true := by
  obtain ⟨_, _, hall, _, _⟩ := scan_ok w {} st hw.1 hs
  obtain ⟨fs, hf, hh⟩ := hall p hp hstd anc o e hi
  have ht := h.1
  obtain ⟨s, inl, inf, ha, _, hd⟩ := hh (by rcases ht with ht | ht <;> rw [ht] <;> rfl)
  have := ha.info
  rw [if_pos ht] at this
  obtain ⟨info', hinfo⟩ := (info_at (fs := fs) ht).2 ⟨info, h⟩
  rw [hinfo] at this
  cases this
  exact (get_debugs st.debug [] sym).2 (.inl ⟨_, hd _ rfl⟩)

/-- **C84** in full: what is recorded for a symbol is the name with the namespace and the place of a declaration. -/
def C84_Claim : Prop :=
  ∀ (w : World) (isStd : Str → Bool) (st : Scan), w.Ok → scan (w.map Prod.fst) isStd = .ok st →
  ∀ (sym : Str) (info : DebugInfo), st.symbolDebugInfo.get? sym = some info →
    ∃ p ∈ w, isStd p.1.compDir = false ∧ ∃ anc o e, Inside [] p.2 anc o e ∧ Declares p.1.compDir anc e sym info

/-- **C84**, no guessing: if a declaration of a symbol names a file that is not in the table of files, reading the debug
information fails; the declaration is not silently left out. -/
theorem C84_unknown_file {w : World} {isStd : Str → Bool} {st : Scan} (hw : w.Ok) (hs : scan (w.map Prod.fst) isStd = .ok st)
    {p : DUnit × Forest} (hp : p ∈ w) (hstd : isStd p.1.compDir = false) {anc : List Entry} {o : Nat} {e : Entry}
    (hi : Inside [] p.2 anc o e) (ht : e.tag = .subprogram ∨ e.tag = .variable) {sym : Str}
    (hn : HasLinkage e sym ∨ (NoLinkage e ∧ HasName e sym)) {line : Nat} (hline : LastOf declLine e.attrs (some line)) :
    ¬ LastOf declFile e.attrs (some none) := by
  intro hfile
  obtain ⟨_, _, hall, _, _⟩ := scan_ok w {} st hw.1 hs
  obtain ⟨fs, hf, hh⟩ := hall p hp hstd anc o e hi
  obtain ⟨s, inl, inf, ha, _, hd⟩ := hh (by rcases ht with ht | ht <;> rw [ht] <;> rfl)
  have := ha.info
  rw [if_pos ht] at this
  have hl := lastOf_unique (sym_line e.attrs) hline
  have hfl := lastOf_unique (sym_file e.attrs) hfile
  have hk := sym_linkage e.attrs
  have hnm := sym_name e.attrs
  generalize e.attrs.foldl SymScanner.handle {} = s at hl hfl hk hnm this
  have hsym : s.linkage.or s.name = some sym := by
    rcases hn with h | ⟨h, h'⟩
    · rw [hk, linkageAttr_some h]; rfl
    · rw [hk, linkageAttr_none.mpr h, hnm, nameAttr_some h']; rfl
  unfold SymScanner.info at this
  rw [hsym, hl, hfl] at this
  cases this

/-- A unit with the declaration of `n::v`. -/
def declV : Entry := ⟨.variable, [.name (str! "v"), .linkage (str! "_v"), .declFile (some (some (str! "src"), str! "a.rs")),
  .declLine (some 3)], false⟩

def unitV : DUnit × Forest :=
  (⟨0, str! "/c", [(1, some (nsp (str! "n"))), (2, some declV), (3, none)]⟩,
    .node 1 (nsp (str! "n")) (.node 2 declV .nil 0 .nil) 3 .nil)

theorem okV : World.Ok [unitV] := by
  refine ⟨fun p hp => ?_, by simp [World.Ordered, unitV]⟩
  rw [List.mem_singleton.mp hp]
  exact ⟨⟨[], rfl⟩, by simp [unitV, Forest.Ok, declV, nsp], by decide⟩

/-- What is recorded. -/
def infoV : DebugInfo := ⟨⟨str! "/c/src/a.rs", 3, none⟩, some ⟨[str! "n"], str! "v"⟩⟩

theorem plainV {anc o e} (h : Inside [] unitV.2 anc o e) : Plain anc := by
  cases h with
  | here => intro a ha; cases ha
  | next h => cases h
  | child h =>
    cases h with
    | here => intro a ha; rw [List.mem_singleton.mp ha]; decide
    | next h => cases h
    | child h => cases h

example : ∃ p ∈ [unitV], (fun _ : Str => false) p.1.compDir = false ∧ ∃ anc o e, Inside [] p.2 anc o e ∧
    Declares p.1.compDir anc e (str! "_v") infoV :=
  C84_recorded_partial (isStd := fun _ => false) okV (st := ⟨[], [], [(str! "_v", infoV)]⟩) rfl
    (fun p hp anc o e h _ => by rw [List.mem_singleton.mp hp] at h; exact plainV h) rfl

example : ¬ LastOf declFile declV.attrs (some none) :=
  C84_unknown_file (isStd := fun _ => false) okV (st := ⟨[], [], [(str! "_v", infoV)]⟩) rfl (p := unitV) (List.mem_singleton.mpr rfl) rfl
    (anc := [nsp (str! "n")]) (o := 2) (.child .here) (.inr rfl) (sym := str! "_v")
    (.inl ⟨[.name (str! "v")], [.declFile (some (some (str! "src"), str! "a.rs")), .declLine (some 3)], rfl, by simp⟩)
    (line := 3) (.inr ⟨[.name (str! "v"), .linkage (str! "_v"), .declFile (some (some (str! "src"), str! "a.rs"))], .declLine (some 3),
      [], rfl, rfl, by simp⟩)

example : ((⟨[], [], [(str! "_v", infoV)]⟩ : Scan).symbolDebugInfo.get? (str! "_v")).isSome = true :=
  C84_complete (isStd := fun _ => false) okV rfl List.mem_cons_self rfl (.child .here)
    (o := 2) (e := declV) (info := infoV)
    ⟨.inr rfl, .inl ⟨[.name (str! "v")], _, rfl, by simp⟩, ⟨some (str! "src"), str! "a.rs", 3, none,
      .inr ⟨[.name (str! "v"), .linkage (str! "_v")], .declFile (some (some (str! "src"), str! "a.rs")), [.declLine (some 3)], rfl, rfl, by simp [declFile]⟩,
      .inr ⟨[.name (str! "v"), .linkage (str! "_v"), .declFile (some (some (str! "src"), str! "a.rs"))],
        .declLine (some 3), [], rfl, rfl, by simp⟩, .inl ⟨rfl, by simp [declV, declColumn]⟩, rfl⟩,
      .inl ⟨_, [str! "n"], ⟨[], _, rfl, by simp⟩, rfl⟩⟩

/-- `E::v`, where `E` is an enumeration without fields. -/
def unitEV : DUnit × Forest :=
  (⟨0, str! "/c", [(1, some ⟨.enumeration, [.name (str! "E")], true⟩), (2, some declV), (3, none)]⟩,
    .node 1 ⟨.enumeration, [.name (str! "E")], true⟩ (.node 2 declV .nil 0 .nil) 3 .nil)

theorem okEV : World.Ok [unitEV] := by
  refine ⟨fun p hp => ?_, by simp [World.Ordered, unitEV]⟩
  rw [List.mem_singleton.mp hp]
  exact ⟨⟨[], rfl⟩, by simp [unitEV, Forest.Ok, declV], by decide⟩

/-- **C84, disagreement.** Something declared in an enumeration type is recorded without the namespace. -/
theorem C84_enumeration : ¬ C84_Claim := by
  intro h
  obtain ⟨p, hp, -, anc, o, e, hin, ht, -, -, hname⟩ := h [unitEV] (fun _ => false)
    ⟨[], [], [(str! "_v", ⟨⟨str! "/c/src/a.rs", 3, none⟩, some ⟨[], str! "v"⟩⟩)]⟩ okEV rfl (str! "_v")
    ⟨⟨str! "/c/src/a.rs", 3, none⟩, some ⟨[], str! "v"⟩⟩ rfl
  rw [List.mem_singleton.mp hp] at hin
  rcases hname with ⟨n, ns, -, hs, hn⟩ | ⟨-, hn⟩
  · simp only [Option.some.injEq, Dbg.mk.injEq] at hn
    obtain ⟨rfl, rfl⟩ := hn
    cases hin with
    | here => rcases ht with ht | ht <;> cases ht
    | next hin => cases hin
    | child hin =>
      cases hin with
      | child hin => cases hin
      | next hin => cases hin
      | here =>
        generalize hns : ([] : List Str) = ns at hs
        cases hs with
        | scope _ _ _ => simp at hns
        | stop hs =>
          rcases hs with hs | hs
          · exact hs (.inr (.inr (.inl rfl)))
          · exact hs (str! "E") (List.mem_cons_self)
  · cases hn

/-- Yet the place and the own name are right. -/
example : ∃ p ∈ [unitEV], false = false ∧ ∃ anc o e, Inside [] p.2 anc o e ∧
    DeclaresAt p.1.compDir e (str! "_v") ⟨⟨str! "/c/src/a.rs", 3, none⟩, some ⟨[], str! "v"⟩⟩ :=
  C84_place (isStd := fun _ => false)
    (st := ⟨[], [], [(str! "_v", ⟨⟨str! "/c/src/a.rs", 3, none⟩, some ⟨[], str! "v"⟩⟩)]⟩) okEV rfl rfl

end Cackle.Dwarf
