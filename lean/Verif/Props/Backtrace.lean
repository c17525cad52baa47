import Verif.Model.Backtrace
import Verif.Props.EndToEnd

/-!
# C43: backtraces
-/

namespace Cackle.Backtrace
open Cackle Graph

/-! ## Specification -/

/-- At this place of the binary, a function (given by its address) is referred to: there is a relocation in a section
whose first symbol is in the binary, which stands for a symbol with this address, possibly through sections without a
symbol. -/
inductive Refers (b : Bin) (objs : List Obj) : BinLoc → Nat → Prop
  | relocation {o : Obj} {k offset start target : Nat} {relocs : List (Nat × Target)} {t u : Target} {first : ObjSym}
      {s : Str} : o ∈ objs → (k, relocs) ∈ o.sections → (offset, t) ∈ relocs → FirstIn o.symbols k first →
      AddressOf b first.name start → (b.debug.get? first.name).isSome →
      Reaches o (linked b) t u → StandsFor o (linked b) u (.inl s) → AddressOf b s target →
      Refers b objs ⟨start + offset - first.address, start⟩ target

/-- A call chain: each place refers to the function in which the one before it is. -/
inductive Trace (R : BinLoc → Nat → Prop) (start : BinLoc) : List BinLoc → BinLoc → Prop
  | start : Trace R start [start] start
  | caller {l : List BinLoc} {x y : BinLoc} : Trace R start l x → R y x.symbolStart → Trace R start (l ++ [y]) y

/-- The function in which this place is, is not referred to. -/
def Unreferenced (R : BinLoc → Nat → Prop) (x : BinLoc) : Prop := ¬ ∃ y, R y x.symbolStart

/-- The addresses of a call chain from an unreferenced function to the place, no address twice. -/
def IsTrace (R : BinLoc → Nat → Prop) (start : BinLoc) (out : List Nat) : Prop :=
  ∃ l x, Trace R start l x ∧ Unreferenced R x ∧ out = l.map BinLoc.address ∧ out.Nodup

/-- What users rely on: the search ends; what it finds is a call chain; and if there is one, it finds one. -/
def C43_Claim : Prop := ∀ (b : Bin) (objs : List Obj) (m : BackRefs) (start : BinLoc), backReferences b objs = .ok m →
  ∃ n out, (∀ k, n ≤ k → backtrace m k start = .ok out) ∧ (out ≠ [] → IsTrace (Refers b objs) start out) ∧
    ((∃ l x, Trace (Refers b objs) start l x ∧ Unreferenced (Refers b objs) x) → out ≠ [])

/-! ## Recorded references -/

/-- The map has exactly the references. -/
def Records (m : BackRefs) (R : BinLoc → Nat → Prop) : Prop :=
  ∀ target, (∀ l, m.get? target = some l → l ≠ [] ∧ ∀ x, x ∈ l ↔ R x target) ∧ (m.get? target = none → ¬ ∃ x, R x target)

theorem records_fold {addresses : AMap Str Nat} : ∀ (refs : List Ref) (m : BackRefs) (R : BinLoc → Nat → Prop), Records m R →
    Records (refs.foldl (recordRef addresses) m) (fun x target => R x target ∨ ∃ r ∈ refs,
      r.target.symbol.bind (fun s => addresses.get? s) = some target ∧ x = ⟨r.address, r.symbolStart⟩)
  | [], m, R, h => by simpa using h
  | r :: refs, m, R, h => by
    have h1 : Records (recordRef addresses m r) (fun x target => R x target ∨
        (r.target.symbol.bind (fun s => addresses.get? s) = some target ∧ x = ⟨r.address, r.symbolStart⟩)) := by
      unfold recordRef
      cases hr : r.target.symbol.bind (fun s => addresses.get? s) with
      | none => simpa using h
      | some t =>
        intro target
        simp only [addReference, AMap.get?_insert, Option.some.injEq]
        by_cases e : t = target
        · subst e
          simp only [if_true, Option.some.injEq, forall_eq', reduceCtorEq, false_implies, and_true, true_and]
          refine ⟨by simp, fun x => ?_⟩
          rw [List.mem_append, List.mem_singleton]
          cases hm : m.get? t with
          | none =>
            have := (h t).2 hm
            simp only [Option.getD_none, List.not_mem_nil, false_or]
            exact ⟨.inr, fun hx => hx.resolve_left (fun hx => this ⟨x, hx⟩)⟩
          | some l => simp only [Option.getD_some, ((h t).1 l hm).2]
        · simp only [e, if_false, false_and, or_false]
          exact h target
    have := records_fold (addresses := addresses) refs _ _ h1
    rw [List.foldl_cons]
    intro target
    have h2 := this target
    simp only [List.mem_cons, exists_eq_or_imp]
    simpa only [or_assoc] using h2

theorem backReferences_records {b : Bin} {objs : List Obj} {m : BackRefs} (h : backReferences b objs = .ok m) :
    Records m (Refers b objs) := by
  unfold backReferences at h
  obtain ⟨addresses, ha, h⟩ := bind_ok h
  obtain ⟨refs, hr, h⟩ := bind_ok h
  cases h
  have hall : allRefs { b with inlined := [] } objs = .ok refs := by
    unfold allRefs
    rw [show loadSymbols ({ b with inlined := [] } : Bin).symbols = .ok addresses from ha]
    exact hr
  obtain ⟨addresses', ha', _, hobj, hof⟩ := mem_allRefs hall
  rw [show loadSymbols ({ b with inlined := [] } : Bin).symbols = .ok addresses from ha] at ha'
  cases ha'
  have hkeys := addresses_keys ha
  have hrec := records_fold (addresses := addresses) refs [] (fun _ _ => False) (fun _ => ⟨by simp, by simp⟩)
  have hiff : ∀ x target, (False ∨ ∃ r ∈ refs, r.target.symbol.bind (fun s => addresses.get? s) = some target ∧
      x = ⟨r.address, r.symbolStart⟩) ↔ Refers b objs x target := by
    intro x target
    rw [false_or]
    constructor
    · rintro ⟨r, hr, hs, rfl⟩
      rcases hof r hr with ⟨f, hf, _⟩ | ⟨o, ho, infos, hi, sec, hsec, l, hsl, hx⟩
      · cases hf
      obtain ⟨first, start, info, h1, h2, h3, rel, hrel, l', hl', hx'⟩ := of_sectionRefs hsl hx
      obtain ⟨s', hfirst, rfl⟩ := (sectionInfos_describes hi sec.1).1 first h1
      unfold relocRefs at hl'
      obtain ⟨ts, hts, hl'⟩ := bind_ok hl'
      obtain ⟨frame, hframe, hl'⟩ := bind_ok hl'
      cases hl'
      obtain ⟨s, hs', rfl⟩ := List.mem_map.mp hx'
      rcases C30_targets o addresses infos hi rel.2 with ⟨ts', e1, _, e3⟩ | ⟨e1, _⟩
      · rw [hts] at e1
        cases e1
        obtain ⟨u, hreach, hstands⟩ := (e3 s).mp hs'
        exact .relocation (k := sec.1) (relocs := sec.2) (offset := rel.1) (t := rel.2) (u := u) (start := start) ho hsec
          hrel hfirst (addressOf ha h2) (by rw [show b.debug.get? s'.name = some info from h3]; rfl) (hreach.congr hkeys)
          (hstands.congr hkeys) (addressOf ha hs)
      · rw [hts] at e1
        cases e1
    · intro hx
      cases hx with
      | @relocation o k offset start target relocs t u first s ho hk hr hfirst haddr hinfo hreach hstands htarget =>
      obtain ⟨info, hinfo⟩ := Option.isSome_iff_exists.mp hinfo
      obtain ⟨infos, hi, hsec⟩ := hobj o ho
      obtain ⟨l, hl, hsub⟩ := hsec _ hk
      have hget : infos.get? k = some (first.name, first.address) := by
        have hd := sectionInfos_describes hi
        cases hg : infos.get? k with
        | some e =>
          obtain ⟨s', hs', rfl⟩ := (hd k).1 e hg
          rw [hs'.unique hfirst]
        | none =>
          obtain ⟨i, before, after, e, hdef, _⟩ := hfirst
          exact absurd hdef ((hd k).2 hg (i, first) (by rw [e]; simp))
      obtain ⟨hrel, _⟩ := mem_sectionRefs hl hget (addresses_get ha haddr) hinfo
      obtain ⟨l', hl', hsub'⟩ := hrel _ hr
      unfold relocRefs at hl'
      obtain ⟨ts, hts, hl'⟩ := bind_ok hl'
      obtain ⟨frame, hframe, hl'⟩ := bind_ok hl'
      cases hl'
      rcases C30_targets o addresses infos hi t with ⟨ts', h1, _, h3⟩ | ⟨h1, _⟩
      · rw [hts] at h1
        cases h1
        have hs : s ∈ ts := (h3 s).mpr ⟨u, hreach.congr (fun s => (hkeys s).symm), hstands.congr (fun s => (hkeys s).symm)⟩
        exact ⟨_, hsub _ (hsub' _ (List.mem_map.mpr ⟨s, hs, rfl⟩)), addresses_get ha htarget, rfl⟩
      · rw [hts] at h1
        cases h1
  intro target
  obtain ⟨h1, h2⟩ := hrec target
  refine ⟨fun l hl => ⟨(h1 l hl).1, fun x => ((h1 l hl).2 x).trans (hiff x target)⟩, fun hn ⟨x, hx⟩ => h2 hn ⟨x, (hiff x target).mpr hx⟩⟩

/-! ## The search -/

/-- The number of addresses that were not visited. -/
def unvisited (U visited : List Nat) : Nat := (U.filter (fun a => a ∉ visited)).length

theorem unvisited_mono {U V V' : List Nat} (h : ∀ a ∈ V, a ∈ V') : unvisited U V' ≤ unvisited U V := by
  unfold unvisited
  refine List.Sublist.length_le ?_
  rw [show U.filter (fun a => decide (a ∉ V')) = (U.filter (fun a => decide (a ∉ V))).filter (fun a => decide (a ∉ V')) by
    rw [List.filter_filter]
    refine List.filter_congr (fun x _ => ?_)
    by_cases hx : x ∈ V
    · simp [hx, h x hx]
    · simp [hx]]
  exact List.filter_sublist

theorem unvisited_lt {U V : List Nat} {a : Nat} (hu : a ∈ U) (hv : a ∉ V) : unvisited U (a :: V) < unvisited U V := by
  unfold unvisited
  induction U with
  | nil => cases hu
  | cons b U ih =>
    have hle : ∀ U : List Nat, (U.filter (fun x => decide (x ∉ a :: V))).length ≤ (U.filter (fun x => decide (x ∉ V))).length :=
      fun U => unvisited_mono (U := U) (fun x hx => List.mem_cons_of_mem _ hx)
    by_cases hb : b = a
    · subst hb
      rw [List.filter_cons_of_neg (by simp), List.filter_cons_of_pos (by simpa using hv), List.length_cons]
      exact Nat.lt_succ_of_le (hle U)
    · have hu' : a ∈ U := (List.mem_cons.mp hu).resolve_left (fun e => hb e.symm)
      have := ih hu'
      simp only [List.filter_cons]
      by_cases h1 : b ∈ V
      · simp [h1]; simpa using this
      · simp [h1, hb]; simpa using this

/-- What a part of the search does. `f` gives the function for each address. -/
structure Step (R : BinLoc → Nat → Prop) (start : BinLoc) (st st' : Search) : Prop where
  visited : ∀ a ∈ st.visited, a ∈ st'.visited
  out : st'.out = st.out ∨ IsTrace R start st'.out
  some : st.out ≠ [] → st'.out ≠ []
  closed : ∀ f : Nat → Nat, (∀ x t, R x t → f x.address = x.symbolStart) → f start.address = start.symbolStart →
    ∀ a ∈ st'.visited, a ∉ st.visited →
      (∀ y, R y (f a) → y.address ∈ st'.visited) ∧ ((¬ ∃ y, R y (f a)) → st'.out ≠ [])

theorem Step.refl (R : BinLoc → Nat → Prop) (start : BinLoc) (st : Search) : Step R start st st :=
  ⟨fun _ h => h, .inl rfl, id, fun _ _ _ _ h h' => absurd h h'⟩

theorem Step.trans {R : BinLoc → Nat → Prop} {start : BinLoc} {a b c : Search} (h : Step R start a b) (h' : Step R start b c) :
    Step R start a c := by
  refine ⟨fun x hx => h'.visited x (h.visited x hx), ?_, fun e => h'.some (h.some e), fun f hf hs x hx hn => ?_⟩
  · rcases h'.out with e | e
    · rw [e]; exact h.out
    · exact .inr e
  · by_cases hb : x ∈ b.visited
    · obtain ⟨h1, h2⟩ := h.closed f hf hs x hb hn
      exact ⟨fun y hy => h'.visited _ (h1 y hy), fun e => h'.some (h2 e)⟩
    · exact h'.closed f hf hs x hx hb

theorem findFrames_spec {m : BackRefs} {R : BinLoc → Nat → Prop} (hm : Records m R) {U : List Nat}
    (hU : ∀ x t, R x t → x.address ∈ U) {start : BinLoc} : ∀ (n : Nat) (l : List BinLoc) (loc : BinLoc) (st : Search),
    Trace R start (l ++ [loc]) loc → (l.map BinLoc.address).Nodup → (∀ x ∈ l, x.address ∈ st.visited) → loc.address ∈ U →
    unvisited U st.visited < n →
    ∃ st', findFrames m n (l.map BinLoc.address) loc st = .ok st' ∧ Step R start st st' ∧ loc.address ∈ st'.visited
  | 0, _, _, _, _, _, _, _, h => absurd h (Nat.not_lt_zero _)
  | n + 1, l, loc, st, ht, hnd, hl, hu, hn => by
    unfold findFrames
    by_cases hv : loc.address ∈ st.visited
    · rw [if_pos hv]
      exact ⟨st, rfl, .refl _ _ _, hv⟩
    rw [if_neg hv]
    simp only []
    have hcand : l.map BinLoc.address ++ [loc.address] = (l ++ [loc]).map BinLoc.address := by simp
    have hnd' : ((l ++ [loc]).map BinLoc.address).Nodup := by
      rw [← hcand]
      refine List.nodup_append.mpr ⟨hnd, by simp, fun a ha b hb e => ?_⟩
      rw [List.mem_singleton] at hb
      obtain ⟨x, hx, rfl⟩ := List.mem_map.mp ha
      exact hv (hb ▸ e ▸ hl x hx)
    have hf0 : ∀ f : Nat → Nat, (∀ x t, R x t → f x.address = x.symbolStart) → f start.address = start.symbolStart →
        f loc.address = loc.symbolStart := by
      intro f hf hs
      generalize hk : l ++ [loc] = k at ht
      cases ht with
      | start => exact hs
      | caller _ hr => exact hf _ _ hr
    rw [hcand]
    cases hg : m.get? loc.symbolStart with
    | none =>
      simp only []
      have hun : ¬ ∃ y, R y loc.symbolStart := (hm _).2 hg
      have htr : IsTrace R start ((l ++ [loc]).map BinLoc.address) := ⟨_, _, ht, hun, rfl, hnd'⟩
      refine ⟨_, rfl, ?_, ?_⟩
      · split
        · refine ⟨fun a ha => List.mem_cons_of_mem _ ha, .inr htr, fun _ => by simp, fun f hf hs a ha hna => ?_⟩
          have ha : a ∈ loc.address :: st.visited := ha
          obtain rfl := (List.mem_cons.mp ha).resolve_right hna
          rw [hf0 f hf hs]
          exact ⟨fun y hy => absurd ⟨y, hy⟩ hun, fun _ => by simp⟩
        · rename_i hlen
          refine ⟨fun a ha => List.mem_cons_of_mem _ ha, .inl rfl, id, fun f hf hs a ha hna => ?_⟩
          have ha : a ∈ loc.address :: st.visited := ha
          obtain rfl := (List.mem_cons.mp ha).resolve_right hna
          rw [hf0 f hf hs]
          refine ⟨fun y hy => absurd ⟨y, hy⟩ hun, fun _ e => hlen ?_⟩
          have e : st.out = [] := e
          simp [e]
      · split <;> exact List.mem_cons_self
    | some refs =>
      simp only []
      obtain ⟨_, href⟩ := (hm _).1 refs hg
      -- the loop
      have hloop : ∀ (rs : List BinLoc) (s : Search), (∀ r ∈ rs, R r loc.symbolStart) → (∀ x ∈ l ++ [loc], x.address ∈ s.visited) →
          unvisited U s.visited < n → ∃ s', Res.loop (fun st r => findFrames m n ((l ++ [loc]).map BinLoc.address) r st) s rs = .ok s' ∧
            Step R start s s' ∧ ∀ r ∈ rs, r.address ∈ s'.visited := by
        intro rs
        induction rs with
        | nil => exact fun s _ _ _ => ⟨s, rfl, .refl _ _ _, by simp⟩
        | cons r rs ih =>
          intro s hr hs hun
          obtain ⟨s1, e1, k1, v1⟩ := findFrames_spec hm hU n (l ++ [loc]) r s (.caller ht (hr r (by simp))) hnd' hs
            (hU r _ (hr r (by simp))) hun
          obtain ⟨s2, e2, k2, v2⟩ := ih s1 (fun x hx => hr x (by simp [hx])) (fun x hx => k1.visited _ (hs x hx))
            (Nat.lt_of_le_of_lt (unvisited_mono k1.visited) hun)
          refine ⟨s2, ?_, k1.trans k2, fun x hx => ?_⟩
          · simp only [Res.loop, e1, Res.bind]
            exact e2
          · rcases List.mem_cons.mp hx with rfl | hx
            · exact k2.visited _ v1
            · exact v2 x hx
      obtain ⟨s', e, k, v⟩ := hloop refs { st with visited := loc.address :: st.visited } (fun r hr => (href r).mp hr)
        (fun x hx => by
          rcases List.mem_append.mp hx with hx | hx
          · exact List.mem_cons_of_mem _ (hl x hx)
          · cases List.mem_singleton.mp hx
            exact List.mem_cons_self)
        (Nat.lt_of_lt_of_le (unvisited_lt hu hv) (Nat.le_of_lt_succ hn))
      refine ⟨s', e, ⟨fun a ha => k.visited a (List.mem_cons_of_mem _ ha), k.out, k.some, fun f hf hs a ha hna => ?_⟩,
        k.visited _ List.mem_cons_self⟩
      by_cases hal : a = loc.address
      · subst hal
        rw [hf0 f hf hs]
        exact ⟨fun y hy => v y ((href y).mpr hy), fun hno => absurd ⟨_, (href _).mp (List.head_mem ((hm _).1 refs hg).1)⟩ hno⟩
      · exact k.closed f hf hs a ha (by simp [hal, hna])

/-- All addresses of references. -/
def addressesOf (m : BackRefs) : List Nat := m.flatMap (fun e => e.2.map BinLoc.address)

theorem mem_addressesOf {m : BackRefs} {R : BinLoc → Nat → Prop} (hm : Records m R) {x : BinLoc} {t : Nat} (h : R x t) :
    x.address ∈ addressesOf m := by
  cases hg : m.get? t with
  | none => exact absurd ⟨x, h⟩ ((hm t).2 hg)
  | some l => exact List.mem_flatMap.mpr ⟨(t, l), AMap.mem_of_get? hg, List.mem_map.mpr ⟨x, (((hm t).1 l hg).2 x).mpr h, rfl⟩⟩

/-- An address is in only one function. -/
def OneFunction (R : BinLoc → Nat → Prop) (start : BinLoc) : Prop :=
  ∃ f : Nat → Nat, (∀ x t, R x t → f x.address = x.symbolStart) ∧ f start.address = start.symbolStart

theorem backtrace_spec {m : BackRefs} {R : BinLoc → Nat → Prop} (hm : Records m R) (start : BinLoc) :
    ∃ n, ∀ k, n ≤ k → ∃ out, backtrace m k start = .ok out ∧ (out ≠ [] → IsTrace R start out) ∧
      (OneFunction R start → (∃ l x, Trace R start l x ∧ Unreferenced R x) → out ≠ []) := by
  refine ⟨(start.address :: addressesOf m).length + 1, fun k hk => ?_⟩
  obtain ⟨st', e, hst, hv⟩ := findFrames_spec hm (U := start.address :: addressesOf m)
    (fun x t h => List.mem_cons_of_mem _ (mem_addressesOf hm h)) k [] start ⟨[], []⟩ .start (by simp) (by simp) (by simp)
    (Nat.lt_of_le_of_lt (List.length_filter_le _ _) (Nat.lt_of_lt_of_le (Nat.lt_succ_self _) hk))
  refine ⟨st'.out, ?_, fun hne => ?_, ?_⟩
  · unfold backtrace
    rw [show findFrames m k [] start ⟨[], []⟩ = .ok st' from e]
    rfl
  · rcases hst.out with e | e
    · exact absurd e hne
    · exact e
  · rintro ⟨f, hf, hs⟩ ⟨l, x, ht, hun⟩
    have hreach : ∀ l x, Trace R start l x → x.address ∈ st'.visited ∧ f x.address = x.symbolStart := by
      intro l x ht
      induction ht with
      | start => exact ⟨hv, hs⟩
      | caller _ hr ih =>
        refine ⟨(hst.closed f hf hs _ ih.1 (by simp)).1 _ ?_, hf _ _ hr⟩
        rw [ih.2]
        exact hr
    obtain ⟨h1, h2⟩ := hreach l x ht
    exact (hst.closed f hf hs _ h1 (by simp)).2 (by rw [h2]; exact hun)

theorem loop_mono {σ α : Type} {f g : σ → α → Res σ} (h : ∀ s a s', f s a = .ok s' → g s a = .ok s') :
    ∀ (l : List α) (s s' : σ), Res.loop f s l = .ok s' → Res.loop g s l = .ok s'
  | [], _, _, e => e
  | a :: l, s, s', e => by
    simp only [Res.loop] at e ⊢
    obtain ⟨s1, e1, e2⟩ := bind_ok e
    rw [h s a s1 e1]
    exact loop_mono h l s1 s' e2

theorem findFrames_mono {m : BackRefs} : ∀ (n : Nat) (c : List Nat) (loc : BinLoc) (st st' : Search),
    findFrames m n c loc st = .ok st' → findFrames m (n + 1) c loc st = .ok st'
  | 0, _, _, _, _, h => by cases h
  | n + 1, c, loc, st, st', h => by
    unfold findFrames at h ⊢
    by_cases hv : loc.address ∈ st.visited
    · rw [if_pos hv] at h ⊢
      exact h
    rw [if_neg hv] at h ⊢
    simp only [] at h ⊢
    cases hg : m.get? loc.symbolStart with
    | none => rw [hg] at h; exact h
    | some refs =>
      rw [hg] at h
      exact loop_mono (fun s r s' e => findFrames_mono n _ r s s' e) _ _ _ h

theorem backtrace_mono {m : BackRefs} {n : Nat} {loc : BinLoc} {out : List Nat} (h : backtrace m n loc = .ok out) :
    ∀ k, n ≤ k → backtrace m k loc = .ok out := by
  intro k hk
  induction hk with
  | refl => exact h
  | step _ ih =>
    unfold backtrace at ih ⊢
    obtain ⟨st, h1, h2⟩ := bind_ok ih
    rw [findFrames_mono _ _ _ _ _ h1]
    exact h2

/-! ## C43 -/

/-- **C43.** For all binaries and object files and all places: the search ends, also if functions call each other. What it
finds is a call chain of references in the binary, from a function to which nothing refers to the place. If there is such a
chain, one is found, provided that no address is in two functions.

What is missing: object files with a function that is longer than the copy of it in the binary, so that the addresses
computed for its relocations are in another function, see `C43_overlap`. -/
theorem C43_backtrace_partial (b : Bin) (objs : List Obj) (m : BackRefs) (start : BinLoc) (h : backReferences b objs = .ok m) :
    ∃ n out, (∀ k, n ≤ k → backtrace m k start = .ok out) ∧ (out ≠ [] → IsTrace (Refers b objs) start out) ∧
      (OneFunction (Refers b objs) start →
        (∃ l x, Trace (Refers b objs) start l x ∧ Unreferenced (Refers b objs) x) → out ≠ []) := by
  obtain ⟨n, hn⟩ := backtrace_spec (backReferences_records h) start
  obtain ⟨out, h1, h2, h3⟩ := hn n (Nat.le_refl _)
  exact ⟨n, out, backtrace_mono h1, h2, h3⟩

/-! ## Witnesses -/

private def wSyms : AMap Nat ObjSym :=
  [(1, ⟨str! "t", some 1, true, 0⟩), (2, ⟨str! "a", some 2, true, 0⟩), (3, ⟨str! "b", some 3, true, 0⟩),
   (4, ⟨str! "c", some 4, true, 0⟩)]
private def wBin (b : Nat) : Bin where
  path := str! "/bin"
  crate := ⟨⟨str! "p", str! "1.0.0", true⟩, .primary⟩
  symbols := [(str! "t", 100), (str! "a", 200), (str! "b", b), (str! "c", 400)]
  debug := ([str! "t", str! "a", str! "b", str! "c"]).map (fun s => (s, ⟨⟨str! "/p/a.rs", 1, none⟩, none⟩))
  inlined := []
  frame _ := some (none, none)

private theorem refers_of {b : Bin} {objs : List Obj} {m : BackRefs} (h : backReferences b objs = .ok m) {t : Nat} {x : BinLoc}
    {l : List BinLoc} (hl : m.get? t = some l) (hx : x ∈ l) : Refers b objs x t :=
  (((backReferences_records h t).1 l hl).2 x).mp hx

private theorem unreferenced_of {b : Bin} {objs : List Obj} {m : BackRefs} (h : backReferences b objs = .ok m) {x : BinLoc}
    (hl : m.get? x.symbolStart = none) : Unreferenced (Refers b objs) x := (backReferences_records h _).2 hl

/-- The function `a`, which calls itself, is 60 bytes long in the object file, but `b` begins 40 bytes after it in the binary.
Both call `t`. -/
private def wOverlap : Obj where
  symbols := wSyms
  sections := [(1, []), (2, [(50, .symbol 1), (20, .symbol 2)]), (3, [(10, .symbol 1)]), (4, [])]
private def mOverlap : BackRefs := [(100, [⟨250, 200⟩, ⟨250, 240⟩]), (200, [⟨220, 200⟩])]

private theorem overlap_ok : backReferences (wBin 240) [wOverlap] = .ok mOverlap := by decide +kernel

/-- The call of `t` by `b` is taken for the one by `a`, so no chain is found. -/
theorem C43_overlap : ¬ C43_Claim := by
  intro h
  obtain ⟨n, out, h1, _, h2⟩ := h (wBin 240) [wOverlap] mOverlap ⟨104, 100⟩ overlap_ok
  have he : backtrace mOverlap (n + 10) ⟨104, 100⟩ = .ok [] := backtrace_mono (n := 10) (by decide +kernel) _ (by omega)
  rw [h1 _ (by omega)] at he
  cases he
  refine h2 ⟨_, ⟨250, 240⟩, .caller .start (refers_of overlap_ok (l := [⟨250, 200⟩, ⟨250, 240⟩]) (by decide +kernel)
    (by simp)), unreferenced_of overlap_ok (by decide +kernel)⟩ rfl

/-- What the comment in the code says: the longest chain is found. -/
def C43_LongestClaim : Prop := ∀ (b : Bin) (objs : List Obj) (m : BackRefs) (start : BinLoc) (n : Nat) (out : List Nat),
  backReferences b objs = .ok m → OneFunction (Refers b objs) start → backtrace m n start = .ok out →
  ∀ out', IsTrace (Refers b objs) start out' → out'.length ≤ out.length

/-- `a` calls `t` and `b`, `b` calls `t`, and `c` calls `a`. -/
private def wDiamond : Obj where
  symbols := wSyms
  sections := [(1, []), (2, [(4, .symbol 1), (8, .symbol 3)]), (3, [(4, .symbol 1)]), (4, [(4, .symbol 2)])]
private def mDiamond : BackRefs := [(100, [⟨204, 200⟩, ⟨304, 300⟩]), (300, [⟨208, 200⟩]), (200, [⟨404, 400⟩])]

private theorem diamond_ok : backReferences (wBin 300) [wDiamond] = .ok mDiamond := by decide +kernel

private theorem diamond_one : OneFunction (Refers (wBin 300) [wDiamond]) ⟨104, 100⟩ := by
  refine ⟨fun a => a / 100 * 100, fun x t hx => ?_, rfl⟩
  cases hg : mDiamond.get? t with
  | none => exact absurd ⟨x, hx⟩ ((backReferences_records diamond_ok t).2 hg)
  | some l =>
    have hx := (((backReferences_records diamond_ok t).1 l hg).2 x).mpr hx
    have := AMap.mem_of_get? hg
    simp only [mDiamond, List.mem_cons, Prod.mk.injEq, List.not_mem_nil, or_false] at this
    rcases this with ⟨rfl, rfl⟩ | ⟨rfl, rfl⟩ | ⟨rfl, rfl⟩
    · simp only [List.mem_cons, List.not_mem_nil, or_false] at hx
      rcases hx with rfl | rfl <;> rfl
    · cases List.mem_singleton.mp hx; rfl
    · cases List.mem_singleton.mp hx; rfl

private theorem diamond_long : IsTrace (Refers (wBin 300) [wDiamond]) ⟨104, 100⟩ [104, 304, 208, 404] :=
  ⟨[⟨104, 100⟩, ⟨304, 300⟩, ⟨208, 200⟩, ⟨404, 400⟩], ⟨404, 400⟩,
    .caller (l := [⟨104, 100⟩, ⟨304, 300⟩, ⟨208, 200⟩]) (x := ⟨208, 200⟩)
      (.caller (l := [⟨104, 100⟩, ⟨304, 300⟩]) (x := ⟨304, 300⟩)
        (.caller (l := [⟨104, 100⟩]) .start (refers_of diamond_ok (l := [⟨204, 200⟩, ⟨304, 300⟩]) (by decide +kernel) (by simp)))
        (refers_of diamond_ok (l := [⟨208, 200⟩]) (by decide +kernel) (by simp)))
      (refers_of diamond_ok (l := [⟨404, 400⟩]) (by decide +kernel) (by simp)),
    unreferenced_of diamond_ok (by decide +kernel), rfl, by decide⟩

/-- The chain from `c` through `a` is found first; the longer one through `a` and `b` is then not followed, because the call
in `c` was visited. -/
theorem C43_not_longest : ¬ C43_LongestClaim := by
  intro h
  have := h (wBin 300) [wDiamond] mDiamond ⟨104, 100⟩ 10 [104, 204, 404] diamond_ok diamond_one (by decide +kernel) _ diamond_long
  revert this
  decide

/-! Non-vacuity of C43: a chain exists and no address is in two functions. -/

example : ∃ l x, Trace (Refers (wBin 300) [wDiamond]) ⟨104, 100⟩ l x ∧ Unreferenced (Refers (wBin 300) [wDiamond]) x := by
  obtain ⟨l, x, h1, h2, _⟩ := diamond_long
  exact ⟨l, x, h1, h2⟩

end Cackle.Backtrace
