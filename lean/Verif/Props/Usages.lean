import Verif.Model.SymbolGraph
import Verif.Props.Config

/-!
# C31: reducing usages to the shortest
-/

namespace Cackle.Graph
open Cackle Config Perm
open Cackle.ApiMap (Api)

/-! ## Specification -/

/-- Two usages that are the same for the user: by the same package in the same scope, of the same API, in the same
function and at the same place. -/
def Same (r s : Single) : Prop :=
  r.pkg = s.pkg ∧ r.scope = s.scope ∧ r.api = s.api ∧ r.usage.from_ = s.usage.from_ ∧
    pathOf r.usage.loc.file = pathOf s.usage.loc.file ∧ r.usage.loc.line = s.usage.loc.line ∧
    r.usage.loc.column = s.usage.loc.column

/-- The length in bytes of the text of what is referred to. -/
def SourceLength (s : Single) (n : Nat) : Prop :=
  (∃ t, s.usage.toSource = .symbol t ∧ n = (t.map Char.utf8Size).sum) ∨
    ∃ ns t, s.usage.toSource = .debugName ns t ∧ n = (t.map Char.utf8Size).sum

/-- One usage for each class of usages that are the same, with a shortest target. -/
structure Representatives (collected reps : List Single) : Prop where
  sound : ∀ r ∈ reps, r ∈ collected
  shortest : ∀ r ∈ reps, ∀ s ∈ collected, Same r s → ∀ n m, SourceLength r n → SourceLength s m → n ≤ m
  all : ∀ s ∈ collected, ∃ r ∈ reps, Same r s
  once : reps.Pairwise (fun r s => ¬ Same r s)

/-- The usages of one package of one API, as reported. -/
def reportOf (reps : List Single) : Option ApiUsages :=
  match reps with
  | [] => none
  | r :: _ => some { pkg := r.pkg, scope := r.scope, api := r.api, usages := reps.map Single.usage }

/-! ## Proofs -/

theorem same_iff {r s : Single} : Same r s ↔ r.key = s.key := by
  simp [Same, Single.key]

theorem byteLen_sum : ∀ (t : Str), Demangle.byteLen t = (t.map Char.utf8Size).sum
  | [] => rfl
  | c :: t => by simp [Demangle.byteLen, byteLen_sum t]

theorem sourceLength_eq {s : Single} {n : Nat} (h : SourceLength s n) : n = targetLen s := by
  rcases h with ⟨t, ht, rfl⟩ | ⟨ns, t, ht, rfl⟩ <;> simp [targetLen, ht, byteLen_sum]

theorem shortest_none : ∀ {l : List Single}, shortest l = none → l = []
  | [], _ => rfl
  | s :: l, h => by
    unfold shortest at h
    split at h
    · cases h
    · split at h <;> cases h

theorem shortest_spec : ∀ {l : List Single} {r : Single}, shortest l = some r →
    r ∈ l ∧ ∀ s ∈ l, targetLen r ≤ targetLen s
  | [], r, h => by cases h
  | s :: l, r, h => by
    unfold shortest at h
    cases hl : shortest l with
    | none =>
      rw [hl] at h
      cases h
      rw [shortest_none hl]
      simp
    | some m =>
      rw [hl] at h
      simp only [] at h
      obtain ⟨h1, h2⟩ := shortest_spec hl
      split at h
      · rename_i hlt
        cases h
        refine ⟨by simp [h1], fun x hx => ?_⟩
        rcases List.mem_cons.mp hx with rfl | hx
        · omega
        · exact h2 x hx
      · rename_i hge
        cases h
        refine ⟨by simp, fun x hx => ?_⟩
        rcases List.mem_cons.mp hx with rfl | hx
        · omega
        · have := h2 x hx; omega

/-- The map of groups for a list of usages. -/
theorem groups_spec : ∀ (l : List Single) (before : List Single) (g : AMap Key (List Single)),
    (AMap.keys g).Nodup → (∀ k, (g.get? k).getD [] = before.filter (fun s => s.key = k)) → (∀ k, g.get? k ≠ some []) →
    (AMap.keys (l.foldl push g)).Nodup ∧
      (∀ k, ((l.foldl push g).get? k).getD [] = (before ++ l).filter (fun s => s.key = k)) ∧
      (∀ k, (l.foldl push g).get? k ≠ some [])
  | [], before, g, h1, h2, h3 => by simpa using ⟨h1, h2, h3⟩
  | s :: l, before, g, h1, h2, h3 => by
    have := groups_spec l (before ++ [s]) (push g s) (AMap.nodup_insert _ _ _ h1) (fun k => by
      unfold push
      rw [AMap.get?_insert]
      by_cases hk : s.key = k
      · subst hk
        simp [h2]
      · rw [if_neg hk, h2 k, List.filter_append]
        simp [hk]) (fun k => by
      unfold push
      rw [AMap.get?_insert]
      by_cases hk : s.key = k
      · rw [if_pos hk]; simp
      · rw [if_neg hk]; exact h3 k)
    simpa using this

theorem reportOf_append (l : List Single) (r : Single) (h : ∀ x ∈ l, x.pkg = r.pkg ∧ x.api = r.api) :
    reportOf (l ++ [r]) =
      some (let e := (reportOf l).getD { pkg := r.pkg, scope := r.scope, api := r.api, usages := [] }
        { e with usages := e.usages ++ [r.usage] }) := by
  cases l with
  | nil => rfl
  | cons x l => simp [reportOf]

theorem emit_spec : ∀ (groups : List (Key × List Single)) (out : AMap (PkgId × Api) ApiUsages) (reps : List Single),
    (AMap.keys out).Nodup → (∀ k, out.get? k = reportOf (reps.filter (fun r => (r.pkg, r.api) = k))) →
    (AMap.keys (groups.foldl emit1 out)).Nodup ∧ ∀ k, (groups.foldl emit1 out).get? k =
      reportOf ((reps ++ groups.filterMap (fun g => shortest g.2)).filter (fun r => (r.pkg, r.api) = k))
  | [], out, reps, h1, h2 => by rw [List.filterMap_nil, List.append_nil]; exact ⟨h1, h2⟩
  | g :: groups, out, reps, h1, h2 => by
    rw [List.foldl_cons]
    cases hs : shortest g.2 with
    | none =>
      have he : emit1 out g = out := by simp [emit1, hs]
      rw [he, List.filterMap_cons_none (f := fun (g : Key × List Single) => shortest g.2) hs]
      exact emit_spec groups out reps h1 h2
    | some s =>
      rw [List.filterMap_cons_some (f := fun (g : Key × List Single) => shortest g.2) hs]
      have := emit_spec groups (emit1 out g) (reps ++ [s]) (by
        simp only [emit1, hs]; exact AMap.nodup_insert _ _ _ h1) (fun k => by
        simp only [emit1, hs]
        rw [AMap.get?_insert]
        by_cases hk : (s.pkg, s.api) = k
        · subst hk
          rw [if_pos rfl, List.filter_append, List.filter_cons_of_pos (by simp), List.filter_nil,
            reportOf_append _ _ (by simp), ← h2]
        · rw [if_neg hk, h2 k, List.filter_append, List.filter_cons_of_neg (by simpa using hk)]
          simp)
      rw [List.append_assoc] at this
      exact this

theorem representatives (collected : List Single) (groups : List (Key × List Single))
    (hp : groups.Perm (collected.foldl push [])) :
    Representatives collected (groups.filterMap (fun g => shortest g.2)) := by
  obtain ⟨h1, h2, h3⟩ := groups_spec collected [] [] (by simp [AMap.keys]) (by simp) (by simp)
  have hmem : ∀ k l, (k, l) ∈ groups → l = collected.filter (fun s => s.key = k) := by
    intro k l hkl
    have := h2 k
    rw [AMap.get?_of_mem h1 (hp.mem_iff.mp hkl)] at this
    simpa using this
  refine ⟨fun r hr => ?_, fun r hr s hs hsame n m hn hm => ?_, fun s hs => ?_, ?_⟩
  · obtain ⟨⟨k, l⟩, hg, hsh⟩ := List.mem_filterMap.mp hr
    have := (shortest_spec hsh).1
    rw [hmem k l hg] at this
    exact (List.mem_filter.mp this).1
  · obtain ⟨⟨k, l⟩, hg, hsh⟩ := List.mem_filterMap.mp hr
    have hl := hmem k l hg
    simp only at hsh
    obtain ⟨g1, g2⟩ := shortest_spec hsh
    rw [hl] at g1 g2
    have hrk : r.key = k := by simpa using (List.mem_filter.mp g1).2
    rw [sourceLength_eq hn, sourceLength_eq hm]
    exact g2 s (List.mem_filter.mpr ⟨hs, by simp [← same_iff.mp hsame, hrk]⟩)
  · have hin : s ∈ ((collected.foldl push []).get? s.key).getD [] := by rw [h2 s.key]; simp [hs]
    cases hg : (collected.foldl push []).get? s.key with
    | none => rw [hg] at hin; cases hin
    | some l =>
      rw [hg] at hin
      have hmg : (s.key, l) ∈ groups := hp.mem_iff.mpr (AMap.mem_of_get? hg)
      cases hsh : shortest l with
      | none => rw [shortest_none hsh] at hin; cases hin
      | some r =>
        refine ⟨r, List.mem_filterMap.mpr ⟨(s.key, l), hmg, hsh⟩, ?_⟩
        have := (shortest_spec hsh).1
        rw [hmem _ l hmg] at this
        rw [same_iff]
        simpa using (List.mem_filter.mp this).2
  · have hnd : (groups.map Prod.fst).Nodup := (hp.map Prod.fst).nodup_iff.mpr h1
    have hkeys : ∀ k l r, (k, l) ∈ groups → shortest l = some r → r.key = k := by
      intro k l r hkl hsh
      have := (shortest_spec hsh).1
      rw [hmem k l hkl] at this
      simpa using (List.mem_filter.mp this).2
    clear hp h1 h2 h3 hmem
    induction groups with
    | nil => simp
    | cons g groups ih =>
      simp only [List.map_cons, List.nodup_cons] at hnd
      have ih' := ih hnd.2 (fun k l r hkl => hkeys k l r (List.mem_cons_of_mem _ hkl))
      cases hsh : shortest g.2 with
      | none => rw [List.filterMap_cons_none (f := fun (g : Key × List Single) => shortest g.2) hsh]; exact ih'
      | some r =>
        rw [List.filterMap_cons_some (f := fun (g : Key × List Single) => shortest g.2) hsh, List.pairwise_cons]
        refine ⟨fun s hs hsame => ?_, ih'⟩
        obtain ⟨g', hg', hsh'⟩ := List.mem_filterMap.mp hs
        have e1 := hkeys g.1 g.2 r (by simp) hsh
        have e2 := hkeys g'.1 g'.2 s (by simp [hg']) hsh'
        rw [same_iff, e1, e2] at hsame
        exact hnd.1 (List.mem_map.mpr ⟨g', hg', hsame.symm⟩)

/-! ## The property -/

/-- **C31.** For all usages collected and in whatever order the groups are gone through: there is one usage with a
shortest target for each class of usages that are the same, and for each package and API, exactly these usages are
reported. -/
theorem C31_shortest (collected : List Single) (groups : List (Key × List Single))
    (hp : groups.Perm (collected.foldl push [])) :
    ∃ reps, Representatives collected reps ∧ (AMap.keys (emitShortest groups)).Nodup ∧
      ∀ pkg api, (emitShortest groups).get? (pkg, api) =
        reportOf (reps.filter (fun r => (r.pkg, r.api) = (pkg, api))) := by
  obtain ⟨h1, h2⟩ := emit_spec groups [] [] (by simp [AMap.keys]) (by simp [reportOf])
  exact ⟨_, representatives collected groups hp, h1, fun pkg api => h2 (pkg, api)⟩

/-- **C31.** A package and an API are reported together exactly if such a usage was collected, in one entry, with at
least one usage, and each of its usages was collected for this package and API. -/
theorem C31_pairs (collected : List Single) (groups : List (Key × List Single))
    (hp : groups.Perm (collected.foldl push [])) (pkg : PkgId) (api : Api) :
    ((∃ s ∈ collected, s.pkg = pkg ∧ s.api = api) ↔
      ∃ e ∈ (emitShortest groups).map Prod.snd, e.pkg = pkg ∧ e.api = api) ∧
    ∀ e ∈ (emitShortest groups).map Prod.snd, e.usages ≠ [] ∧
      (∃ s ∈ collected, s.pkg = e.pkg ∧ s.api = e.api ∧ s.scope = e.scope) ∧
      ∀ u ∈ e.usages, ∃ s ∈ collected, s.pkg = e.pkg ∧ s.api = e.api ∧ s.usage = u := by
  obtain ⟨reps, hr, h1, h2⟩ := C31_shortest collected groups hp
  have hentry : ∀ e ∈ (emitShortest groups).map Prod.snd, ∃ r l, reps.filter
      (fun r => (r.pkg, r.api) = (e.pkg, e.api)) = r :: l ∧ reportOf (r :: l) = some e ∧ r ∈ reps ∧ r.pkg = e.pkg ∧
        r.api = e.api := by
    intro e he
    obtain ⟨⟨⟨p, a⟩, e'⟩, hm, rfl⟩ := List.mem_map.mp he
    have hg := AMap.get?_of_mem h1 hm
    rw [h2] at hg
    cases hf : reps.filter (fun r => (r.pkg, r.api) = (p, a)) with
    | nil => rw [hf] at hg; cases hg
    | cons r l =>
      rw [hf] at hg
      have hrm : r ∈ reps.filter (fun r => (r.pkg, r.api) = (p, a)) := by rw [hf]; simp
      obtain ⟨g1, g2⟩ := List.mem_filter.mp hrm
      simp only [Prod.mk.injEq, decide_eq_true_eq] at g2
      have hpk : e'.pkg = p ∧ e'.api = a := by
        simp only [reportOf, Option.some.injEq] at hg
        subst hg
        exact g2
      refine ⟨r, l, ?_, hg, g1, by simp [hpk, g2], by simp [hpk, g2]⟩
      simp only [hpk]; exact hf
  refine ⟨⟨?_, ?_⟩, fun e he => ?_⟩
  · rintro ⟨s, hs, rfl, rfl⟩
    obtain ⟨r, hrm, hsame⟩ := hr.all s hs
    have hrf : r ∈ reps.filter (fun r => (r.pkg, r.api) = (s.pkg, s.api)) :=
      List.mem_filter.mpr ⟨hrm, by simp [hsame.1, hsame.2.2.1]⟩
    cases hf : reps.filter (fun r => (r.pkg, r.api) = (s.pkg, s.api)) with
    | nil => rw [hf] at hrf; cases hrf
    | cons x l =>
      have hx : x ∈ reps.filter (fun r => (r.pkg, r.api) = (s.pkg, s.api)) := by rw [hf]; simp
      have hx2 := (List.mem_filter.mp hx).2
      simp only [Prod.mk.injEq, decide_eq_true_eq] at hx2
      have hg := h2 s.pkg s.api
      rw [hf] at hg
      exact ⟨_, List.mem_map.mpr ⟨_, AMap.mem_of_get? hg, rfl⟩, hx2⟩
  · rintro ⟨e, he, rfl, rfl⟩
    obtain ⟨r, l, _, _, g1, g2, g3⟩ := hentry e he
    exact ⟨r, hr.sound r g1, g2, g3⟩
  · obtain ⟨r, l, hf, hrep, g1, g2, g3⟩ := hentry e he
    simp only [reportOf, Option.some.injEq] at hrep
    refine ⟨by rw [← hrep]; simp, ⟨r, hr.sound r g1, g2, g3, by rw [← hrep]⟩, fun u hu => ?_⟩
    have hu' : u ∈ (r :: l).map Single.usage := by rw [← hrep] at hu; exact hu
    obtain ⟨s, hs, rfl⟩ := List.mem_map.mp hu'
    rw [← hf] at hs
    obtain ⟨k1, k2⟩ := List.mem_filter.mp hs
    simp only [Prod.mk.injEq, decide_eq_true_eq] at k2
    exact ⟨s, hr.sound s k1, k2.1, k2.2, rfl⟩

/-! ## Non-vacuity -/

private def use (pkg : Str) (line : Nat) (target : Str) : Single :=
  { pkg := ⟨pkg, str! "1.0.0", true⟩, scope := .all, api := str! "fs",
    usage := { address := 1, symbolStart := 0, binPath := str! "/bin", scope := .all,
               loc := ⟨str! "/p/a.rs", line, none⟩, outer := none, from_ := .symbol (str! "f"), to := .symbol target,
               toName := [str! "std", str! "fs"], toSource := .symbol target } }

/-- Two usages that are the same, another one at another place, and one by another package; the groups are gone through
in another order than they were made. -/
example : (emitShortest ([use (str! "p") 1 (str! "long"), use (str! "q") 1 (str! "x"), use (str! "p") 1 (str! "ab"),
      use (str! "p") 2 (str! "longer")].foldl push []).reverse).map Prod.snd =
    [{ pkg := ⟨str! "p", str! "1.0.0", true⟩, scope := .all, api := str! "fs",
       usages := [(use (str! "p") 2 (str! "longer")).usage, (use (str! "p") 1 (str! "ab")).usage] },
     { pkg := ⟨str! "q", str! "1.0.0", true⟩, scope := .all, api := str! "fs",
       usages := [(use (str! "q") 1 (str! "x")).usage] }] := by decide +kernel

example : Same (use (str! "p") 1 (str! "long")) (use (str! "p") 1 (str! "ab")) := by simp [Same, use]

end Cackle.Graph
