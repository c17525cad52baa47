import Verif.Props.Report

/-!
# C147: the report does not depend on the order in which uses were found
-/

namespace Cackle.Report
open Cackle Config Perm

/-! ## Specification -/

/-- The claim: the same uses in another order give the same text. -/
def C147_Claim : Prop := ∀ (env : Names) (us vs : List ApiUsage), us.Perm vs → displayUsages env us = displayUsages env vs

/-- The uses of one function in one file, in the order in which they were found. -/
def usesIn (file : Str) (f : SymOrDebug) (us : List ApiUsage) : List ApiUsage :=
  us.filter (fun u => decide (u.loc.file = file ∧ u.from_ = f))

/-- The same file is always written in the same way. -/
def SameSpelling (us : List ApiUsage) : Prop := ∀ u ∈ us, ∀ v ∈ us, pathOf u.loc.file = pathOf v.loc.file → u.loc.file = v.loc.file

/-- Lines that name files and functions. -/
def Line.isHeading : Line → Bool
  | .use_ _ _ => false
  | _ => true

/-! ## Orders -/

structure StrictTotal {α : Type} (lt : α → α → Bool) : Prop where
  irrefl : ∀ a, lt a a = false
  trans : ∀ a b c, lt a b = true → lt b c = true → lt a c = true
  tri : ∀ a b, lt a b = false → lt b a = false → a = b

theorem StrictTotal.asymm {α : Type} {lt : α → α → Bool} (h : StrictTotal lt) {a b : α} (h1 : lt a b = true) : lt b a = false := by
  cases h2 : lt b a with
  | false => rfl
  | true =>
    have := h.trans _ _ _ h1 h2
    rw [h.irrefl] at this
    cases this

theorem lexLt_total {α : Type} {lt : α → α → Bool} (h : StrictTotal lt) : StrictTotal (lexLt lt) := by
  refine ⟨?_, ?_, ?_⟩
  · intro a
    induction a with
    | nil => rfl
    | cons a l ih => simp [lexLt, h.irrefl, ih]
  · intro a
    induction a with
    | nil =>
      intro b c h1 h2
      cases c with
      | nil => cases b <;> simp [lexLt] at h2
      | cons c cs => rfl
    | cons x a ih =>
      intro b c h1 h2
      cases b with
      | nil => simp [lexLt] at h1
      | cons y b =>
        cases c with
        | nil => simp [lexLt] at h2
        | cons z c =>
          simp only [lexLt, Bool.or_eq_true, Bool.and_eq_true, Bool.not_eq_true'] at h1 h2 ⊢
          rcases h1 with h1 | ⟨h1, h1'⟩ <;> rcases h2 with h2 | ⟨h2, h2'⟩
          · exact .inl (h.trans _ _ _ h1 h2)
          · cases hyz : lt y z with
            | true => exact .inl (h.trans _ _ _ h1 hyz)
            | false =>
              have := h.tri _ _ hyz h2
              subst this
              exact .inl h1
          · cases hxy : lt x y with
            | true => exact .inl (h.trans _ _ _ hxy h2)
            | false =>
              have := h.tri _ _ hxy h1
              subst this
              exact .inl h2
          · cases hxy : lt x y with
            | true =>
              cases hyz : lt y z with
              | true => exact .inl (h.trans _ _ _ hxy hyz)
              | false =>
                have := h.tri _ _ hyz h2
                subst this
                exact .inl hxy
            | false =>
              have := h.tri _ _ hxy h1
              subst this
              cases hyz : lt x z with
              | true => exact .inl rfl
              | false => exact .inr ⟨h2, ih _ _ h1' h2'⟩
  · intro a
    induction a with
    | nil =>
      intro b h1 h2
      cases b with
      | nil => rfl
      | cons y b => simp [lexLt] at h1
    | cons x a ih =>
      intro b h1 h2
      cases b with
      | nil => simp [lexLt] at h2
      | cons y b =>
        simp only [lexLt, Bool.or_eq_false_iff, Bool.and_eq_false_iff, Bool.not_eq_false'] at h1 h2
        have := h.tri _ _ h1.1 h2.1
        subst this
        rw [h.irrefl] at h1 h2
        rw [ih b (by simpa using h1) (by simpa using h2)]

theorem strLt_total : StrictTotal strLt := by
  refine lexLt_total ⟨?_, ?_, ?_⟩
  · intro a
    simp
  · intro a b c h1 h2
    simp only [decide_eq_true_eq] at *
    omega
  · intro a b h1 h2
    simp only [decide_eq_false_iff_not] at *
    exact Char.ext (UInt32.toNat_inj.mp (show a.toNat = b.toNat by omega))

theorem compLt_total : StrictTotal compLt := by
  refine ⟨?_, ?_, ?_⟩
  · intro a
    simp [compLt, strLt_total.irrefl]
  · intro a b c h1 h2
    simp only [compLt, Bool.or_eq_true, Bool.and_eq_true, decide_eq_true_eq] at *
    rcases h1 with h1 | ⟨h1, h1'⟩ <;> rcases h2 with h2 | ⟨h2, h2'⟩
    · exact .inl (by omega)
    · exact .inl (by omega)
    · exact .inl (by omega)
    · exact .inr ⟨by omega, strLt_total.trans _ _ _ h1' h2'⟩
  · intro a b h1 h2
    simp only [compLt, Bool.or_eq_false_iff, Bool.and_eq_false_iff, decide_eq_false_iff_not] at h1 h2
    have hr : rank a = rank b := by omega
    refine strLt_total.tri _ _ ?_ ?_
    · rcases h1.2 with h | h
      · exact absurd hr h
      · exact h
    · rcases h2.2 with h | h
      · exact absurd hr.symm h
      · exact h

theorem symLt_total : StrictTotal symLt := by
  have hs := strLt_total
  have hl := lexLt_total strLt_total
  refine ⟨?_, ?_, ?_⟩
  · intro a
    cases a <;> simp [symLt, hs.irrefl, hl.irrefl]
  · intro a b c h1 h2
    cases a <;> cases b <;> cases c <;> simp only [symLt, Bool.false_eq_true] at h1 h2 ⊢
    · exact hs.trans _ _ _ h1 h2
    · rename_i n x m y k z
      simp only [Bool.or_eq_true, Bool.and_eq_true, Bool.not_eq_true'] at h1 h2 ⊢
      rcases h1 with h1 | ⟨h1, h1'⟩ <;> rcases h2 with h2 | ⟨h2, h2'⟩
      · exact .inl (hl.trans _ _ _ h1 h2)
      · cases hmk : lexLt strLt m k with
        | true => exact .inl (hl.trans _ _ _ h1 hmk)
        | false =>
          have := hl.tri _ _ hmk h2
          subst this
          exact .inl h1
      · cases hnm : lexLt strLt n m with
        | true => exact .inl (hl.trans _ _ _ hnm h2)
        | false =>
          have := hl.tri _ _ hnm h1
          subst this
          exact .inl h2
      · cases hnm : lexLt strLt n m with
        | true =>
          cases hmk : lexLt strLt m k with
          | true => exact .inl (hl.trans _ _ _ hnm hmk)
          | false =>
            have := hl.tri _ _ hmk h2
            subst this
            exact .inl hnm
        | false =>
          have := hl.tri _ _ hnm h1
          subst this
          exact .inr ⟨h2, hs.trans _ _ _ h1' h2'⟩
  · intro a b h1 h2
    cases a <;> cases b <;> simp only [symLt, Bool.true_eq_false] at h1 h2
    · rw [hs.tri _ _ h1 h2]
    · rename_i n x m y
      simp only [Bool.or_eq_false_iff, Bool.and_eq_false_iff, Bool.not_eq_false'] at h1 h2
      have := hl.tri _ _ h1.1 h2.1
      subst this
      rw [hl.irrefl] at h1 h2
      have e : x = y := hs.tri x y (by simpa using h1) (by simpa using h2)
      rw [e]

/-! ## Sorted groups -/

/-- `lt` is an order, in which different elements of `P` are comparable. -/
structure OrderOn {K : Type} (lt : K → K → Bool) (P : K → Prop) : Prop where
  irrefl : ∀ a, lt a a = false
  trans : ∀ a b c, lt a b = true → lt b c = true → lt a c = true
  tri : ∀ a b, P a → P b → lt a b = false → lt b a = false → a = b

theorem OrderOn.asymm {K : Type} {lt : K → K → Bool} {P : K → Prop} (h : OrderOn lt P) {a b : K} (h1 : lt a b = true)
    (h2 : lt b a = true) : False := by
  have := h.trans _ _ _ h1 h2
  rw [h.irrefl] at this
  cases this

section
variable {K V : Type} [DecidableEq K] {lt : K → K → Bool} {key : V → K} {P : K → Prop}

/-- A map that has, for each key of the values, the values with this key. -/
structure Grouped (lt : K → K → Bool) (key : V → K) (vs : List V) (m : List (K × List V)) : Prop where
  sorted : (m.map Prod.fst).Pairwise (fun a b => lt a b = true)
  keys : ∀ k, k ∈ m.map Prod.fst ↔ ∃ v ∈ vs, key v = k
  values : ∀ g ∈ m, g.2 = vs.filter (fun v => decide (key v = g.1))

theorem push_sorted (h : OrderOn lt P) {k : K} {v : V} : ∀ {m : List (K × List V)}, P k → (∀ g ∈ m, P g.1) →
    (m.map Prod.fst).Pairwise (fun a b => lt a b = true) → ((push lt k v m).map Prod.fst).Pairwise (fun a b => lt a b = true) ∧
    (∀ k', k' ∈ (push lt k v m).map Prod.fst ↔ k' = k ∨ k' ∈ m.map Prod.fst) ∧
    ∀ g ∈ push lt k v m, (g.1 = k ∧ ((∃ vs, (k, vs) ∈ m ∧ g.2 = vs ++ [v]) ∨ (k ∉ m.map Prod.fst ∧ g.2 = [v]))) ∨ (g.1 ≠ k ∧ g ∈ m)
  | [], _, _, _ => by
    refine ⟨List.pairwise_singleton _ _, fun k' => ?_, fun g hg => ?_⟩
    · simp [push]
    · simp only [push, List.mem_singleton] at hg
      subst hg
      exact .inl ⟨rfl, .inr ⟨by simp, rfl⟩⟩
  | (k', l) :: m, hk, hm, hs => by
    have hs' := List.pairwise_cons.mp (show List.Pairwise _ (k' :: m.map Prod.fst) from hs)
    unfold push
    cases h1 : lt k k' with
    | true =>
      rw [if_pos rfl]
      have hlt : ∀ x ∈ k' :: m.map Prod.fst, lt k x = true := by
        intro x hx
        rcases List.mem_cons.mp hx with rfl | hx
        · exact h1
        · exact h.trans _ _ _ h1 (hs'.1 x hx)
      have hnot : k ∉ k' :: m.map Prod.fst := by
        intro hx
        have := hlt k hx
        rw [h.irrefl] at this
        cases this
      refine ⟨List.pairwise_cons.mpr ⟨hlt, hs⟩, fun x => by simp, fun g hg => ?_⟩
      rcases List.mem_cons.mp hg with rfl | hg'
      · exact .inl ⟨rfl, .inr ⟨hnot, rfl⟩⟩
      · refine .inr ⟨fun e => hnot ?_, hg'⟩
        rw [← e]
        exact List.mem_map.mpr ⟨g, hg', rfl⟩
    | false =>
      rw [if_neg (by decide)]
      cases h2 : lt k' k with
      | true =>
        rw [if_pos rfl]
        obtain ⟨i1, i2, i3⟩ := push_sorted h (k := k) (v := v) hk (fun g hg => hm g (.tail _ hg)) hs'.2
        refine ⟨List.pairwise_cons.mpr ⟨fun x hx => ?_, i1⟩, fun x => ?_, fun g hg => ?_⟩
        · rcases (i2 x).mp hx with rfl | hx
          · exact h2
          · exact hs'.1 x hx
        · simp only [List.map_cons, List.mem_cons, i2 x]
          constructor
          · rintro (h | h | h)
            · exact .inr (.inl h)
            · exact .inl h
            · exact .inr (.inr h)
          · rintro (h | h | h)
            · exact .inr (.inl h)
            · exact .inl h
            · exact .inr (.inr h)
        · have hne : k' ≠ k := by
            rintro rfl
            rw [h.irrefl] at h2
            cases h2
          rcases List.mem_cons.mp hg with rfl | hg
          · exact .inr ⟨hne, .head _⟩
          · rcases i3 g hg with ⟨e, (⟨ws, hw, e2⟩ | ⟨hn, e2⟩)⟩ | ⟨e, hg⟩
            · exact .inl ⟨e, .inl ⟨ws, .tail _ hw, e2⟩⟩
            · refine .inl ⟨e, .inr ⟨?_, e2⟩⟩
              simp only [List.map_cons, List.mem_cons, not_or]
              exact ⟨fun e => hne e.symm, hn⟩
            · exact .inr ⟨e, .tail _ hg⟩
      | false =>
        rw [if_neg (by decide)]
        have e := h.tri _ _ hk (hm _ (.head _)) h1 h2
        subst e
        refine ⟨hs, fun x => by simp, fun g hg => ?_⟩
        rcases List.mem_cons.mp hg with rfl | hg'
        · exact .inl ⟨rfl, .inl ⟨l, .head _, rfl⟩⟩
        · refine .inr ⟨fun e => ?_, .tail _ hg'⟩
          have := hs'.1 g.1 (List.mem_map.mpr ⟨g, hg', rfl⟩)
          rw [e, h.irrefl] at this
          cases this

theorem grouped_push (h : OrderOn lt P) {vs : List V} {v : V} {m : List (K × List V)} (hp : ∀ w ∈ vs ++ [v], P (key w))
    (hg : Grouped lt key vs m) : Grouped lt key (vs ++ [v]) (push lt (key v) v m) := by
  have hpm : ∀ g ∈ m, P g.1 := by
    intro g hgm
    obtain ⟨w, hw, e⟩ := (hg.keys g.1).mp (List.mem_map.mpr ⟨g, hgm, rfl⟩)
    rw [← e]
    exact hp w (List.mem_append_left _ hw)
  obtain ⟨s1, s2, s3⟩ := push_sorted h (k := key v) (v := v) (hp v (by simp)) hpm hg.sorted
  refine ⟨s1, fun k => ?_, fun g hgm => ?_⟩
  · rw [s2 k, hg.keys k]
    constructor
    · rintro (rfl | ⟨w, hw, e⟩)
      · exact ⟨v, by simp, rfl⟩
      · exact ⟨w, List.mem_append_left _ hw, e⟩
    · rintro ⟨w, hw, e⟩
      rcases List.mem_append.mp hw with hw | hw
      · exact .inr ⟨w, hw, e⟩
      · rw [List.mem_singleton.mp hw] at e
        exact .inl e.symm
  · rw [List.filter_append]
    rcases s3 g hgm with ⟨e, (⟨ws, hw, e2⟩ | ⟨hn, e2⟩)⟩ | ⟨e, hgm⟩
    · rw [e2, e, List.filter_cons_of_pos (by simp), List.filter_nil]
      exact congrArg (· ++ [v]) (hg.values _ hw)
    · rw [e2, e, List.filter_cons_of_pos (by simp), List.filter_nil]
      have : vs.filter (fun w => decide (key w = key v)) = [] := by
        rw [List.filter_eq_nil_iff]
        intro w hw hd
        exact hn ((hg.keys _).mpr ⟨w, hw, of_decide_eq_true hd⟩)
      rw [this]
      rfl
    · rw [List.filter_cons_of_neg (by simpa using fun h => e h.symm), List.filter_nil, List.append_nil]
      exact hg.values g hgm

theorem grouped_foldl (h : OrderOn lt P) : ∀ (ws : List V) {vs : List V} {m : List (K × List V)}, (∀ w ∈ vs ++ ws, P (key w)) →
    Grouped lt key vs m → Grouped lt key (vs ++ ws) (ws.foldl (fun m v => push lt (key v) v m) m)
  | [], vs, m, _, hg => by rwa [List.append_nil]
  | w :: ws, vs, m, hp, hg => by
    have e : vs ++ w :: ws = (vs ++ [w]) ++ ws := by simp
    rw [e] at hp ⊢
    exact grouped_foldl h ws hp (grouped_push h (fun x hx => hp x (List.mem_append_left _ hx)) hg)

theorem grouped (h : OrderOn lt P) (vs : List V) (hp : ∀ v ∈ vs, P (key v)) : Grouped lt key vs (group lt key vs) :=
  grouped_foldl h vs (vs := []) (m := []) hp ⟨.nil, fun k => by simp, fun g hg => by cases hg⟩

omit [DecidableEq K] in
theorem sorted_unique (h : OrderOn lt P) : ∀ {a b : List K}, a.Pairwise (fun x y => lt x y = true) →
    b.Pairwise (fun x y => lt x y = true) → (∀ k, k ∈ a ↔ k ∈ b) → a = b
  | [], [], _, _, _ => rfl
  | [], y :: b, _, _, hm => absurd ((hm y).mpr (.head _)) (by simp)
  | x :: a, [], _, _, hm => absurd ((hm x).mp (.head _)) (by simp)
  | x :: a, y :: b, ha, hb, hm => by
    have ha' := List.pairwise_cons.mp ha
    have hb' := List.pairwise_cons.mp hb
    have e : x = y := by
      rcases List.mem_cons.mp ((hm x).mp (.head _)) with e | h1
      · exact e
      · rcases List.mem_cons.mp ((hm y).mpr (.head _)) with e | h2
        · exact e.symm
        · exact (h.asymm (ha'.1 y h2) (hb'.1 x h1)).elim
    subst e
    rw [sorted_unique h ha'.2 hb'.2]
    intro k
    constructor
    · intro hk
      rcases List.mem_cons.mp ((hm k).mp (.tail _ hk)) with rfl | h1
      · have := ha'.1 k hk
        rw [h.irrefl] at this
        cases this
      · exact h1
    · intro hk
      rcases List.mem_cons.mp ((hm k).mpr (.tail _ hk)) with rfl | h1
      · have := hb'.1 k hk
        rw [h.irrefl] at this
        cases this
      · exact h1

/-- What is in the groups is determined by which keys there are and by the values for each key. -/
theorem group_eq (h : OrderOn lt P) {vs : List V} (hp : ∀ v ∈ vs, P (key v)) :
    group lt key vs = ((group lt key vs).map Prod.fst).map (fun k => (k, vs.filter (fun v => decide (key v = k)))) := by
  have hg := grouped h vs hp
  rw [List.map_map]
  conv => lhs; rw [← List.map_id (group lt key vs)]
  refine List.map_congr_left fun g hgm => ?_
  show g = (g.1, _)
  rw [← hg.values g hgm]

theorem group_keys_eq (h : OrderOn lt P) {vs ws : List V} (hp : ∀ v ∈ vs, P (key v)) (hq : ∀ v ∈ ws, P (key v))
    (hm : ∀ k, (∃ v ∈ vs, key v = k) ↔ ∃ v ∈ ws, key v = k) :
    (group lt key vs).map Prod.fst = (group lt key ws).map Prod.fst := by
  have g1 := grouped h vs hp
  have g2 := grouped h ws hq
  exact sorted_unique h g1.sorted g2.sorted fun k => by rw [g1.keys, g2.keys, hm]

end

theorem symLt_orderOn : OrderOn symLt (fun _ => True) := ⟨symLt_total.irrefl, symLt_total.trans, fun a b _ _ => symLt_total.tri a b⟩

theorem pathLt_orderOn {us : List ApiUsage} (h : SameSpelling us) : OrderOn pathLt (fun f => ∃ u ∈ us, u.loc.file = f) := by
  have hl := lexLt_total compLt_total
  refine ⟨fun a => hl.irrefl _, fun a b c => hl.trans _ _ _, ?_⟩
  rintro _ _ ⟨u, hu, rfl⟩ ⟨v, hv, rfl⟩ h1 h2
  exact h u hu v hv (hl.tri _ _ h1 h2)

/-! ## The property -/

theorem usesIn_mem {file : Str} {f : SymOrDebug} {us : List ApiUsage} {u : ApiUsage} :
    u ∈ usesIn file f us ↔ u ∈ us ∧ u.loc.file = file ∧ u.from_ = f := by
  simp [usesIn]

theorem fromLines_eq (env : Names) {us vs : List ApiUsage} (hm : ∀ f, (∃ u ∈ us, u.from_ = f) ↔ ∃ v ∈ vs, v.from_ = f)
    (h : ∀ f, us.filter (fun u => decide (u.from_ = f)) = vs.filter (fun u => decide (u.from_ = f))) :
    fromLines env us = fromLines env vs := by
  unfold fromLines
  rw [group_eq symLt_orderOn (fun _ _ => trivial), group_eq symLt_orderOn (vs := vs) (fun _ _ => trivial),
    group_keys_eq symLt_orderOn (fun _ _ => trivial) (fun _ _ => trivial) hm, funext fun f => congrArg (Prod.mk f) (h f)]

/-- **C147 (partial).** The text is determined by the uses of each function in each file. In particular, the order in which
files, functions and uses of different functions were found makes no difference. Missing: the order of uses in the same function, see
`C147_same_function`, and files whose name is written in several ways, see `C147_spelling`. -/
theorem C147_partial (env : Names) {us vs : List ApiUsage} (hs : SameSpelling us)
    (h : ∀ file f, usesIn file f us = usesIn file f vs) : displayUsages env us = displayUsages env vs := by
  have hmem : ∀ u, u ∈ us ↔ u ∈ vs := by
    intro u
    constructor
    · intro hu
      have := usesIn_mem.mpr ⟨hu, rfl, rfl⟩
      rw [h] at this
      exact (usesIn_mem.mp this).1
    · intro hu
      have := usesIn_mem.mpr ⟨hu, rfl, rfl⟩
      rw [← h] at this
      exact (usesIn_mem.mp this).1
  have ho := pathLt_orderOn hs
  have hp : ∀ v ∈ us, ∃ u ∈ us, u.loc.file = v.loc.file := fun v hv => ⟨v, hv, rfl⟩
  have hq : ∀ v ∈ vs, ∃ u ∈ us, u.loc.file = v.loc.file := fun v hv => ⟨v, (hmem v).mpr hv, rfl⟩
  unfold displayUsages
  rw [group_eq ho hp, group_eq ho hq, group_keys_eq ho hp hq (fun k =>
    ⟨fun ⟨v, hv, e⟩ => ⟨v, (hmem v).mp hv, e⟩, fun ⟨v, hv, e⟩ => ⟨v, (hmem v).mpr hv, e⟩⟩)]
  generalize (group pathLt (fun u : ApiUsage => u.loc.file) vs).map Prod.fst = ks
  rw [List.flatMap_map, List.flatMap_map]
  have hfun : ∀ {f g : Str → List Line} (l : List Str), (∀ k, f k = g k) → l.flatMap f = l.flatMap g := by
    intro f g l h
    rw [funext h]
  refine hfun _ fun k => ?_
  show Line.file k :: fromLines env _ = Line.file k :: fromLines env _
  refine congrArg _ (fromLines_eq env ?_ ?_)
  · intro f
    simp only [List.mem_filter, hmem]
  · intro f
    have := h k f
    unfold usesIn at this
    rw [List.filter_filter, List.filter_filter]
    simpa [Bool.decide_and, Bool.and_comm] using this

/-- **C147: files and functions.** The same uses in any order: the lines that name files and functions are the same, in the same order. -/
theorem C147_headings (env : Names) {us vs : List ApiUsage} (hs : SameSpelling us) (h : us.Perm vs) :
    (displayUsages env us).filter Line.isHeading = (displayUsages env vs).filter Line.isHeading := by
  have key : ∀ (us : List ApiUsage), SameSpelling us → (displayUsages env us).filter Line.isHeading =
      ((group pathLt (fun u => u.loc.file) us).map Prod.fst).flatMap (fun k => Line.file k ::
        ((group symLt ApiUsage.from_ (us.filter (fun u => decide (u.loc.file = k)))).map Prod.fst).map (fun f => Line.from_ (env.sym f))) := by
    intro us hs
    have ho := pathLt_orderOn hs
    have hin : ∀ gs : List (SymOrDebug × List ApiUsage), (gs.flatMap (fun g =>
        Line.from_ (env.sym g.1) :: g.2.map (fun u => Line.use_ (env.sym u.toSource) (posText u.loc)))).filter Line.isHeading =
        (gs.map Prod.fst).map (fun f => Line.from_ (env.sym f)) := by
      intro gs
      induction gs with
      | nil => rfl
      | cons g gs ih =>
        have e : (g.2.map (fun u => Line.use_ (env.sym u.toSource) (posText u.loc))).filter Line.isHeading = [] := by
          rw [List.filter_eq_nil_iff]
          intro l hl
          obtain ⟨u, _, rfl⟩ := List.mem_map.mp hl
          exact Bool.false_ne_true
        rw [List.flatMap_cons, List.filter_append, ih, List.filter_cons_of_pos rfl, e]
        rfl
    unfold displayUsages
    rw [group_eq ho (fun v hv => ⟨v, hv, rfl⟩), List.flatMap_map, List.filter_flatMap, List.map_map]
    have : (Prod.fst ∘ fun k => (k, us.filter (fun u => decide (u.loc.file = k)))) = (id : Str → Str) := rfl
    rw [this, List.map_id]
    congr 1
    funext k
    rw [List.filter_cons_of_pos rfl]
    exact congrArg _ (hin _)
  have hs' : SameSpelling vs := fun u hu v hv => hs u (h.mem_iff.mpr hu) v (h.mem_iff.mpr hv)
  have ho := pathLt_orderOn hs
  rw [key us hs, key vs hs', group_keys_eq ho (fun v hv => ⟨v, hv, rfl⟩) (fun v hv => ⟨v, h.mem_iff.mpr hv, rfl⟩)
    (fun k => by simp only [h.mem_iff])]
  congr 1
  funext k
  rw [group_keys_eq symLt_orderOn (ws := vs.filter (fun u => decide (u.loc.file = k))) (fun _ _ => trivial) (fun _ _ => trivial)
    (fun f => by simp only [List.mem_filter, h.mem_iff])]

/-! ## Disagreements -/

def use1 : ApiUsage := useOf (str! "src/a.rs") (str! "a::f") (str! "read") 3
def use2 : ApiUsage := useOf (str! "src/a.rs") (str! "a::f") (str! "write") 7
def use3 : ApiUsage := useOf (str! "src//a.rs") (str! "a::g") (str! "write") 9

/-- **C147, disagreement.** Two uses in the same function are listed in the order in which they were found, which depends on the order of
a hash map (symbol_graph.rs:473). -/
theorem C147_same_function : displayUsages plainEnv [use1, use2] ≠ displayUsages plainEnv [use2, use1] := by
  decide +kernel

/-- **C147, disagreement.** A file whose name is written in two ways is listed as it was written when it was found first. -/
theorem C147_spelling : displayUsages plainEnv [use1, use3] ≠ displayUsages plainEnv [use3, use1] := by
  decide +kernel

theorem C147_refuted : ¬ C147_Claim := fun h => C147_same_function (h plainEnv _ _ (List.Perm.swap _ _ _))

/-! ## Examples -/

/-- Two files and two functions. -/
example : SameSpelling [use1, useOf (str! "src/b.rs") (str! "a::g") (str! "read") 1] ∧
    displayUsages plainEnv [useOf (str! "src/b.rs") (str! "a::g") (str! "read") 1, use1] =
      [.file (str! "src/a.rs"), .from_ (str! "a::f"), .use_ (str! "std::fs::read") (str! "[3:5]"),
        .file (str! "src/b.rs"), .from_ (str! "a::g"), .use_ (str! "std::fs::read") (str! "[1:5]")] := by
  refine ⟨?_, by decide +kernel⟩
  intro u hu v hv
  simp only [List.mem_cons, List.not_mem_nil, or_false] at hu hv
  rcases hu with rfl | rfl <;> rcases hv with rfl | rfl <;> decide

end Cackle.Report
