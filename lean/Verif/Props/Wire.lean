import Verif.Model.Wire

/-!
# C25: framing round-trips; C45: replay order
-/

namespace Cackle.Wire
open Cackle

/-! ## C25 -/

theorem fromLe_leBytes : ∀ (k n : Nat), n < 256 ^ k → fromLe (leBytes k n) = n
  | 0, n, h => by
    simp at h
    simp [leBytes, fromLe, h]
  | k + 1, n, h => by
    have : n / 256 < 256 ^ k := by
      rw [Nat.div_lt_iff_lt_mul (by decide)]
      rw [Nat.pow_succ] at h
      exact h
    simp only [leBytes, fromLe, fromLe_leBytes k _ this]
    omega

theorem length_leBytes : ∀ k n, (leBytes k n).length = k
  | 0, _ => rfl
  | k + 1, n => by simp [leBytes, length_leBytes k]

theorem readExact_append (a b : List Byte) : readExact a.length (a ++ b) = some (a, b) := by
  simp [readExact]

variable {T : Type}

/-- The messages that can be sent: they decode to themselves and their length fits in 8 bytes (a `String`
in memory always does). -/
def Sendable (ser : T → List Byte) (de : List Byte → Option T) (v : T) : Prop :=
  de (ser v) = some v ∧ (ser v).length < 256 ^ 8

theorem readMsg_writeMsg {ser : T → List Byte} {de : List Byte → Option T} {v : T}
    (h : Sendable ser de v) (rest : List Byte) : readMsg de (writeMsg ser v ++ rest) = some (v, rest) := by
  have h8 := readExact_append (leBytes 8 (ser v).length) (ser v ++ rest)
  rw [length_leBytes] at h8
  simp only [readMsg, writeMsg, List.append_assoc, h8, fromLe_leBytes 8 _ h.2, readExact_append, h.1,
    Option.map_some]

/-- A proper prefix of a message is an error. -/
theorem readMsg_truncated {ser : T → List Byte} {de : List Byte → Option T} {v : T}
    (h : Sendable ser de v) {s t : List Byte} (hs : writeMsg ser v = s ++ t) (ht : t ≠ []) :
    readMsg de s = none := by
  have hlen : s.length < 8 + (ser v).length := by
    have := congrArg List.length hs
    simp only [writeMsg, List.length_append, length_leBytes] at this
    have : 0 < t.length := List.length_pos_iff.mpr ht
    omega
  simp only [readMsg]
  by_cases h8 : 8 ≤ s.length
  · have hle : s.take 8 = leBytes 8 (ser v).length := by
      have := congrArg (List.take 8) hs
      rw [writeMsg, List.take_append_of_le_length (by rw [length_leBytes]; omega),
        List.take_of_length_le (by rw [length_leBytes]; omega),
        List.take_append_of_le_length h8] at this
      exact this.symm
    have e1 : readExact 8 s = some (s.take 8, s.drop 8) := by simp [readExact, h8]
    rw [e1, hle]
    simp only [fromLe_leBytes 8 _ h.2]
    have e2 : readExact (ser v).length (s.drop 8) = none := by
      simp only [readExact, List.length_drop]
      rw [if_neg (by omega)]
    rw [e2]
  · have e1 : readExact 8 s = none := by simp [readExact, h8]
    rw [e1]

/-- **C25.** Whatever sequence of messages is written, and wherever the stream is cut off, the reader gets
exactly the messages that arrived completely, in order, and then an error: the first `k` messages for the
largest `k` whose bytes are all there. -/
theorem C25_framing (ser : T → List Byte) (de : List Byte → Option T) (vs : List T)
    (hv : ∀ v ∈ vs, Sendable ser de v) (s : List Byte) (hs : s <+: vs.flatMap (writeMsg ser))
    (fuel : Nat) (hf : vs.length < fuel) :
    ∃ k, k ≤ vs.length ∧ readAll de fuel s = vs.take k ∧ (vs.take k).flatMap (writeMsg ser) <+: s ∧
      (k < vs.length → ¬ (vs.take (k + 1)).flatMap (writeMsg ser) <+: s) := by
  induction vs generalizing s fuel with
  | nil =>
    obtain ⟨n, rfl⟩ : ∃ n, fuel = n + 1 := ⟨fuel - 1, by simp at hf; omega⟩
    have : s = [] := by simpa using hs
    subst this
    exact ⟨0, by simp, by simp [readAll, readMsg, readExact], by simp, by simp⟩
  | cons v vs ih =>
    obtain ⟨n, rfl⟩ : ∃ n, fuel = n + 1 := ⟨fuel - 1, by simp at hf; omega⟩
    simp only [List.flatMap_cons] at hs
    by_cases hw : writeMsg ser v <+: s
    · obtain ⟨rest, rfl⟩ := hw
      rw [List.prefix_append_right_inj] at hs
      obtain ⟨k, h1, h2, h3, h4⟩ := ih (fun x hx => hv x (by simp [hx])) rest hs n (by simpa using hf)
      refine ⟨k + 1, by simpa using h1, ?_, ?_, ?_⟩
      · simp only [readAll, readMsg_writeMsg (hv v (by simp)), h2, List.take_succ_cons]
      · simpa [List.take_succ_cons, List.prefix_append_right_inj] using h3
      · intro hk
        have := h4 (by simpa using hk)
        rw [List.take_succ_cons, List.flatMap_cons, List.prefix_append_right_inj]
        exact this
    · have hlt : s <+: writeMsg ser v := by
        rcases List.prefix_or_prefix_of_prefix hs (List.prefix_append _ _) with h | h
        · exact h
        · exact absurd h hw
      obtain ⟨t, ht⟩ := hlt
      have htn : t ≠ [] := by
        rintro rfl
        exact hw (by rw [← ht]; simp)
      refine ⟨0, by simp, ?_, by simp, ?_⟩
      · simp [readAll, readMsg_truncated (hv v (by simp)) ht.symm htn]
      · intro _
        simpa using hw

/-- In particular an uncut stream is read back completely. -/
theorem C25_round_trip (ser : T → List Byte) (de : List Byte → Option T) (vs : List T)
    (hv : ∀ v ∈ vs, Sendable ser de v) (fuel : Nat) (hf : vs.length < fuel) :
    readAll de fuel (vs.flatMap (writeMsg ser)) = vs := by
  obtain ⟨k, h1, h2, h3, h4⟩ := C25_framing ser de vs hv _ (List.prefix_refl _) fuel hf
  rw [h2]
  by_cases hk : k < vs.length
  · refine absurd ?_ (h4 hk)
    conv => rhs; rw [← List.take_append_drop (k + 1) vs, List.flatMap_append]
    exact List.prefix_append _ _
  · exact List.take_of_length_le (by omega)

/-! Non-vacuity: messages that are byte strings; the second of two is cut. -/
example : readAll some 5 ((writeMsg id [1, 2, 3] ++ writeMsg id [4, 5]).take 20) = [[1, 2, 3]] := by decide
example : ∀ v ∈ [[1, 2, 3], [(4 : Byte), 5]], Sendable id some v := by
  intro v hv
  simp only [List.mem_cons, List.not_mem_nil, or_false] at hv
  rcases hv with rfl | rfl <;> exact ⟨rfl, by decide⟩

/-! ## C45 -/

/-- The English claim C45: requests saved in an empty directory are replayed in the order in which they
were saved, whatever order the directory is listed in. -/
def C45_Claim : Prop :=
  ∀ (T : Type) (requests : List T) (listing : List (Str × T)),
    listing.Perm (requests.foldl save []) → replay listing = requests

theorem digit_toNat : ∀ d < 10, (Char.ofNat (48 + d)).toNat = 48 + d := by decide

/-- The number that a list of digits denotes. -/
def value (s : Str) : Nat := s.foldl (fun a c => 10 * a + (c.toNat - 48)) 0

theorem value_decimal (n : Nat) : value (decimal n) = n := by
  induction n using Nat.strongRecOn with
  | ind n ih =>
    rw [decimal]
    split
    · rename_i h
      simp [value, digit_toNat n h]
    · rename_i h
      have h1 := ih (n / 10) (by omega)
      have h2 := digit_toNat (n % 10) (Nat.mod_lt _ (by decide))
      unfold value at h1 ⊢
      rw [List.foldl_append, h1]
      simp only [List.foldl_cons, List.foldl_nil, h2]
      omega

theorem value_zeros (k : Nat) (s : Str) : value (List.replicate k '0' ++ s) = value s := by
  induction k with
  | zero => simp
  | succ k ih =>
    rw [List.replicate_succ]
    simpa [value] using ih

theorem savedName_inj {m n : Nat} (h : savedName m = savedName n) : m = n := by
  have h1 := List.append_cancel_right h
  have := congrArg value h1
  simpa [pad3, value_zeros, value_decimal] using this

theorem insert_absent {V : Type} : ∀ {m : AMap Str V} {q : Str} {w : V}, q ∉ m.keys →
    m.insert q w = m ++ [(q, w)]
  | [], _, _, _ => rfl
  | (k, v) :: rest, q, w, h => by
    simp only [AMap.keys, List.map_cons, List.mem_cons, not_or] at h
    simp only [AMap.insert]
    rw [if_neg (fun e => h.1 e.symm), insert_absent (by simpa [AMap.keys] using h.2)]
    rfl

/-- The directory after saving requests. -/
theorem saved_eq (requests : List T) :
    requests.foldl save [] = requests.mapIdx (fun i r => (savedName i, r)) := by
  suffices h : ∀ (rs done : List T),
      rs.foldl save (done.mapIdx (fun i r => (savedName i, r))) =
        (done ++ rs).mapIdx (fun i r => (savedName i, r)) by simpa using h requests []
  intro rs
  induction rs with
  | nil => simp
  | cons r rs ih =>
    intro done
    rw [List.foldl_cons]
    have : save (done.mapIdx (fun i r => (savedName i, r))) r =
        (done ++ [r]).mapIdx (fun i r => (savedName i, r)) := by
      unfold save
      rw [insert_absent]
      · simp [List.mapIdx_append]
      · simp only [AMap.keys, List.mem_map, List.mem_mapIdx, List.length_mapIdx]
        rintro ⟨x, ⟨i, hi, rfl⟩, he⟩
        have := savedName_inj he
        omega
    rw [this, ih]
    simp

/-! ### Sorting -/

theorem nameLt_irrefl (a : Str) : nameLt a a = false := by
  induction a with
  | nil => rfl
  | cons c a ih => simp [nameLt, ih]

theorem nameLt_trans {a b c : Str} (h : nameLt a b = true) (h' : nameLt b c = true) :
    nameLt a c = true := by
  induction a generalizing b c with
  | nil =>
    cases b with
    | nil => simp [nameLt] at h
    | cons y b => cases c with
      | nil => simp [nameLt] at h'
      | cons z c => rfl
  | cons x a ih =>
    cases b with
    | nil => simp [nameLt] at h
    | cons y b => cases c with
      | nil => simp [nameLt] at h'
      | cons z c =>
        simp only [nameLt] at h h' ⊢
        by_cases hxy : x = y
        · subst hxy
          by_cases hxz : x = z
          · subst hxz
            simp only [if_true] at h h' ⊢
            exact ih h h'
          · simp only [hxz, if_false] at h' ⊢
            exact h'
        · by_cases hyz : y = z
          · subst hyz
            simp only [hxy, if_false] at h ⊢
            exact h
          · simp only [hxy, hyz, if_false, decide_eq_true_eq] at h h'
            have hxz : x ≠ z := by
              rintro rfl
              omega
            simp only [hxz, if_false, decide_eq_true_eq]
            omega

theorem nameLt_total {a b : Str} (h : nameLt a b = false) (hne : a ≠ b) : nameLt b a = true := by
  induction a generalizing b with
  | nil => cases b with
    | nil => exact absurd rfl hne
    | cons y b => simp [nameLt] at h
  | cons x a ih => cases b with
    | nil => rfl
    | cons y b =>
      simp only [nameLt] at h ⊢
      by_cases hxy : x = y
      · subst hxy
        simp only [if_true] at h ⊢
        exact ih h (fun e => hne (by rw [e]))
      · simp only [hxy, if_false, decide_eq_false_iff_not] at h
        rw [if_neg (fun e => hxy e.symm)]
        simp only [decide_eq_true_eq]
        have : x.toNat ≠ y.toNat := fun e => hxy (Char.toNat_inj.mp e)
        omega

theorem insertSorted_perm (e : Str × T) (l : List (Str × T)) : (insertSorted e l).Perm (e :: l) := by
  induction l with
  | nil => exact .refl _
  | cons x l ih =>
    simp only [insertSorted]
    split
    · exact .refl _
    · exact (List.Perm.cons x ih).trans (.swap e x l)

theorem sort_perm (l : List (Str × T)) : (sortByName l).Perm l := by
  induction l with
  | nil => exact .refl _
  | cons x l ih => exact (insertSorted_perm x _).trans (.cons x ih)

/-- Sorted by name. -/
def Sorted (l : List (Str × T)) : Prop := l.Pairwise (fun a b => nameLt b.1 a.1 = false)

theorem insertSorted_sorted (e : Str × T) {l : List (Str × T)} (h : Sorted l) :
    Sorted (insertSorted e l) := by
  induction l with
  | nil => simp [insertSorted, Sorted]
  | cons x l ih =>
    obtain ⟨h1, h2⟩ := List.pairwise_cons.mp h
    simp only [insertSorted]
    split
    · rename_i hlt
      refine List.pairwise_cons.mpr ⟨?_, h⟩
      intro y hy
      cases hb : nameLt y.1 e.1 with
      | false => rfl
      | true =>
        have hyx := nameLt_trans hb hlt
        rcases List.mem_cons.mp hy with rfl | hy
        · rw [nameLt_irrefl] at hyx
          exact hyx.symm
        · rw [h1 y hy] at hyx
          exact hyx.symm
    · rename_i hlt
      refine List.pairwise_cons.mpr ⟨?_, ih h2⟩
      intro y hy
      rcases List.mem_cons.mp ((insertSorted_perm e l).mem_iff.mp hy) with rfl | hy
      · simpa using hlt
      · exact h1 y hy

theorem sort_sorted (l : List (Str × T)) : Sorted (sortByName l) := by
  induction l with
  | nil => exact List.Pairwise.nil
  | cons x l ih => exact insertSorted_sorted x ih

/-! ### Names -/

theorem decimal_lt_1000 : ∀ n < 1000, pad3 n =
    [Char.ofNat (48 + n / 100), Char.ofNat (48 + n / 10 % 10), Char.ofNat (48 + n % 10)] := by
  intro n hn
  have d : ∀ m, decimal m = if m < 10 then [Char.ofNat (48 + m)] else
      decimal (m / 10) ++ [Char.ofNat (48 + m % 10)] := fun m => by rw [decimal]
  by_cases h1 : n < 10
  · have e1 : n / 100 = 0 := by omega
    have e2 : n / 10 % 10 = 0 := by omega
    have e3 : n % 10 = n := by omega
    simp only [pad3, d n, if_pos h1, e1, e2, e3]
    rfl
  · by_cases h2 : n < 100
    · have e1 : n / 100 = 0 := by omega
      have e2 : n / 10 % 10 = n / 10 := by omega
      have h3 : n / 10 < 10 := by omega
      simp only [pad3, d n, if_neg h1, d (n / 10), if_pos h3, e1, e2]
      rfl
    · have h3 : ¬ n / 10 < 10 := by omega
      have h4 : n / 10 / 10 < 10 := by omega
      have e1 : n / 10 / 10 = n / 100 := by omega
      simp only [pad3, d n, if_neg h1, d (n / 10), if_neg h3, d (n / 10 / 10), if_pos h4]
      rw [e1]
      rfl

theorem nameLt_digit {a b : Nat} (ha : a < 10) (hb : b < 10) (s t : Str) :
    nameLt (Char.ofNat (48 + a) :: s) (Char.ofNat (48 + b) :: t) =
      if a = b then nameLt s t else decide (a < b) := by
  simp only [nameLt]
  by_cases h : a = b
  · subst h; simp
  · have hne : Char.ofNat (48 + a) ≠ Char.ofNat (48 + b) := by
      intro e
      have := congrArg Char.toNat e
      rw [digit_toNat a ha, digit_toNat b hb] at this
      omega
    rw [if_neg hne, if_neg h, digit_toNat a ha, digit_toNat b hb]
    simp

theorem savedName_lt {m n : Nat} (h : m < n) (hn : n < 1000) :
    nameLt (savedName m) (savedName n) = true := by
  rw [savedName, savedName, decimal_lt_1000 m (by omega), decimal_lt_1000 n hn]
  simp only [List.cons_append, List.nil_append]
  rw [nameLt_digit (by omega) (by omega), nameLt_digit (by omega) (by omega),
    nameLt_digit (by omega) (by omega)]
  split
  · split
    · split
      · omega
      · simp; omega
    · simp; omega
  · simp; omega

/-- **C45 (partial).** Up to 1000 requests saved in an empty directory are replayed completely and in the
order in which they were saved, whatever order the directory is listed in. Missing: more than 1000
requests, see `C45_order_lost`. -/
theorem C45_replay_partial (requests : List T) (listing : List (Str × T))
    (hp : listing.Perm (requests.foldl save [])) (hn : requests.length ≤ 1000) :
    replay listing = requests := by
  rw [saved_eq] at hp
  have hsorted : Sorted (requests.mapIdx (fun i r => (savedName i, r))) := by
    unfold Sorted
    rw [List.pairwise_iff_getElem]
    intro i j hi hj hij
    simp only [List.length_mapIdx] at hi hj
    simp only [List.getElem_mapIdx]
    have := savedName_lt hij (by omega)
    cases hb : nameLt (savedName j) (savedName i) with
    | false => rfl
    | true =>
      have := nameLt_trans this hb
      rw [nameLt_irrefl] at this
      cases this
  have heq : sortByName listing = requests.mapIdx (fun i r => (savedName i, r)) := by
    refine List.Perm.eq_of_pairwise ?_ (sort_sorted listing) hsorted ((sort_perm listing).trans hp)
    intro a b ha hb h1 h2
    simp only [List.mem_mapIdx] at hb
    have ha := hp.mem_iff.mp ((sort_perm listing).mem_iff.mp ha)
    simp only [List.mem_mapIdx] at ha
    obtain ⟨i, hi, rfl⟩ := ha
    obtain ⟨j, hj, rfl⟩ := hb
    have : savedName i = savedName j := by
      by_cases hne : savedName i = savedName j
      · exact hne
      · have := nameLt_total h2 hne
        simp only at h1
        rw [this] at h1
        cases h1
    have := savedName_inj this
    subst this
    rfl
  rw [replay, heq]
  apply List.ext_getElem <;> simp

/-- **C45, disagreement.** With 1001 requests, `1000.cackle-rpc` is replayed before `101.cackle-rpc`. -/
theorem C45_order_lost : ¬ C45_Claim := by
  intro h
  obtain ⟨N, hN⟩ : ∃ N, N = 1001 := ⟨_, rfl⟩
  have hr := h Nat (List.range N) _ (.refl _)
  rw [saved_eq] at hr
  generalize hl : (List.range N).mapIdx (fun i r => (savedName i, r)) = l at hr
  have hmem : ∀ x ∈ sortByName l, x.1 = savedName x.2 := by
    intro x hx
    have := (sort_perm l).mem_iff.mp hx
    rw [← hl] at this
    simp only [List.mem_mapIdx, List.length_range, List.getElem_range] at this
    obtain ⟨i, hi, rfl⟩ := this
    rfl
  have hs := sort_sorted l
  have hlen : (sortByName l).length = N := by
    have := congrArg List.length hr
    simpa [replay] using this
  have hget : ∀ k (hk : k < (sortByName l).length), ((sortByName l)[k]).2 = k := by
    intro k hk
    have : (replay l)[k]'(by simpa [replay] using hk) = k := by
      simp only [hr, List.getElem_range]
    simpa [replay] using this
  unfold Sorted at hs
  rw [List.pairwise_iff_getElem] at hs
  have h1 := hs 101 1000 (by omega) (by omega) (by decide)
  rw [hmem _ (List.getElem_mem _), hmem _ (List.getElem_mem _), hget, hget] at h1
  revert h1
  decide +kernel

/-! Non-vacuity: a directory listed in another order. -/
example : replay [(str! "001.cackle-rpc", 'b'), (str! "002.cackle-rpc", 'c'), (str! "000.cackle-rpc", 'a')] =
    ['a', 'b', 'c'] := by decide
example : ['a', 'b', 'c'].foldl save [] =
    [(str! "000.cackle-rpc", 'a'), (str! "001.cackle-rpc", 'b'), (str! "002.cackle-rpc", 'c')] := by
  decide +kernel

end Cackle.Wire
