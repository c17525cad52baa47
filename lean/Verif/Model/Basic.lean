/-!
# Shared vocabulary of the model

Text that the code inspects character by character is modelled as `Str` (a list of Unicode scalar
values). Hash sets are modelled as lists on which only membership is meaningful; hash maps as
association lists (`AMap`) with lookup of the first matching key.
-/

namespace Cackle

/-- Text. Rust `str` values are sequences of Unicode scalar values. -/
abbrev Str := List Char

/-- `str! "abc"` is the character list `['a', 'b', 'c']`. -/
macro "str!" s:str : term => do
  let cs := s.getString.toList.map (fun c => Lean.Syntax.mkCharLit c)
  let arr : Lean.TSyntaxArray `term := cs.toArray
  `(([$arr,*] : List Char))

/-- `FxHashSet::insert`: adds the element if it is absent. -/
def setInsert {α : Type} [DecidableEq α] (a : α) (s : List α) : List α :=
  if a ∈ s then s else a :: s

/-- `FxHashSet::remove`. -/
def setRemove {α : Type} [DecidableEq α] (a : α) (s : List α) : List α :=
  s.filter (fun b => b ≠ a)

@[simp] theorem mem_setInsert {α : Type} [DecidableEq α] {a b : α} {s : List α} :
    b ∈ setInsert a s ↔ b = a ∨ b ∈ s := by
  unfold setInsert
  split
  · constructor
    · intro h; exact Or.inr h
    · rintro (h | h)
      · subst h; assumption
      · exact h
  · simp

@[simp] theorem mem_setRemove {α : Type} [DecidableEq α] {a b : α} {s : List α} :
    b ∈ setRemove a s ↔ b ≠ a ∧ b ∈ s := by
  simp [setRemove, and_comm]

/-- Association-list model of a hash map. -/
abbrev AMap (K V : Type) := List (K × V)

namespace AMap
variable {K V : Type} [DecidableEq K]

/-- `HashMap::get`. -/
def get? : AMap K V → K → Option V
  | [], _ => none
  | (k, v) :: rest, q => if k = q then some v else get? rest q

/-- `HashMap::insert`: replaces the value of an existing key, otherwise adds the key. -/
def insert : AMap K V → K → V → AMap K V
  | [], q, w => [(q, w)]
  | (k, v) :: rest, q, w => if k = q then (k, w) :: rest else (k, v) :: insert rest q w

/-- `HashMap::remove`. -/
def erase : AMap K V → K → AMap K V
  | [], _ => []
  | (k, v) :: rest, q => if k = q then erase rest q else (k, v) :: erase rest q

/-- The keys of the map. -/
def keys (m : AMap K V) : List K := m.map Prod.fst

@[simp] theorem get?_nil (q : K) : get? ([] : AMap K V) q = none := rfl

@[simp] theorem get?_insert (m : AMap K V) (q r : K) (w : V) :
    get? (insert m q w) r = if q = r then some w else get? m r := by
  induction m with
  | nil => simp [insert, get?]
  | cons kv rest ih =>
    obtain ⟨k, v⟩ := kv
    by_cases h : k = q
    · subst h
      by_cases h2 : k = r <;> simp [insert, get?, h2]
    · by_cases h2 : k = r
      · subst h2
        have : ¬ q = k := fun e => h e.symm
        simp [insert, get?, h, this]
      · simp [insert, get?, h, h2, ih]

@[simp] theorem get?_erase (m : AMap K V) (q r : K) :
    get? (erase m q) r = if q = r then none else get? m r := by
  induction m with
  | nil => simp [erase, get?]
  | cons kv rest ih =>
    obtain ⟨k, v⟩ := kv
    by_cases h : k = q
    · subst h
      by_cases h2 : k = r
      · subst h2; simpa [erase] using ih
      · simp [erase, get?, h2, ih]
    · by_cases h2 : k = r
      · subst h2
        have : ¬ q = k := fun e => h e.symm
        simp [erase, get?, h, this]
      · simp [erase, get?, h, h2, ih]

theorem mem_of_get? {m : AMap K V} {k : K} {v : V} (h : get? m k = some v) : (k, v) ∈ m := by
  induction m with
  | nil => simp at h
  | cons kv rest ih =>
    obtain ⟨k', v'⟩ := kv
    by_cases hk : k' = k
    · subst hk
      simp [get?] at h
      simp [h]
    · simp [get?, hk] at h
      exact List.mem_cons_of_mem _ (ih h)

theorem get?_isSome_iff {m : AMap K V} {k : K} : (get? m k).isSome ↔ k ∈ keys m := by
  induction m with
  | nil => simp [keys]
  | cons kv rest ih =>
    obtain ⟨k', v'⟩ := kv
    by_cases hk : k' = k
    · simp [get?, keys, hk]
    · have hk2 : ¬ k = k' := fun e => hk e.symm
      simp only [get?, hk, if_false, ih]
      simp [keys, hk2]

theorem get?_eq_none_iff {m : AMap K V} {k : K} : get? m k = none ↔ k ∉ keys m := by
  rw [← get?_isSome_iff]
  cases get? m k <;> simp

theorem get?_of_mem {m : AMap K V} (hn : (keys m).Nodup) {k : K} {v : V} (h : (k, v) ∈ m) :
    get? m k = some v := by
  induction m with
  | nil => simp at h
  | cons kv rest ih =>
    obtain ⟨k', v'⟩ := kv
    simp only [keys, List.map_cons, List.nodup_cons] at hn
    rcases List.mem_cons.mp h with h | h
    · cases h; simp [get?]
    · have hne : ¬ k' = k := by
        rintro rfl
        exact hn.1 (List.mem_map.mpr ⟨(k', v), h, rfl⟩)
      simp [get?, hne, ih hn.2 h]

end AMap

/-- `str::split("::")` (names.rs:452-456 `split_simple`). -/
def splitColons : Str → List Str
  | [] => [[]]
  | ':' :: ':' :: rest => [] :: splitColons rest
  | c :: rest =>
    match splitColons rest with
    | [] => [[c]]
    | h :: t => (c :: h) :: t

/-- `str::split(c)` for a single character. -/
def splitChar (sep : Char) : Str → List Str
  | [] => [[]]
  | c :: rest =>
    if c = sep then [] :: splitChar sep rest
    else
      match splitChar sep rest with
      | [] => [[c]]
      | h :: t => (c :: h) :: t

/-- `[&str]::join(sep)`. -/
def joinWith (sep : Str) : List Str → Str
  | [] => []
  | [a] => a
  | a :: b :: rest => a ++ sep ++ joinWith sep (b :: rest)

end Cackle
