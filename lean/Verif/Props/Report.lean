import Verif.Model.Report

/-!
# C123 and C124: what is reported about a problem
-/

namespace Cackle.Report
open Cackle Config Perm
open Cackle.ApiMap (Api)

/-! ## How a report is read -/

/-- What a report says about one use: the file, the function that contains the use, and what is used where. -/
structure Entry where
  file : Str
  from_ : Str
  use_ : Str
deriving DecidableEq

/-- Reading the lines below the heading: a line with six blanks and an arrow is a use by the function that was named
last in the file that was named last; four blanks introduce a function, two blanks a file. -/
def readLines (file from_ : Str) : List Str → List Entry
  | [] => []
  | l :: ls =>
    if (str! "      -> ").isPrefixOf l then ⟨file, from_, l.drop 9⟩ :: readLines file from_ ls
    else if (str! "    ").isPrefixOf l then readLines file (l.drop 4) ls
    else readLines (l.drop 2) from_ ls

/-- The uses that are listed in the text of a problem; its first line is the heading. -/
def listed (text : Str) : List Entry := readLines [] [] (splitChar '\n' text).tail

/-- The name of a function or of what is used. -/
def written (env : Names) : SymOrDebug → Str
  | .symbol s => env.demangle s
  | .debugName ns n => joinWith (str! "::") (ns ++ [n])

/-- What is used, the line, and the column if it is known. -/
def usedAt (env : Names) (u : ApiUsage) : Str :=
  match u.loc.column with
  | none => written env u.toSource ++ str! " [" ++ Wire.decimal u.loc.line ++ str! "]"
  | some c => written env u.toSource ++ str! " [" ++ Wire.decimal u.loc.line ++ str! ":" ++ Wire.decimal c ++ str! "]"

/-- The uses of an API that a problem is about. -/
def usesOf : Problem → List ApiUsage
  | .disallowedApiUsage u => u.usages
  | .offTreeApiUsage u _ => u.usages
  | _ => []

/-- The problems that are about uses of an API. -/
def IsApiUse : Problem → Prop
  | .disallowedApiUsage _ => True
  | .offTreeApiUsage _ _ => True
  | _ => False

/-- **C123 (the claim).** The report of a disallowed use of an API lists every use that was found, with its file, function
and position, as often as it was found, and nothing else. -/
def C123_Claim : Prop :=
  ∀ (env : Names) (p : Problem), IsApiUse p →
    ((listed (longText env p)).map (fun e => (pathOf e.file, e.from_, e.use_))).Perm
      ((usesOf p).map (fun u => (pathOf u.loc.file, written env u.from_, usedAt env u)))

/-- A name that stays on its line and does not look like indentation. -/
def Plain (s : Str) : Prop := '\n' ∉ s ∧ s.head? ≠ some ' '

/-- The names in the heading. -/
def HeadingOneLine : Problem → Prop
  | .disallowedApiUsage u => '\n' ∉ pkgText u.pkg ∧ '\n' ∉ u.api
  | .offTreeApiUsage u r => '\n' ∉ pkgText u.pkg ∧ '\n' ∉ u.api ∧ '\n' ∉ pkgText r
  | _ => True

/-! ## The orders of the maps -/

theorem lexLt_eq {α : Type} {lt : α → α → Bool} (h : ∀ a b, lt a b = false → lt b a = false → a = b) :
    ∀ as bs : List α, lexLt lt as bs = false → lexLt lt bs as = false → as = bs
  | [], [], _, _ => rfl
  | [], _ :: _, h1, _ => by simp [lexLt] at h1
  | _ :: _, [], _, h2 => by simp [lexLt] at h2
  | a :: as, b :: bs, h1, h2 => by
    simp only [lexLt, Bool.or_eq_false_iff, Bool.and_eq_false_iff, Bool.not_eq_false'] at h1 h2
    have hab := h a b h1.1 h2.1
    subst hab
    have e := h1.1
    simp only [e, Bool.false_eq_true, false_or] at h1 h2
    rw [lexLt_eq h as bs h1.2 h2.2]

theorem strLt_eq (a b : Str) : strLt a b = false → strLt b a = false → a = b :=
  lexLt_eq (fun a b h1 h2 => by
    have : a.toNat = b.toNat := by simp at h1 h2; omega
    exact Char.toNat_inj.mp this) a b

theorem compLt_eq (a b : Str) (h1 : compLt a b = false) (h2 : compLt b a = false) : a = b := by
  simp only [compLt, Bool.or_eq_false_iff, Bool.and_eq_false_iff, decide_eq_false_iff_not] at h1 h2
  have hr : rank a = rank b := by omega
  exact strLt_eq a b (h1.2.resolve_left (fun h => h hr)) (h2.2.resolve_left (fun h => h hr.symm))

theorem pathLt_eq (a b : Str) (h1 : pathLt a b = false) (h2 : pathLt b a = false) : pathOf a = pathOf b :=
  lexLt_eq compLt_eq _ _ h1 h2

theorem symLt_eq (a b : SymOrDebug) (h1 : symLt a b = false) (h2 : symLt b a = false) : a = b := by
  cases a <;> cases b <;> simp only [symLt, reduceCtorEq] at h1 h2
  · rw [strLt_eq _ _ h1 h2]
  · rename_i n a m b
    simp only [Bool.or_eq_false_iff, Bool.and_eq_false_iff, Bool.not_eq_false'] at h1 h2
    have hn := lexLt_eq strLt_eq _ _ h1.1 h2.1
    subst hn
    have e := h1.1
    simp only [e, Bool.false_eq_true, false_or] at h1 h2
    rw [strLt_eq _ _ h1.2 h2.2]

/-! ## Groups -/

section
variable {K V : Type}

theorem push_perm (lt : K → K → Bool) (k : K) (v : V) :
    ∀ m : List (K × List V), ((push lt k v m).flatMap (·.2)).Perm (v :: m.flatMap (·.2))
  | [] => by simp [push]
  | (k', vs) :: rest => by
    unfold push
    split
    · simp
    · split
      · simp only [List.flatMap_cons]
        refine ((push_perm lt k v rest).append_left vs).trans ?_
        exact List.perm_middle
      · simp only [List.flatMap_cons, List.append_assoc]
        exact List.perm_middle

theorem push_keys {lt : K → K → Bool} {R : K → K → Prop} (hr : ∀ k, R k k)
    (h : ∀ a b, lt a b = false → lt b a = false → R a b) (key : V → K) (v : V) :
    ∀ m : List (K × List V), (∀ g ∈ m, ∀ w ∈ g.2, R (key w) g.1) →
      ∀ g ∈ push lt (key v) v m, ∀ w ∈ g.2, R (key w) g.1
  | [], _, g, hg, w, hw => by
    simp only [push, List.mem_singleton] at hg
    subst hg
    simp only [List.mem_singleton] at hw
    subst hw
    exact hr _
  | (k', vs) :: rest, hm, g, hg, w, hw => by
    unfold push at hg
    split at hg
    · rcases List.mem_cons.mp hg with rfl | hg
      · simp only [List.mem_singleton] at hw
        subst hw
        exact hr _
      · exact hm g hg w hw
    · rename_i h1
      split at hg
      · rcases List.mem_cons.mp hg with rfl | hg
        · exact hm _ (List.mem_cons_self ..) w hw
        · exact push_keys hr h key v rest (fun g hg => hm g (List.mem_cons_of_mem _ hg)) g hg w hw
      · rename_i h2
        rcases List.mem_cons.mp hg with rfl | hg
        · rcases List.mem_append.mp hw with hw | hw
          · exact hm _ (List.mem_cons_self ..) w hw
          · simp only [List.mem_singleton] at hw
            subst hw
            exact h _ _ (by simpa using h1) (by simpa using h2)
        · exact hm g (List.mem_cons_of_mem _ hg) w hw

theorem foldl_push_perm (lt : K → K → Bool) (key : V → K) :
    ∀ (vs : List V) (m : List (K × List V)),
      ((vs.foldl (fun m v => push lt (key v) v m) m).flatMap (·.2)).Perm (m.flatMap (·.2) ++ vs)
  | [], m => by simp
  | v :: vs, m => by
    refine (foldl_push_perm lt key vs _).trans ?_
    refine ((push_perm lt (key v) v m).append_right vs).trans ?_
    exact (List.perm_middle (l₁ := m.flatMap (·.2))).symm

theorem group_perm (lt : K → K → Bool) (key : V → K) (vs : List V) :
    ((group lt key vs).flatMap (·.2)).Perm vs := by
  simpa [group] using foldl_push_perm lt key vs []

theorem foldl_push_keys {lt : K → K → Bool} {R : K → K → Prop} (hr : ∀ k, R k k)
    (h : ∀ a b, lt a b = false → lt b a = false → R a b) (key : V → K) :
    ∀ (vs : List V) (m : List (K × List V)), (∀ g ∈ m, ∀ w ∈ g.2, R (key w) g.1) →
      ∀ g ∈ vs.foldl (fun m v => push lt (key v) v m) m, ∀ w ∈ g.2, R (key w) g.1
  | [], _, hm => hm
  | v :: vs, m, hm => foldl_push_keys hr h key vs _ (push_keys hr h key v m hm)

theorem group_keys {lt : K → K → Bool} {R : K → K → Prop} (hr : ∀ k, R k k)
    (h : ∀ a b, lt a b = false → lt b a = false → R a b) (key : V → K) (vs : List V) :
    ∀ g ∈ group lt key vs, ∀ w ∈ g.2, R (key w) g.1 :=
  foldl_push_keys hr h key vs [] (fun g hg => by cases hg)

/-- The key of a group is the key of one of its elements. -/
theorem push_first {lt : K → K → Bool} (key : V → K) (v : V) (vs : List V) :
    ∀ m : List (K × List V), (∀ g ∈ m, ∃ w ∈ vs, key w = g.1) → v ∈ vs →
      ∀ g ∈ push lt (key v) v m, ∃ w ∈ vs, key w = g.1
  | [], _, hv, g, hg => by
    simp only [push, List.mem_singleton] at hg
    subst hg
    exact ⟨v, hv, rfl⟩
  | (k', ws) :: rest, hm, hv, g, hg => by
    unfold push at hg
    split at hg
    · rcases List.mem_cons.mp hg with rfl | hg
      · exact ⟨v, hv, rfl⟩
      · exact hm g hg
    · split at hg
      · rcases List.mem_cons.mp hg with rfl | hg
        · exact hm _ (List.mem_cons_self ..)
        · exact push_first key v vs rest (fun g hg => hm g (List.mem_cons_of_mem _ hg)) hv g hg
      · rcases List.mem_cons.mp hg with rfl | hg
        · exact hm (k', ws) (List.mem_cons_self ..)
        · exact hm g (List.mem_cons_of_mem _ hg)

theorem group_first {lt : K → K → Bool} (key : V → K) (vs : List V) :
    ∀ g ∈ group lt key vs, ∃ w ∈ vs, key w = g.1 := by
  have : ∀ (us : List V) (m : List (K × List V)), (∀ u ∈ us, u ∈ vs) → (∀ g ∈ m, ∃ w ∈ vs, key w = g.1) →
      ∀ g ∈ us.foldl (fun m v => push lt (key v) v m) m, ∃ w ∈ vs, key w = g.1 := by
    intro us
    induction us with
    | nil => intro m _ hm; exact hm
    | cons u us ih =>
      intro m hu hm
      exact ih _ (fun w hw => hu w (List.mem_cons_of_mem _ hw))
        (push_first key u vs m hm (hu u (List.mem_cons_self ..)))
  exact this vs [] (fun _ h => h) (fun g hg => by cases hg)

end

theorem mem_group {K V : Type} {lt : K → K → Bool} {key : V → K} {vs : List V} {g : K × List V}
    (hg : g ∈ group lt key vs) {w : V} (hw : w ∈ g.2) : w ∈ vs :=
  (group_perm lt key vs).mem_iff.mp (List.mem_flatMap.mpr ⟨g, hg, hw⟩)

/-! ## Reading back what was written -/

theorem joinWith_snoc (sep : Str) : ∀ (ns : List Str) (n : Str), ns ≠ [] →
    joinWith sep (ns ++ [n]) = joinWith sep ns ++ sep ++ n
  | [], _, h => absurd rfl h
  | [a], n, _ => by simp [joinWith]
  | a :: b :: rest, n, _ => by
    have := joinWith_snoc sep (b :: rest) n (by simp)
    simp only [List.cons_append] at this
    simp only [List.cons_append, joinWith, List.append_assoc] at this ⊢
    rw [this]

theorem sym_written (env : Names) (s : SymOrDebug) : env.sym s = written env s := by
  cases s with
  | symbol s => rfl
  | debugName ns n =>
    unfold Names.sym written
    by_cases h : ns = []
    · subst h; rfl
    · simp only [h, if_false]
      rw [joinWith_snoc _ _ _ h]

theorem use_text (env : Names) (u : ApiUsage) :
    (Line.use_ (env.sym u.toSource) (posText u.loc)).text = str! "      -> " ++ usedAt env u := by
  unfold Line.text usedAt posText
  rw [sym_written]
  cases u.loc.column <;> simp

theorem splitChar_line (l : Str) (h : '\n' ∉ l) (rest : Str) :
    splitChar '\n' (l ++ '\n' :: rest) = l :: splitChar '\n' rest := by
  induction l with
  | nil => simp [splitChar]
  | cons c l ih =>
    simp only [List.mem_cons, not_or] at h
    simp only [List.cons_append, splitChar, if_neg (Ne.symm h.1), ih h.2]

theorem splitChar_unlines : ∀ ls : List Str, (∀ l ∈ ls, '\n' ∉ l) → splitChar '\n' (unlines ls) = ls ++ [[]]
  | [], _ => rfl
  | l :: ls, h => by
    have : unlines (l :: ls) = l ++ '\n' :: unlines ls := by simp [unlines]
    rw [this, splitChar_line l (h l (List.mem_cons_self ..)),
      splitChar_unlines ls (fun l hl => h l (List.mem_cons_of_mem _ hl))]
    rfl

theorem read_uses (env : Names) (f g : Str) (rest : List Str) : ∀ us : List ApiUsage,
    readLines f g (us.map (fun u => (Line.use_ (env.sym u.toSource) (posText u.loc)).text) ++ rest) =
      us.map (fun u => ⟨f, g, usedAt env u⟩) ++ readLines f g rest
  | [] => rfl
  | u :: us => by
    simp only [List.map_cons, List.cons_append, use_text]
    rw [← read_uses env f g rest us]
    simp only [use_text]
    rfl

theorem not_arrow (s : Str) (h : s.head? ≠ some ' ') : (str! "      -> ").isPrefixOf (str! "    " ++ s) = false := by
  cases s with
  | nil => rfl
  | cons c s =>
    have : c ≠ ' ' := fun h1 => h (by simp [h1])
    show (' ' == ' ' && (' ' == ' ' && (' ' == ' ' && (' ' == ' ' && ((' ' == c) && _))))) = false
    simp [beq_eq_false_iff_ne.mpr (Ne.symm this)]

theorem not_four (s : Str) (h : s.head? ≠ some ' ') : (str! "    ").isPrefixOf (str! "  " ++ s) = false := by
  cases s with
  | nil => rfl
  | cons c s =>
    have : c ≠ ' ' := fun h1 => h (by simp [h1])
    show (' ' == ' ' && (' ' == ' ' && ((' ' == c) && _))) = false
    simp [beq_eq_false_iff_ne.mpr (Ne.symm this)]

theorem not_arrow2 (s : Str) (h : s.head? ≠ some ' ') : (str! "      -> ").isPrefixOf (str! "  " ++ s) = false := by
  cases s with
  | nil => rfl
  | cons c s =>
    have : c ≠ ' ' := fun h1 => h (by simp [h1])
    show (' ' == ' ' && (' ' == ' ' && ((' ' == c) && _))) = false
    simp [beq_eq_false_iff_ne.mpr (Ne.symm this)]

theorem read_from (s f g : Str) (h : s.head? ≠ some ' ') (rest : List Str) :
    readLines f g ((Line.from_ s).text :: rest) = readLines f s rest := by
  rw [readLines]
  simp only [Line.text, not_arrow s h, Bool.false_eq_true, if_false]
  rfl

theorem read_file (s f g : Str) (h : s.head? ≠ some ' ') (rest : List Str) :
    readLines f g ((Line.file s).text :: rest) = readLines s g rest := by
  rw [readLines]
  simp only [Line.text, not_arrow2 s h, not_four s h, Bool.false_eq_true, if_false]
  rfl

theorem read_groups (env : Names) (f : Str) : ∀ (gs : List (SymOrDebug × List ApiUsage)) (g : Str),
    (∀ x ∈ gs, (env.sym x.1).head? ≠ some ' ') → ∃ g', ∀ rest : List Str,
      readLines f g ((gs.flatMap (fun x => Line.from_ (env.sym x.1) ::
          x.2.map (fun u => Line.use_ (env.sym u.toSource) (posText u.loc)))).map Line.text ++ rest) =
        gs.flatMap (fun x => x.2.map (fun u => ⟨f, env.sym x.1, usedAt env u⟩)) ++ readLines f g' rest
  | [], g, _ => ⟨g, fun rest => rfl⟩
  | x :: gs, g, h => by
    obtain ⟨g', hg⟩ := read_groups env f gs (env.sym x.1) (fun y hy => h y (List.mem_cons_of_mem _ hy))
    refine ⟨g', fun rest => ?_⟩
    simp only [List.flatMap_cons, List.cons_append, List.map_cons, List.map_append, List.append_assoc, List.map_map]
    rw [read_from _ _ _ (h x (List.mem_cons_self ..))]
    have := read_uses env f (env.sym x.1) ((gs.flatMap (fun x => Line.from_ (env.sym x.1) ::
          x.2.map (fun u => Line.use_ (env.sym u.toSource) (posText u.loc)))).map Line.text ++ rest) x.2
    rw [hg rest] at this
    simpa [List.map_map, Function.comp_def] using this

theorem read_files (env : Names) : ∀ (fs : List (Str × List ApiUsage)) (f g : Str),
    (∀ x ∈ fs, x.1.head? ≠ some ' ' ∧ ∀ u ∈ x.2, (env.sym u.from_).head? ≠ some ' ') → ∀ rest : List Str,
      (∀ f g, readLines f g rest = []) →
      readLines f g ((fs.flatMap (fun x => Line.file x.1 :: fromLines env x.2)).map Line.text ++ rest) =
        fs.flatMap (fun x => (group symLt ApiUsage.from_ x.2).flatMap (fun y => y.2.map
          (fun u => ⟨x.1, env.sym y.1, usedAt env u⟩)))
  | [], f, g, _, rest, hr => by simpa using hr f g
  | x :: fs, f, g, h, rest, hr => by
    have hx := h x (List.mem_cons_self ..)
    obtain ⟨g', hg⟩ := read_groups env x.1 (group symLt ApiUsage.from_ x.2) g (by
      intro y hy
      obtain ⟨w, hw, hk⟩ := group_first _ _ y hy
      rw [← hk]
      exact hx.2 w hw)
    simp only [List.flatMap_cons, List.cons_append, List.map_cons, List.map_append, List.append_assoc]
    rw [read_file _ _ _ hx.1]
    have := hg ((fs.flatMap (fun x => Line.file x.1 :: fromLines env x.2)).map Line.text ++ rest)
    rw [read_files env fs x.1 g' (fun y hy => h y (List.mem_cons_of_mem _ hy)) rest hr] at this
    exact this

theorem flatMap_perm_congr {α β : Type} (f : α → List β) (f' : α → List β) : ∀ l : List α,
    (∀ x ∈ l, (f x).Perm (f' x)) → (l.flatMap f).Perm (l.flatMap f')
  | [], _ => .refl _
  | x :: l, h => by
    simp only [List.flatMap_cons]
    exact (h x (List.mem_cons_self ..)).append (flatMap_perm_congr f f' l (fun y hy => h y (List.mem_cons_of_mem _ hy)))

theorem groups_map {K V W : Type} (lt : K → K → Bool) (key : V → K) (vs : List V) (h : K → V → W) (h' : V → W)
    (hh : ∀ g ∈ group lt key vs, ∀ w ∈ g.2, h g.1 w = h' w) :
    ((group lt key vs).flatMap (fun g => g.2.map (h g.1))).Perm (vs.map h') := by
  have : (group lt key vs).flatMap (fun g => g.2.map (h g.1)) = ((group lt key vs).flatMap (·.2)).map h' := by
    rw [List.map_flatMap]
    have : ∀ l : List (K × List V), (∀ g ∈ l, ∀ w ∈ g.2, h g.1 w = h' w) →
        l.flatMap (fun g => g.2.map (h g.1)) = l.flatMap (fun g => g.2.map h') := by
      intro l
      induction l with
      | nil => intro _; rfl
      | cons g l ih =>
        intro hl
        simp only [List.flatMap_cons]
        rw [ih (fun g hg => hl g (List.mem_cons_of_mem _ hg)), List.map_congr_left (hl g (List.mem_cons_self ..))]
    exact this _ hh
  rw [this]
  exact (group_perm lt key vs).map h'

theorem display_read (env : Names) (us : List ApiUsage)
    (h : ∀ u ∈ us, u.loc.file.head? ≠ some ' ' ∧ (written env u.from_).head? ≠ some ' ') (rest : List Str)
    (hr : ∀ f g, readLines f g rest = []) :
    ((readLines [] [] ((displayUsages env us).map Line.text ++ rest)).map (fun e => (pathOf e.file, e.from_, e.use_))).Perm
      (us.map (fun u => (pathOf u.loc.file, written env u.from_, usedAt env u))) := by
  unfold displayUsages
  rw [read_files env _ [] [] (by
    intro x hx
    refine ⟨?_, fun u hu => ?_⟩
    · obtain ⟨w, hw, hk⟩ := group_first _ _ x hx
      rw [← hk]
      exact (h w hw).1
    · rw [sym_written]
      exact (h u (mem_group hx hu)).2) rest hr, List.map_flatMap]
  refine List.Perm.trans ?_ (groups_map pathLt (fun u : ApiUsage => u.loc.file) us
    (fun f u => (pathOf f, written env u.from_, usedAt env u)) _ (by
      intro g hg w hw
      have := group_keys (R := fun a b => pathOf a = pathOf b) (fun _ => rfl) pathLt_eq
        (fun u : ApiUsage => u.loc.file) us g hg w hw
      simp only [this]))
  apply flatMap_perm_congr
  intro x _
  rw [List.map_flatMap]
  simp only [List.map_map, Function.comp_def]
  exact groups_map symLt ApiUsage.from_ x.2 (fun s u => (pathOf x.1, env.sym s, usedAt env u)) _ (by
    intro g hg w hw
    have := group_keys (R := fun a b => a = b) (fun _ => rfl) symLt_eq ApiUsage.from_ x.2 g hg w hw
    simp only [← this, sym_written])

theorem decimal_plain (n : Nat) : '\n' ∉ Wire.decimal n := by
  induction n using Nat.strongRecOn with
  | ind n ih =>
    rw [Wire.decimal.eq_def]
    have hd : ∀ d < 10, '\n' ≠ Char.ofNat (48 + d) := by decide
    split
    · rename_i h
      simp only [List.mem_singleton]
      exact hd n h
    · simp only [List.mem_append, List.mem_singleton, not_or]
      exact ⟨ih _ (by omega), hd _ (by omega)⟩

theorem usedAt_plain (env : Names) (u : ApiUsage) (h : '\n' ∉ written env u.toSource) : '\n' ∉ usedAt env u := by
  unfold usedAt
  cases u.loc.column <;> simp [h, decimal_plain]

theorem display_plain (env : Names) (us : List ApiUsage)
    (h : ∀ u ∈ us, '\n' ∉ u.loc.file ∧ '\n' ∉ written env u.from_ ∧ '\n' ∉ written env u.toSource) :
    ∀ l ∈ (displayUsages env us).map Line.text, '\n' ∉ l := by
  intro l hl
  obtain ⟨ln, hln, rfl⟩ := List.mem_map.mp hl
  obtain ⟨x, hx, hln⟩ := List.mem_flatMap.mp hln
  rcases List.mem_cons.mp hln with rfl | hln
  · obtain ⟨w, hw, hk⟩ := group_first _ _ x hx
    have := (h w hw).1
    rw [hk] at this
    simpa [Line.text] using this
  · obtain ⟨y, hy, hln⟩ := List.mem_flatMap.mp hln
    rcases List.mem_cons.mp hln with rfl | hln
    · obtain ⟨w, hw, hk⟩ := group_first _ _ y hy
      have := (h w (mem_group hx hw)).2.1
      rw [hk, ← sym_written] at this
      simpa [Line.text] using this
    · obtain ⟨u, hu, rfl⟩ := List.mem_map.mp hln
      rw [use_text]
      have := usedAt_plain env u (h u (mem_group hx (mem_group hy hu))).2.2
      simpa using this

/-- **C123 (partial).** For all problems and all uses: the claim holds if no name contains a line break, and no name of a
file or function starts with a blank.

What is missing: other names, see `C123_forged_use`. -/
theorem C123_all_uses_partial (env : Names) (p : Problem) (hp : IsApiUse p) (hh : HeadingOneLine p)
    (hn : ∀ u ∈ usesOf p, Plain u.loc.file ∧ Plain (written env u.from_) ∧ '\n' ∉ written env u.toSource) :
    ((listed (longText env p)).map (fun e => (pathOf e.file, e.from_, e.use_))).Perm
      ((usesOf p).map (fun u => (pathOf u.loc.file, written env u.from_, usedAt env u))) := by
  have key : ∀ (heading : Str) (us : List ApiUsage), '\n' ∉ heading →
      (∀ u ∈ us, Plain u.loc.file ∧ Plain (written env u.from_) ∧ '\n' ∉ written env u.toSource) →
      ((listed (heading ++ '\n' :: unlines ((displayUsages env us).map Line.text))).map
        (fun e => (pathOf e.file, e.from_, e.use_))).Perm
      (us.map (fun u => (pathOf u.loc.file, written env u.from_, usedAt env u))) := by
    intro heading us h1 h2
    unfold listed
    rw [splitChar_line _ h1, splitChar_unlines _ (display_plain env us
      (fun u hu => ⟨(h2 u hu).1.1, (h2 u hu).2.1.1, (h2 u hu).2.2⟩)), List.tail_cons]
    exact display_read env us (fun u hu => ⟨(h2 u hu).1.2, (h2 u hu).2.1.2⟩) [[]] (fun f g => rfl)
  cases p with
  | disallowedApiUsage u =>
    exact key _ _ (by simpa [quote, HeadingOneLine] using hh) hn
  | offTreeApiUsage u r =>
    exact key _ _ (by simpa [quote, shortText, HeadingOneLine] using hh) hn
  | _ => exact hp.elim

/-! ### Examples -/

def plainEnv : Names := ⟨fun s => s, fun s => s⟩

/-- A use of `to` by `f`. -/
def useOf (file f to : Str) (line : Nat) : ApiUsage :=
  { address := 0, symbolStart := 0, binPath := [], scope := .all, loc := ⟨file, line, some 5⟩, outer := none
    from_ := .symbol f, to := .symbol to, toName := [], toSource := .debugName [str! "std", str! "fs"] to }

def pkgA : PkgId := ⟨str! "a", str! "1.0.0", true⟩

/-- Two files, one of which is written in two ways, and two functions. -/
def threeUses : Problem := .disallowedApiUsage ⟨pkgA, .all, str! "fs",
  [useOf (str! "src/b.rs") (str! "a::f") (str! "read") 12, useOf (str! "src/a.rs") (str! "a::g") (str! "write") 3,
    useOf (str! "src//b.rs") (str! "a::f") (str! "write") 7]⟩

/-- Non-vacuity: the text, and what is read from it. -/
example : longText plainEnv threeUses = str! "'a' uses disallowed API `fs`\n  src/a.rs\n    a::g\n      -> std::fs::write [3:5]\n" ++
    str! "  src/b.rs\n    a::f\n      -> std::fs::read [12:5]\n      -> std::fs::write [7:5]\n" ∧
    listed (longText plainEnv threeUses) = [⟨str! "src/a.rs", str! "a::g", str! "std::fs::write [3:5]"⟩,
      ⟨str! "src/b.rs", str! "a::f", str! "std::fs::read [12:5]"⟩, ⟨str! "src/b.rs", str! "a::f", str! "std::fs::write [7:5]"⟩] := by
  decide +kernel

/-- Non-vacuity: its names are plain. -/
example : IsApiUse threeUses ∧ HeadingOneLine threeUses ∧ ∀ u ∈ usesOf threeUses,
    Plain u.loc.file ∧ Plain (written plainEnv u.from_) ∧ '\n' ∉ written plainEnv u.toSource := by
  refine ⟨trivial, ⟨by decide, by decide⟩, ?_⟩
  intro u hu
  simp only [threeUses, usesOf, List.mem_cons, List.not_mem_nil, or_false] at hu
  rcases hu with rfl | rfl | rfl <;> exact ⟨⟨by decide, by decide⟩, ⟨by decide, by decide⟩, by decide⟩

/-- A file whose name contains line breaks (`#[path = "…"]` allows this). -/
def forged : Problem := .disallowedApiUsage ⟨pkgA, .all, str! "fs",
  [useOf (str! "x\n    main\n      -> harmless [1]\n  y") (str! "a::f") (str! "write") 3]⟩

/-- **C123 is false.** The name of a source file makes the report list a use that does not exist. -/
theorem C123_forged_use : ¬ C123_Claim := by
  intro h
  have h1 := h plainEnv forged trivial
  have h2 := h1.length_eq
  have h3 : (listed (longText plainEnv forged)).length = 2 := by decide +kernel
  rw [List.length_map, h3] at h2
  exact absurd h2 (by decide)

/-! ## C124: a report says which permission is missing -/

/-- The permission that a disallowed use of an API lacks: the name of the package, the scope and the API. -/
def lacks (u : ApiUsages) : Str × Scope × Api := (u.pkg.name, u.scope, u.api)

/-- Characters that cannot occur in the name and version of a package. -/
def Name (s : Str) : Prop := '`' ∉ s ∧ '[' ∉ s ∧ '\n' ∉ s

/-- **C124 (the claim).** From the text that is printed for a disallowed use of an API, interactively or not, it can be
told which permission is missing. -/
def C124_Claim : Prop :=
  ∀ (env : Names) (u v : ApiUsages), Name u.pkg.name → Name v.pkg.name → Name u.pkg.version → Name v.pkg.version →
    Name u.api → Name v.api →
    (shortText (.disallowedApiUsage u) = shortText (.disallowedApiUsage v) → lacks u = lacks v) ∧
    (longText env (.disallowedApiUsage u) = longText env (.disallowedApiUsage v) → lacks u = lacks v)

/-- The same use, once in the package itself, once in the build script of another package. -/
def inLib : ApiUsages := ⟨pkgA, .all, str! "fs", [useOf (str! "src/lib.rs") (str! "a::f") (str! "write") 3]⟩
def inBuild : ApiUsages := { inLib with scope := .fromBuild }

/-- **C124 is false.** The report of a run without user interaction does not mention the scope: the reports of two
different problems are the same text. -/
theorem C124_scope_not_reported : ¬ C124_Claim := by
  intro h
  have := (h plainEnv inLib inBuild ⟨by decide, by decide, by decide⟩ ⟨by decide, by decide, by decide⟩
    ⟨by decide, by decide, by decide⟩ ⟨by decide, by decide, by decide⟩ ⟨by decide, by decide, by decide⟩
    ⟨by decide, by decide, by decide⟩).2 rfl
  revert this
  decide

theorem split_at {c : Char} : ∀ {a b x y : Str}, c ∉ a → c ∉ b → a ++ c :: x = b ++ c :: y → a = b ∧ x = y
  | [], [], _, _, _, _, h => by simpa using h
  | [], d :: b, _, _, _, hb, h => by
    simp only [List.nil_append, List.cons_append, List.cons.injEq] at h
    exact absurd (List.mem_cons.mpr (Or.inl h.1)) hb
  | d :: a, [], _, _, ha, _, h => by
    simp only [List.nil_append, List.cons_append, List.cons.injEq] at h
    exact absurd (List.mem_cons.mpr (Or.inl h.1.symm)) ha
  | d :: a, e :: b, _, _, ha, hb, h => by
    simp only [List.cons_append, List.cons.injEq] at h
    have := split_at (fun hc => ha (List.mem_cons_of_mem _ hc)) (fun hc => hb (List.mem_cons_of_mem _ hc)) h.2
    exact ⟨by rw [h.1, this.1], this.2⟩

theorem pkgText_name {p : PkgId} (hn : Name p.name) (hv : Name p.version) : '`' ∉ pkgText p := by
  have h1 := hn.1
  have h2 := hv.1
  unfold pkgText crateText kindText
  split <;> simp [h1, h2]

/-- The text for a package determines its name, and its version if there are several packages of this name. -/
theorem pkgText_inj {p q : PkgId} (hp : Name p.name) (hq : Name q.name) (h : pkgText p = pkgText q) :
    p.name = q.name ∧ p.nameIsUnique = q.nameIsUnique ∧ (p.nameIsUnique = false → p.version = q.version) := by
  unfold pkgText crateText kindText at h
  have h1 : '[' ∉ p.name := hp.2.1
  have h2 : '[' ∉ q.name := hq.2.1
  cases hu : p.nameIsUnique <;> cases hv : q.nameIsUnique <;>
    simp only [hu, hv, if_true, Bool.false_eq_true, if_false, List.append_nil, List.append_assoc, List.cons_append] at h
  · have := split_at h1 h2 h
    exact ⟨this.1, rfl, fun _ => by simpa using this.2⟩
  · exact absurd (h ▸ (List.mem_append.mpr (Or.inr (List.mem_cons_self ..)))) h2
  · exact absurd (h ▸ (List.mem_append.mpr (Or.inr (List.mem_cons_self ..)))) h1
  · exact ⟨h, rfl, fun h => by cases h⟩

theorem scopeText_inj {a b : Scope} (h : scopeText a = scopeText b) : a = b := by
  revert h
  cases a <;> cases b <;> decide

/-- **C124 (partial).** For all disallowed uses: the text that is shown when the user is asked determines the permission that
is missing; the report of a run without user interaction determines the package (also the version, if there are
several) and the API.

What is missing: the scope in reports without user interaction, see `C124_scope_not_reported`. -/
theorem C124_permission_partial (env : Names) (u v : ApiUsages) (h1 : Name u.pkg.name) (h2 : Name v.pkg.name)
    (h3 : Name u.pkg.version) (h4 : Name v.pkg.version) (h5 : Name u.api) (h6 : Name v.api)
    (h7 : '\'' ∉ u.pkg.name ++ u.pkg.version) (h8 : '\'' ∉ v.pkg.name ++ v.pkg.version) :
    (shortText (.disallowedApiUsage u) = shortText (.disallowedApiUsage v) → lacks u = lacks v) ∧
    (longText env (.disallowedApiUsage u) = longText env (.disallowedApiUsage v) →
      u.pkg.name = v.pkg.name ∧ u.api = v.api ∧ (u.pkg.nameIsUnique = false → u.pkg.version = v.pkg.version)) := by
  constructor
  · intro h
    simp only [shortText, quote, List.cons_append, List.append_assoc, List.cons.injEq, true_and, List.nil_append] at h
    obtain ⟨hp, h⟩ := split_at (pkgText_name h1 h3) (pkgText_name h2 h4) h
    have h := List.append_cancel_left (as := str! " uses the ") h
    simp only [List.cons.injEq, true_and] at h
    obtain ⟨ha, h⟩ := split_at h5.1 h6.1 h
    have hs := scopeText_inj (List.append_cancel_left (as := str! " API") h)
    unfold lacks
    rw [(pkgText_inj h1 h2 hp).1, ha, hs]
  · intro h
    have hq : ∀ p : PkgId, '\'' ∉ p.name ++ p.version → '\'' ∉ pkgText p := by
      intro p hp
      simp only [List.mem_append, not_or] at hp
      unfold pkgText crateText kindText
      split <;> simp [hp.1, hp.2]
    simp only [longText, quote, List.cons_append, List.append_assoc, List.cons.injEq, true_and, List.nil_append] at h
    obtain ⟨hp, h⟩ := split_at (x := _) (y := _) (hq _ h7) (hq _ h8) h
    have h := List.append_cancel_left (as := str! " uses disallowed API ") h
    simp only [List.cons.injEq, true_and] at h
    obtain ⟨ha, _⟩ := split_at h5.1 h6.1 h
    have := pkgText_inj h1 h2 hp
    exact ⟨this.1, ha, this.2.2⟩

/-- Non-vacuity: two versions of a package, and two scopes. -/
example : shortText (.disallowedApiUsage { inLib with pkg := ⟨str! "a", str! "1.0.0", false⟩, scope := .build }) =
    str! "`a[1.0.0]` uses the `fs` API in its build script" := by decide +kernel

/-- **C124: problems in the list look the same.** Two uses of an API of a package that is no dependency, which differ only in the
scope, are different problems with the same text, though the permissions that are missing are not the same. -/
theorem C124_off_tree_look_alike (env : Names) : ∃ (u v : ApiUsages) (r : PkgId), lacks u ≠ lacks v ∧
    (Problem.offTreeApiUsage u r).dedupKey ≠ (Problem.offTreeApiUsage v r).dedupKey ∧
    shortText (.offTreeApiUsage u r) = shortText (.offTreeApiUsage v r) ∧
    longText env (.offTreeApiUsage u r) = longText env (.offTreeApiUsage v r) :=
  ⟨inLib, inBuild, ⟨str! "b", str! "1.0.0", true⟩, by decide, by decide, rfl, rfl⟩

end Cackle.Report
