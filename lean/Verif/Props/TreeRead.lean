import Verif.Props.LibTree

/-!
# C185: the dependency tree is read completely or the run fails
-/

namespace Cackle.LibTree
open Cackle Perm

/-! ## Specification -/

/-- The text consists of these lines. -/
def Text (ls : List Str) (text : Str) : Prop :=
  text = (ls.map (· ++ ['\n'])).flatten ∧ ∀ l ∈ ls, '\n' ∉ l ∧ l.getLast? ≠ some '\r'

/-- The name of the crate: the name of the library if there is one, otherwise that of the package with underscores. -/
def crateOf (lib name : Str) : Str := if lib = [] then name.map (fun c => if c = '-' then '_' else c) else lib

/-- The line has at least four fields: level, library, package and version. -/
def Fields (line level lib name version : Str) : Prop :=
  ∃ rest, (rest = [] ∨ ∃ r, rest = ' ' :: r) ∧
    line = level ++ ' ' :: (lib ++ ' ' :: (name ++ ' ' :: (version ++ rest))) ∧
    ' ' ∉ level ∧ ' ' ∉ lib ∧ ' ' ∉ name ∧ ' ' ∉ version

/-- The line is understood: the level is a number, the package is known in this version, and the tree has the crate. -/
def Understood (idx : AMap Str (List PkgId)) (st : St) (line : Str) : Prop :=
  ∃ level lib name v, Fields line level lib name ('v' :: v) ∧
    (∃ t, (level = t ∨ level = '+' :: t) ∧ t ≠ [] ∧ ∀ c ∈ t, c.isDigit = true) ∧
    (∃ ids id, idx.get? name = some ids ∧ id ∈ ids ∧ id.version = v) ∧
    (st.libs.get? (crateOf lib name)).isSome = true

/-- The English claim C185: if the tree is read without an error, then `cargo tree` succeeded, and all lines of its output
but the empty ones are understood. -/
def C185_Claim : Prop :=
  ∀ (idx : AMap Str (List PkgId)) (valid : Str → Bool) (ok : Bool) (text : Str) (ls : List Str) (st : St), Text ls text →
    fromWorkspace idx valid (some (ok, some text)) = some st →
    ok = true ∧ ∀ line ∈ ls, line ≠ [] → Understood idx st line

/-! ## Lemmas -/

variable {idx : AMap Str (List PkgId)} {valid : Str → Bool}

theorem lines_of_text {ls : List Str} {text : Str} (h : Text ls text) : BuildScript.lines text = ls := by
  obtain ⟨rfl, h⟩ := h
  induction ls with
  | nil => rfl
  | cons l ls ih =>
    have h1 := h l (by simp)
    have : ((l :: ls).map (· ++ ['\n'])).flatten = l ++ '\n' :: (ls.map (· ++ ['\n'])).flatten := by simp
    rw [this, BuildScript.lines_cons h1.1, ih (fun x hx => h x (by simp [hx]))]
    congr 1
    exact if_neg h1.2

theorem parseUsize_digits {s : Str} {n : Nat} (h : parseUsize s = some n) :
    ∃ t, (s = t ∨ s = '+' :: t) ∧ t ≠ [] ∧ ∀ c ∈ t, c.isDigit = true := by
  unfold parseUsize at h
  simp only at h
  split at h
  · rename_i hc
    refine ⟨stripPlus s, ?_, hc.1, by simpa [List.all_eq_true] using hc.2⟩
    unfold stripPlus
    split
    · exact Or.inr rfl
    · exact Or.inl rfl
  · cases h

theorem processLine_fields {st st' : St} {line level lib name version : Str} (hf : Fields line level lib name version)
    (h : processLine idx valid st line = some st') :
    ∃ v d ids id, version = 'v' :: v ∧ parseUsize level = some d ∧ idx.get? name = some ids ∧ id ∈ ids ∧ id.version = v ∧
      st' = visit st (d + 1) (crateOf lib name) id := by
  obtain ⟨rest, hr, rfl, h1, h2, h3, h4⟩ := hf
  have hver : ∃ r, splitChar ' ' (version ++ rest) = version :: r := by
    rcases hr with rfl | ⟨r, rfl⟩
    · exact ⟨[], by rw [List.append_nil]; exact BuildScript.splitChar_last h4⟩
    · exact ⟨_, BuildScript.splitChar_line h4⟩
  obtain ⟨r, hver⟩ := hver
  unfold processLine at h
  rw [BuildScript.splitChar_line h1, BuildScript.splitChar_line h2, BuildScript.splitChar_line h3, hver] at h
  simp only at h
  split at h
  · cases h
  · rename_i d hd
    split at h
    · rename_i v
      split at h
      · split at h
        · cases h
        · rename_i ids hi
          split at h
          · cases h
          · rename_i id hid
            cases h
            exact ⟨v, d, ids, id, rfl, hd, hi, List.mem_of_find?_eq_some hid, by simpa using List.find?_some hid, rfl⟩
      · cases h
    · cases h

theorem processLine_libs {st st' : St} {line : Str} (h : processLine idx valid st line = some st') {x : Str}
    (hx : (st.libs.get? x).isSome = true) : (st'.libs.get? x).isSome = true := by
  have key : st' = st ∨ ∃ d lib id, st' = visit st d lib id := by
    unfold processLine at h
    repeat' split at h
    all_goals first
      | (cases h; exact Or.inl rfl)
      | (cases h; exact Or.inr ⟨_, _, _, rfl⟩)
      | cases h
  rcases key with rfl | ⟨d, lib, id, rfl⟩
  · exact hx
  · rw [visit_libs, AMap.get?_insert]
    split
    · rfl
    · exact hx

theorem processLines_libs {ls : List Str} {st st' : St} (h : processLines idx valid st ls = some st') {x : Str}
    (hx : (st.libs.get? x).isSome = true) : (st'.libs.get? x).isSome = true := by
  induction ls generalizing st with
  | nil => cases h; exact hx
  | cons l ls ih =>
    simp only [processLines] at h
    split at h
    · cases h
    · rename_i s1 h1
      exact ih h (processLine_libs h1 hx)

theorem processLines_understood {ls : List Str} {st st' : St} (h : processLines idx valid st ls = some st') :
    ∀ line ∈ ls, (∃ level lib name version, Fields line level lib name version) → Understood idx st' line := by
  induction ls generalizing st with
  | nil => intro l hl; cases hl
  | cons l ls ih =>
    simp only [processLines] at h
    split at h
    · cases h
    · rename_i s1 h1
      intro line hl hf
      rcases List.mem_cons.mp hl with rfl | hl
      · obtain ⟨level, lib, name, version, hf⟩ := hf
        obtain ⟨v, d, ids, id, rfl, h2, h3, h4, h5, rfl⟩ := processLine_fields hf h1
        refine ⟨level, lib, name, v, hf, parseUsize_digits h2, ⟨ids, id, h3, h4, h5⟩, processLines_libs h ?_⟩
        rw [visit_libs, AMap.get?_insert]
        simp
      · exact ih h line hl hf

/-! ## C185 -/

/-- **C185 (partial).** If the tree is read without an error, then `cargo tree` could be started, its output is text, and
all lines that have at least four fields are understood. Missing: that it succeeded (`C185_failed_command`), and that there
are no other lines (`C185_skipped_line`). -/
theorem C185_partial (idx : AMap Str (List PkgId)) (valid : Str → Bool) (cmd : Option (Bool × Option Str)) (st : St)
    (h : fromWorkspace idx valid cmd = some st) :
    ∃ ok text, cmd = some (ok, some text) ∧ ∀ ls, Text ls text → ∀ line ∈ ls,
      (∃ level lib name version, Fields line level lib name version) → Understood idx st line := by
  rcases cmd with _ | ⟨ok, _ | text⟩
  · cases h
  · cases h
  · refine ⟨ok, text, rfl, fun ls hls line hl hf => ?_⟩
    have h : build idx valid text = some st := h
    unfold build at h
    rw [lines_of_text hls] at h
    obtain ⟨s1, h1, rfl⟩ := Option.map_eq_some_iff.mp h
    obtain ⟨level, lib, name, v, h2, h3, h4, h5⟩ := processLines_understood h1 line hl hf
    exact ⟨level, lib, name, v, h2, h3, h4, h5⟩

/-- **C185, disagreement.** If `cargo tree` fails without output, the result is an empty tree and no error. -/
theorem C185_failed_command (idx : AMap Str (List PkgId)) (valid : Str → Bool) :
    ∃ st, fromWorkspace idx valid (some (false, some [])) = some st ∧ (∀ x, st.libs.get? x = none) ∧
      ∀ x, st.trans.get? x = none := ⟨{}, rfl, fun _ => rfl, fun _ => rfl⟩

/-- **C185, disagreement.** A line with two fields is skipped. -/
theorem C185_skipped_line (idx : AMap Str (List PkgId)) (valid : Str → Bool) :
    ∃ st, fromWorkspace idx valid (some (true, some (str! "0 a\n"))) = some st ∧ ¬ Understood idx st (str! "0 a") := by
  refine ⟨{}, rfl, ?_⟩
  rintro ⟨level, lib, name, v, _, _, _, h⟩
  cases h

/-- **C185, disagreement.** -/
theorem C185_refuted : ¬ C185_Claim := by
  intro hc
  obtain ⟨st, h, _⟩ := C185_failed_command [] (fun _ => true)
  exact nomatch (hc [] (fun _ => true) false [] [] st ⟨rfl, by simp⟩ h).1

/-! ## Non-vacuity -/

/-- The output of the example for C16 is read. -/
example : (fromWorkspace diaIdx (fun _ => true) (some (true, some diaText))).isSome = true := by decide +kernel

/-- The theorem applied to an output with an empty line between two packages. -/
example : ∃ st, fromWorkspace diaIdx (fun _ => true) (some (true, some diaText)) = some st ∧
    ∀ ls, Text ls diaText → ∀ line ∈ ls, (∃ level lib name version, Fields line level lib name version) →
      Understood diaIdx st line := by
  cases h : fromWorkspace diaIdx (fun _ => true) (some (true, some diaText)) with
  | none =>
    have : (fromWorkspace diaIdx (fun _ => true) (some (true, some diaText))).isSome = true := by decide +kernel
    rw [h] at this
    cases this
  | some st =>
    obtain ⟨ok, text, h1, h2⟩ := C185_partial _ _ _ _ h
    cases h1
    exact ⟨st, rfl, h2⟩

example : ∃ ls, Text ls diaText ∧ ls ≠ [] := by
  refine ⟨BuildScript.lines diaText, ⟨by decide +kernel, by decide +kernel⟩, by decide +kernel⟩

/-- A line with four fields and more. -/
example : Fields (str! "1 x x v1.0.0 (*)") (str! "1") (str! "x") (str! "x") (str! "v1.0.0") :=
  ⟨str! " (*)", Or.inr ⟨str! "(*)", rfl⟩, rfl, by decide, by decide, by decide, by decide⟩

/-- A package that is not known leads to an error. -/
example : fromWorkspace diaIdx (fun _ => true) (some (true, some (str! "0 other other v1.0.0\n"))) = none := by
  decide +kernel

end Cackle.LibTree
