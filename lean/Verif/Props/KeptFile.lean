import Verif.Props.ProblemsUi
import Verif.Props.AutoAccept

/-!
# C183: accepting edits keeps the rest of the config file

`ConfigEditor::from_file` uses an empty document if the file cannot be read. In the model of the user interface the file
is what can be read of it; here it is what is on the disk.
-/

namespace Cackle.Ui
open Cackle Store

variable {B F E C : Type} [DecidableEq F]

/-! ## Specification -/

/-- `read_to_string`, given the bytes on the disk (`none`: there is no file) and how bytes are read as text (`none`: they are
not UTF-8, or reading is not permitted). -/
def readText (reads : B → Option F) (disk : Option B) : Option F := disk.bind reads

/-- The new text of the file is made from what was on the disk: by the highlighted one of the offered edits with the
comment entered for it, or by the only edits of all problems that have only one, applied to the document that was there. -/
def Kept (env : Env F E C) (ui : State F C) (reads : B → Option F) (disk : Option B) (file : Option F) : Prop :=
  ∃ b f e e', disk = some b ∧ reads b = some f ∧ env.parse f = some e ∧ file = some (env.print e') ∧
    ((∃ ed, (offered env ui)[ui.editIndex]? = some ed ∧ ed.apply ui.comment e = (e', true)) ∨
      runAll (singles env ui.config ui.store) e = some e')

/-- The English claim C183: if the user interface changes the config file while there is one, then it applies
the accepted edits to it. -/
def C183_Claim : Prop :=
  ∀ (B F E C : Type) [DecidableEq F] (env : Env F E C) (reads : B → Option F), env.Sane →
    ∀ (x x' : Sys F C) (tr : List (Sys F C × Act F C)), Exec env x tr →
    ∀ (w : Bool) (i : Input), act env x (.iter w i) = some x' → ∀ b : B, readText reads (some b) = x.ui.file →
    x'.ui.file ≠ x.ui.file → Kept env x.ui reads (some b) x'.ui.file

/-! ## C183 -/

/-- **C183 (partial).** The claim for files that can be read at the time. Missing: others, see `C183_unreadable`. -/
theorem C183_partial (env : Env F E C) (reads : B → Option F) (hs : env.Sane) (x x' : Sys F C)
    (tr : List (Sys F C × Act F C)) (h : Exec env x tr) (w : Bool) (i : Input) (ha : act env x (.iter w i) = some x') (b : B)
    (hb : readText reads (some b) = x.ui.file) (hf : x'.ui.file ≠ x.ui.file) (hr : ∃ f, reads b = some f) :
    Kept env x.ui reads (some b) x'.ui.file := by
  obtain ⟨f, hr⟩ := hr
  have hfile : x.ui.file = some f := by rw [← hb]; exact hr
  rcases C86_file_changes_partial env hs x x' tr h _ ha hf with ⟨f', h1⟩ | ⟨k, ed, e, -, -, -, -, h5, h2, h3, h4⟩ |
    ⟨e, e', -, h2, h3, h4⟩
  · cases h1
  · rw [hfile] at h2
    exact ⟨b, f, e, _, rfl, hr, h2, h4, Or.inl ⟨ed, h5, Prod.ext rfl h3⟩⟩
  · rw [hfile] at h2
    exact ⟨b, f, e, e', rfl, hr, h2, h4, Or.inr h3⟩

/-- Text is read if all characters are ASCII characters, as one line. -/
def ascii (b : List Nat) : Option (List Str) := if b.all (· < 128) then some [b.map Char.ofNat] else none

/-- The config file is there when the problem is reported. Then the user changes it with an editor, and saves it in an
encoding other than UTF-8. After that they select the edit that is offered. -/
def otherEncoding : List (Act (List Str) Bool) :=
  [.touch (ascii (([100, 97, 116, 97] : List Nat)))] ++ reported [macroA] ++ [.touch (ascii [100, 228]), press (.char 'f')]

/-- **C183, disagreement.** The config file has two bytes `d` and `ä` in another encoding. The user accepts an edit that adds
a line. The result consists of that line only, and no error is shown. -/
theorem C183_unreadable : ∃ x x' tr, Exec demo x tr ∧ readText ascii (some [100, 228]) = x.ui.file ∧
    act demo x (press .enter) = some x' ∧ x'.ui.file = some [str! "a"] ∧ x'.error = false ∧ x'.ui.file ≠ x.ui.file ∧
    ¬ Kept demo x.ui ascii (some [100, 228]) x'.ui.file := by
  have h1 : (demoRun otherEncoding).isSome = true := by decide
  obtain ⟨x, hx⟩ := some_of_isSome h1
  obtain ⟨tr, he⟩ := demo_exec hx
  have h2 : ((demoRun otherEncoding).bind (fun x => act demo x (press .enter))).isSome = true := by decide
  have h3 : ((demoRun otherEncoding).bind (fun x => act demo x (press .enter))).map (fun x => (x.ui.file, x.error)) =
      some (some [str! "a"], false) := by decide
  have h4 : (demoRun otherEncoding).map (fun x => x.ui.file) = some none := by decide
  rw [hx] at h2 h3 h4
  obtain ⟨x', hx'⟩ := some_of_isSome h2
  have hx' : act demo x (press .enter) = some x' := hx'
  simp only [Option.bind_some, hx', Option.map_some, Option.some.injEq, Prod.mk.injEq] at h3 h4
  refine ⟨x, x', tr, he, ?_, hx', h3.1, h3.2, ?_, ?_⟩
  · rw [h4]
    decide
  · rw [h3.1, h4]
    simp
  · rintro ⟨b, f, e, e', h5, h6, -⟩
    cases h5
    have h7 : ascii [100, 228] = none := by decide
    rw [h7] at h6
    cases h6

/-- **C183, disagreement.** -/
theorem C183_refuted : ¬ C183_Claim := by
  intro hc
  obtain ⟨x, x', tr, h1, h2, h3, -, -, h4, h5⟩ := C183_unreadable
  exact h5 (hc _ _ _ _ demo ascii demo_sane x x' tr h1 true (.key .enter) h3 _ h2 h4)

/-! ## Non-vacuity -/

/-- The same with a file that can be read: the line is added. -/
def sameEncoding : List (Act (List Str) Bool) :=
  reported [macroA] ++ [.touch (ascii [100, 97]), press (.char 'f')]

example : ∃ x x' tr, Exec demo x tr ∧ readText ascii (some [100, 97]) = x.ui.file ∧
    act demo x (press .enter) = some x' ∧ x'.ui.file = some [str! "da", str! "a"] ∧
    Kept demo x.ui ascii (some [100, 97]) x'.ui.file := by
  have h1 : (demoRun sameEncoding).isSome = true := by decide
  obtain ⟨x, hx⟩ := some_of_isSome h1
  obtain ⟨tr, he⟩ := demo_exec hx
  have h2 : ((demoRun sameEncoding).bind (fun x => act demo x (press .enter))).isSome = true := by decide
  have h3 : ((demoRun sameEncoding).bind (fun x => act demo x (press .enter))).map (fun x => x.ui.file) =
      some (some [str! "da", str! "a"]) := by decide
  have h4 : (demoRun sameEncoding).map (fun x => x.ui.file) = some (some [str! "da"]) := by decide
  rw [hx] at h2 h3 h4
  obtain ⟨x', hx'⟩ := some_of_isSome h2
  have hx' : act demo x (press .enter) = some x' := hx'
  simp only [Option.bind_some, hx', Option.map_some, Option.some.injEq] at h3 h4
  have hb : readText ascii (some [100, 97]) = x.ui.file := by rw [h4]; decide
  exact ⟨x, x', tr, he, hb, hx', h3, C183_partial demo ascii demo_sane x x' tr he true (.key .enter) hx' _ hb
    (by rw [h3, h4]; simp) ⟨[str! "da"], by decide⟩⟩

end Cackle.Ui

/-! ## Auto-accept without a user interface

The same for `null_ui.rs`, which opens the file in the same way (null_ui.rs:47). -/

namespace Cackle.NullUi
open Cackle Store

/-- How config files are read and written: `reads` as above, `parse` and `save` are those of the editor, `blank` is the empty
text. -/
structure Disk (B T E : Type) where
  reads : B → Option T
  parse : T → Option E
  blank : T
  save : E → B

/-- The parameters of the model for a config file on the disk (`none`: there is no file): `from_file` and the
writing at the end (config_editor.rs:153-156, null_ui.rs:47, 63). `w` is whether the file can be written. -/
def Disk.edits {B T E : Type} (d : Disk B T E) (w : Bool) (first : Problem → Option (E → Option E)) : Edits (Option B) E where
  first := first
  open_ f := d.parse ((f.bind d.reads).getD d.blank)
  write _ e := if w then some (some (d.save e)) else none

variable {B T E : Type}

/-- **C183 (partial, auto-accept).** If auto-accept changes a config file that can be read, then the new contents are the old
ones with the first edit of each problem that has one. Missing: files that cannot be read, see
`C183_auto_accept_unreadable`. -/
theorem C183_auto_accept_partial (d : Disk B T E) (w : Bool) (first : Problem → Option (E → Option E)) (a : Args)
    (ha : a.autoAccept = true) (s s' : State) (tr : List Ev) (h : Run s tr) (b : B) (t : T) (hr : d.reads b = some t)
    (f' : Option B) (ho : onProblemsAdded (d.edits w first) a s (some b) = some (s', some f')) (hne : f' ≠ some b) :
    ∃ e e', d.parse t = some e ∧ applyFirst (d.edits w first) (fixable (d.edits w first) s) e = some e' ∧
      f' = some (d.save e') := by
  obtain ⟨s2, tr2, h1, _, _⟩ := C66_auto_accept _ _ (d.edits w first) a ha (some b) s tr h
  rw [h1] at ho
  have h2 := (Prod.mk.inj (Option.some.inj ho)).2
  unfold acceptedFile at h2
  obtain ⟨e, he, h3⟩ := Option.bind_eq_some_iff.mp h2
  obtain ⟨e', he', h4⟩ := Option.bind_eq_some_iff.mp h3
  refine ⟨e, e', ?_, he', ?_⟩
  · simpa [Disk.edits, hr] using he
  · split at h4
    · exact absurd (Option.some.inj h4).symm hne
    · cases w
      · simp [Disk.edits] at h4
      · simpa [Disk.edits] using h4.symm

/-- **C183, disagreement (auto-accept).** If the file cannot be read and there is something to accept, then the file that
auto-accept leaves behind is the same as if there had been none, whatever was in it. -/
theorem C183_auto_accept_unreadable (d : Disk B T E) (w : Bool) (first : Problem → Option (E → Option E)) (a : Args)
    (ha : a.autoAccept = true) (s : State) (tr : List Ev) (h : Run s tr) (b : B) (hr : d.reads b = none)
    (hf : fixable (d.edits w first) s ≠ []) :
    (onProblemsAdded (d.edits w first) a s (some b)).map Prod.snd =
      (onProblemsAdded (d.edits w first) a s none).map Prod.snd := by
  obtain ⟨s1, _, h1, _, _⟩ := C66_auto_accept _ _ (d.edits w first) a ha (some b) s tr h
  obtain ⟨s2, _, h2, _, _⟩ := C66_auto_accept _ _ (d.edits w first) a ha none s tr h
  rw [h1, h2]
  simp only [Option.map_some, Option.some.injEq, acceptedFile, hf, if_false]
  simp [Disk.edits, hr]

/-- Files are numbers; those above 9 cannot be read. The editor adds one. -/
private def digits : Disk Nat Nat Nat := ⟨fun b => if b ≤ 9 then some b else none, some, 0, id⟩
private def plusOne : Problem → Option (Nat → Option Nat) := fun _ => some (fun e => some (e + 1))

private def selectStore : State := (add {} [.selectSandbox]).elim {} Prod.fst

/-- A file that can be read is changed; one that cannot be read is replaced. -/
example : (onProblemsAdded (digits.edits true plusOne) { autoAccept := true } selectStore (some 7)).map Prod.snd =
    some (some (some 8)) := by decide
example : (onProblemsAdded (digits.edits true plusOne) { autoAccept := true } selectStore (some 77)).map Prod.snd =
    some (some (some 1)) := by decide
example : ∃ tr, Run selectStore tr := ⟨_, Run.step (.add [.selectSandbox]) .init rfl⟩
example : fixable (digits.edits true plusOne) selectStore ≠ [] := by decide

end Cackle.NullUi
