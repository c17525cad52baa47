import Verif.Model.ReadFiles
import Verif.Props.Security

/-!
# C145: what cannot be read is not passed over
-/

namespace Cackle.Read
open Cackle Checker Graph

/-! ## Specification -/

/-- The file is a Rust library: its name ends in `.rlib`. -/
def IsRlib (p : PathC) : Prop := ∃ dir base, p = dir ++ [base ++ str! ".rlib"] ∧ base ≠ []

/-- The object files that are in a file: those in a Rust library, or the file itself. -/
inductive Holds (disk : PathC → Option InFile) (p : PathC) (o : Obj) : Prop
  | member {f : InFile} {e : Entry} : disk p = some f → IsRlib p → some e ∈ f.entries → e.contents = some (some o) →
      Holds disk p o
  | itself {f : InFile} : disk p = some f → ¬ IsRlib p → f.object = some o → Holds disk p o

/-- An entry of a library could be read and is an object file. -/
def Entry.Fine (e : Entry) : Prop := e.name.isSome = true ∧ ∃ o, e.contents = some (some o)

/-- What is known about a binary is what is in the file: sections that can be read are given to the libraries as they are. -/
def FromFile (L : Libs) (isStd : Str → Bool) (li : LinkInfo) (f : BinFile) (b : Bin) : Prop :=
  ∃ (text : Str → Bytes) (units : List Dwarf.DUnit) (st : Dwarf.Scan),
    (∀ name data, f.sections.get? name = some (some data) → text name = data) ∧
    L.units text = .ok units ∧ Dwarf.scan units isStd = .ok st ∧ L.context text = .ok b.frame ∧
    b.debug = st.symbolDebugInfo ∧ b.inlined = st.inlined ∧ f.symbols = some b.symbols ∧ b.path = li.outputFile ∧
    b.crate = li.crate

/-- Everything could be read: all sections of the binary, and all files with all of their entries. -/
structure AllRead (bin : Option BinFile) (disk : PathC → Option InFile) (paths : List PathC) : Prop where
  binary : ∃ f, bin = some f ∧ f.symbols.isSome = true
  sections : ∀ f, bin = some f → ∀ name, f.sections.get? name ≠ some none
  files : ∀ p ∈ paths, ∃ f, disk p = some f ∧ (IsRlib p → ∀ x ∈ f.entries, ∃ e, x = some e ∧ e.Fine) ∧
    (¬ IsRlib p → f.object.isSome = true)

/-- The claim: a scan that succeeds has read everything. -/
def C145_Claim : Prop :=
  ∀ (L : Libs) (isStd : Str → Bool) (c : State) (n : Nat) (order : AMap Key (List Single) → List (Key × List Single))
    (li : LinkInfo) (bin : Option BinFile) (disk : PathC → Option InFile) (paths : List PathC) (out : ScanOut),
    scanObjects L isStd c n order li bin disk paths = .ok out → AllRead bin disk paths

/-! ## Lemmas -/

theorem stem_dot {base e : Str} (he : '.' ∉ e) : Fs.stem (base ++ '.' :: e) = if base = [] then base ++ '.' :: e else base := by
  have h : (base ++ '.' :: e).reverse.dropWhile (· ≠ '.') = '.' :: base.reverse := by
    rw [List.reverse_append, List.reverse_cons, List.append_assoc]
    rw [List.dropWhile_append_of_pos (by
      intro c hc
      have hc := List.mem_reverse.mp hc
      simpa using fun h : c = '.' => he (h ▸ hc))]
    rfl
  unfold Fs.stem
  rw [h]
  cases base with
  | nil => rfl
  | cons c cs => simp

theorem extension_dot {base e : Str} (he : '.' ∉ e) : Fs.extension (base ++ '.' :: e) = if base = [] then none else some e := by
  unfold Fs.extension
  rw [stem_dot he]
  by_cases hb : base = []
  · rw [if_pos hb, if_pos hb, if_pos rfl]
  · rw [if_neg hb, if_neg hb, if_neg]
    · congr 1
      rw [List.drop_append, List.drop_eq_nil_of_le (by omega)]
      have : base.length + 1 - base.length = 1 := by omega
      rw [this]
      rfl
    · intro h
      have := congrArg List.length h
      rw [List.length_append, List.length_cons] at this
      omega

theorem extension_no_dot {name : Str} (h : '.' ∉ name) : Fs.extension name = none := by
  have : name.reverse.dropWhile (· ≠ '.') = [] := by
    have := List.dropWhile_append_of_pos (p := (· ≠ '.')) (l₁ := name.reverse) (l₂ := []) (by
      intro c hc
      have hc := List.mem_reverse.mp hc
      simpa using fun e : c = '.' => h (e ▸ hc))
    rwa [List.append_nil] at this
  unfold Fs.extension Fs.stem
  rw [this]
  exact if_pos rfl

theorem last_dot : ∀ {name : Str}, '.' ∈ name → ∃ base e, name = base ++ '.' :: e ∧ '.' ∉ e
  | c :: name, h => by
    by_cases hn : '.' ∈ name
    · obtain ⟨base, e, rfl, he⟩ := last_dot hn
      exact ⟨c :: base, e, rfl, he⟩
    · rcases List.mem_cons.mp h with rfl | h
      · exact ⟨[], name, rfl, hn⟩
      · exact absurd h hn

theorem extension_iff {name e : Str} : Fs.extension name = some e ↔ ∃ base, base ≠ [] ∧ name = base ++ '.' :: e ∧ '.' ∉ e := by
  constructor
  · intro h
    by_cases hn : '.' ∈ name
    · obtain ⟨base, e', rfl, he⟩ := last_dot hn
      rw [extension_dot he] at h
      split at h
      · cases h
      · cases h
        exact ⟨base, by assumption, rfl, he⟩
    · rw [extension_no_dot hn] at h
      cases h
  · rintro ⟨base, hb, rfl, he⟩
    rw [extension_dot he, if_neg hb]

theorem filetype_iff (p : PathC) : Filetype.fromFilename p = .archive ↔ IsRlib p := by
  have hext : ∀ name : Str, (Fs.extension name = some (str! "rlib") ∨ Fs.extension name = some (str! ".a")) ↔
      ∃ base, base ≠ [] ∧ name = base ++ str! ".rlib" := by
    intro name
    rw [extension_iff, extension_iff]
    constructor
    · rintro (⟨base, hb, h, _⟩ | ⟨_, _, _, h⟩)
      · exact ⟨base, hb, h⟩
      · exact absurd (.head _) h
    · rintro ⟨base, hb, h⟩
      exact .inl ⟨base, hb, h, by decide⟩
  unfold Filetype.fromFilename pathExtension IsRlib
  cases hl : p.getLast? with
  | none =>
    rw [List.getLast?_eq_none_iff] at hl
    subst hl
    constructor
    · intro h; cases h
    · rintro ⟨dir, base, h, _⟩
      simp at h
  | some name =>
    obtain ⟨dir, rfl⟩ := List.getLast?_eq_some_iff.mp hl
    have key : (∃ dir' base, dir ++ [name] = dir' ++ [base ++ str! ".rlib"] ∧ base ≠ []) ↔
        ∃ base, base ≠ [] ∧ name = base ++ str! ".rlib" := by
      constructor
      · rintro ⟨dir', base, h, hb⟩
        have := List.append_inj' h rfl
        exact ⟨base, hb, List.singleton_inj.mp this.2⟩
      · rintro ⟨base, hb, rfl⟩
        exact ⟨dir, base, rfl, hb⟩
    rw [key, ← hext]
    dsimp only
    by_cases hs : name = str! ".." ∨ name = str! "/"
    · rw [if_pos hs]
      dsimp only
      constructor
      · intro h; cases h
      · intro h
        rcases hs with rfl | rfl <;> exact absurd h (by decide)
    · rw [if_neg hs]
      cases Fs.extension name with
      | none => simp
      | some e => by_cases h : e = str! "rlib" ∨ e = str! ".a" <;> simp [h]

theorem entryObjects_ok : ∀ {es : List (Option Entry)} {os : List Obj}, entryObjects es = .ok os →
    (∀ e, some e ∈ es → e.Fine) ∧ ∀ o, o ∈ os ↔ ∃ e, some e ∈ es ∧ e.contents = some (some o)
  | [], os, h => by
    cases h
    exact ⟨fun e h => (by cases h), fun o => ⟨fun h => (by cases h), fun ⟨_, h, _⟩ => (by cases h)⟩⟩
  | none :: es, os, h => by
    obtain ⟨h1, h2⟩ := entryObjects_ok (es := es) h
    refine ⟨fun e he => h1 e (by simpa using he), fun o => ?_⟩
    rw [h2 o]
    constructor
    · rintro ⟨e, he, hc⟩; exact ⟨e, .tail _ he, hc⟩
    · rintro ⟨e, he, hc⟩; exact ⟨e, by simpa using he, hc⟩
  | some e :: es, os, h => by
    obtain ⟨c, hc, h⟩ := bind_ok h
    obtain ⟨nm, hn, h⟩ := bind_ok h
    obtain ⟨o, ho, h⟩ := bind_ok h
    obtain ⟨os', hos, h⟩ := bind_ok h
    cases h
    have hc := ofOption_ok hc
    have hn := ofOption_ok hn
    have ho := ofOption_ok ho
    subst ho
    obtain ⟨h1, h2⟩ := entryObjects_ok hos
    refine ⟨fun e' he => ?_, fun o' => ?_⟩
    · rcases List.mem_cons.mp he with he | he
      · cases he
        exact ⟨by rw [hn]; rfl, o, hc⟩
      · exact h1 e' he
    · constructor
      · intro ho'
        rcases List.mem_cons.mp ho' with rfl | ho'
        · exact ⟨e, .head _, hc⟩
        · obtain ⟨e', he', hc'⟩ := (h2 o').mp ho'
          exact ⟨e', .tail _ he', hc'⟩
      · rintro ⟨e', he', hc'⟩
        rcases List.mem_cons.mp he' with he' | he'
        · cases he'
          rw [hc] at hc'
          cases hc'
          exact .head _
        · exact .tail _ ((h2 o').mpr ⟨e', he', hc'⟩)

theorem fileObjects_ok {disk : PathC → Option InFile} {p : PathC} {os : List Obj} (h : fileObjects disk p = .ok os) :
    (∃ f, disk p = some f ∧ (IsRlib p → ∀ e, some e ∈ f.entries → e.Fine) ∧ (¬ IsRlib p → f.object.isSome = true)) ∧
    ∀ o, o ∈ os ↔ Holds disk p o := by
  obtain ⟨f, hf, h⟩ := bind_ok h
  have hf := ofOption_ok hf
  by_cases hr : IsRlib p
  · have ht := (filetype_iff p).mpr hr
    rw [ht] at h
    obtain ⟨h1, h2⟩ := entryObjects_ok h
    refine ⟨⟨f, hf, fun _ => h1, fun hn => absurd hr hn⟩, fun o => ?_⟩
    rw [h2 o]
    constructor
    · rintro ⟨e, he, hc⟩; exact .member hf hr he hc
    · intro ho
      cases ho with
      | member hf' _ he hc =>
        rw [hf] at hf'
        cases hf'
        exact ⟨_, he, hc⟩
      | itself _ hn _ => exact absurd hr hn
  · have ht : Filetype.fromFilename p = .other := by
      cases ht : Filetype.fromFilename p with
      | archive => exact absurd ((filetype_iff p).mp ht) hr
      | other => rfl
    rw [ht] at h
    obtain ⟨o, ho, h⟩ := bind_ok h
    cases h
    have ho := ofOption_ok ho
    refine ⟨⟨f, hf, fun h => absurd h hr, fun _ => by rw [ho]; rfl⟩, fun o' => ?_⟩
    rw [List.mem_singleton]
    constructor
    · rintro rfl; exact .itself hf hr ho
    · intro h
      cases h with
      | member _ h _ _ => exact absurd h hr
      | itself hf' _ ho' =>
        rw [hf] at hf'
        cases hf'
        rw [ho] at ho'
        exact (Option.some.inj ho').symm

theorem allObjects_ok {disk : PathC → Option InFile} : ∀ {ps : List PathC} {os : List Obj}, allObjects disk ps = .ok os →
    (∀ p ∈ ps, ∃ f, disk p = some f ∧ (IsRlib p → ∀ e, some e ∈ f.entries → e.Fine) ∧ (¬ IsRlib p → f.object.isSome = true)) ∧
    ∀ o, o ∈ os ↔ ∃ p ∈ ps, Holds disk p o
  | [], os, h => by
    cases h
    exact ⟨fun p hp => (by cases hp), fun o => ⟨fun h => (by cases h), fun ⟨_, h, _⟩ => (by cases h)⟩⟩
  | p :: ps, os, h => by
    obtain ⟨a, ha, h⟩ := bind_ok h
    obtain ⟨b, hb, h⟩ := bind_ok h
    cases h
    obtain ⟨a1, a2⟩ := fileObjects_ok ha
    obtain ⟨b1, b2⟩ := allObjects_ok hb
    refine ⟨fun q hq => ?_, fun o => ?_⟩
    · rcases List.mem_cons.mp hq with rfl | hq
      · exact a1
      · exact b1 q hq
    · rw [List.mem_append, a2, b2]
      constructor
      · rintro (h | ⟨q, hq, h⟩)
        · exact ⟨p, .head _, h⟩
        · exact ⟨q, .tail _ hq, h⟩
      · rintro ⟨q, hq, hh⟩
        rcases List.mem_cons.mp hq with rfl | hq
        · exact .inl hh
        · exact .inr ⟨q, hq, hh⟩

theorem fromFile {L : Libs} {isStd : Str → Bool} {li : LinkInfo} {f : BinFile} {b : Bin}
    (hb : readBin L isStd li.outputFile li.crate f = .ok b) : FromFile L isStd li f b := by
  obtain ⟨units, hu, hb⟩ := bind_ok hb
  obtain ⟨st, hst, hb⟩ := bind_ok hb
  obtain ⟨fr, hfr, hb⟩ := bind_ok hb
  obtain ⟨sy, hs, hb⟩ := bind_ok hb
  cases hb
  refine ⟨loadSection f, units, st, fun name data h => ?_, hu, hst, hfr, rfl, rfl, ofOption_ok hs, rfl, rfl⟩
  unfold loadSection
  rw [h]

/-! ## The property -/

/-- **C145 (partial).** A scan that succeeds has read the binary with all of its symbols and each file, and has examined
exactly the object files that are in them. Missing: entries of libraries and sections of the binary that are damaged, see
`C145_entry` and `C145_debug_info`. -/
theorem C145_partial {L : Libs} {isStd : Str → Bool} {c : State} {n : Nat}
    {order : AMap Key (List Single) → List (Key × List Single)} {li : LinkInfo} {bin : Option BinFile}
    {disk : PathC → Option InFile} {paths : List PathC} {out : ScanOut}
    (h : scanObjects L isStd c n order li bin disk paths = .ok out) :
    (∀ p ∈ paths, ∃ f, disk p = some f ∧ (IsRlib p → ∀ e, some e ∈ f.entries → e.Fine) ∧
      (¬ IsRlib p → f.object.isSome = true)) ∧
    ∃ f b objs, bin = some f ∧ FromFile L isStd li f b ∧ (∀ o, o ∈ objs ↔ ∃ p ∈ paths, Holds disk p o) ∧
      scanBin c n order b objs = .ok out := by
  obtain ⟨f, hf, h⟩ := bind_ok h
  obtain ⟨b, hb, h⟩ := bind_ok h
  obtain ⟨objs, ho, h⟩ := bind_ok h
  have hf := ofOption_ok hf
  obtain ⟨o1, o2⟩ := allObjects_ok ho
  exact ⟨o1, f, b, objs, hf, fromFile hb, o2, h⟩

/-- What C122 assumes about binaries and object files is what is read from the disk. -/
theorem C145_parts (L : Libs) (isStd : Str → Bool) (n : Nat)
    (order : State → LinkInfo → AMap Key (List Single) → List (Key × List Single))
    (report : Config.Raw → Perm.CrateSel → Str → Option (List Problem)) (bins : LinkInfo → Option BinFile)
    (disk : PathC → Option InFile) (paths : LinkInfo → List PathC) :
    ∃ look : LinkInfo → Option (Bin × List Obj),
      (∀ li b objs, look li = some (b, objs) →
        (∃ f, bins li = some f ∧ FromFile L isStd li f b) ∧ ∀ o, o ∈ objs ↔ ∃ p ∈ paths li, Holds disk p o) ∧
      ∀ c li out, (Security.parts look n order report).scan c li = some out ↔
        scanObjects L isStd c n (order c li) li (bins li) disk (paths li) = .ok out := by
  refine ⟨fun li =>
    match (bins li).map (readBin L isStd li.outputFile li.crate), allObjects disk (paths li) with
    | some (.ok b), .ok objs => some (b, objs)
    | _, _ => none, ?_, ?_⟩
  · intro li b objs h
    dsimp only at h
    split at h
    · rename_i b' objs' hb ho
      cases h
      obtain ⟨f, hf, hb⟩ := Option.map_eq_some_iff.mp hb
      exact ⟨⟨f, hf, fromFile hb⟩, (allObjects_ok ho).2⟩
    · cases h
  · intro c li out
    unfold scanObjects Security.parts
    dsimp only
    cases hbin : bins li with
    | none =>
      constructor
      · intro h; simp at h
      · intro h; cases h
    | some f =>
      simp only [Option.map_some, Res.ofOption, Res.bind]
      cases hb : readBin L isStd li.outputFile li.crate f with
      | ok b =>
        have hcr : b.crate = li.crate := by
          obtain ⟨units, _, hb⟩ := bind_ok hb
          obtain ⟨st, _, hb⟩ := bind_ok hb
          obtain ⟨fr, _, hb⟩ := bind_ok hb
          obtain ⟨sy, _, hb⟩ := bind_ok hb
          cases hb
          rfl
        have hself : { b with crate := li.crate } = b := by rw [← hcr]
        cases ho : allObjects disk (paths li) with
        | ok objs =>
          simp only [hself]
          cases scanBin c n (order c li) b objs <;> simp
        | err => simp
        | panic => simp
        | stuck => simp
      | err => simp
      | panic => simp
      | stuck => simp

/-- **C145, disagreement.** Entries of a library that cannot be read make no difference. -/
theorem C145_entry (before after : List (Option Entry)) :
    entryObjects (before ++ none :: after) = entryObjects (before ++ after) := by
  induction before with
  | nil => rfl
  | cons e before ih =>
    cases e with
    | none => exact ih
    | some e =>
      rw [List.cons_append, List.cons_append, entryObjects, entryObjects, ih]

theorem objectRefs_no_debug {b : Bin} (hb : b.debug = []) {addresses : AMap Str Nat} {o : Obj} {l : List Ref}
    (h : objectRefs b addresses o = .ok l) : l = [] := by
  unfold objectRefs at h
  split at h
  · cases h
  · rename_i infos _
    refine loop_inv (I := fun l => l = []) _ _ _ ?_ rfl h
    rintro s a s' _ rfl hs
    obtain ⟨l', hl, hs⟩ := bind_ok hs
    cases hs
    unfold sectionRefs at hl
    split at hl
    · cases hl; rfl
    · rw [hb] at hl
      split at hl
      · rename_i hd
        cases hd
      · cases hl; rfl

/-- **C145, disagreement.** If the debug information of the binary cannot be decompressed, then nothing is found at all,
whatever the binary does: no use of an API and no exported API. -/
theorem C145_debug_info {L : Libs} (hL : ∀ s : Str → Bytes, s (str! ".debug_info") = [] → L.units s = .ok [])
    {isStd : Str → Bool} {c : State} {n : Nat} {order : AMap Key (List Single) → List (Key × List Single)}
    (horder : ∀ g, (order g).Perm g) {li : LinkInfo} {f : BinFile} {disk : PathC → Option InFile} {paths : List PathC}
    {out : ScanOut} (hf : f.sections.get? (str! ".debug_info") = some none)
    (h : scanObjects L isStd c n order li (some f) disk paths = .ok out) : out.usages = [] ∧ out.exports = [] := by
  obtain ⟨b, hb, h⟩ := bind_ok (show (readBin L isStd li.outputFile li.crate f).bind _ = _ from h)
  obtain ⟨objs, ho, h⟩ := bind_ok h
  have hempty : b.debug = [] ∧ b.inlined = [] := by
    obtain ⟨units, hu, hb⟩ := bind_ok hb
    obtain ⟨st, hst, hb⟩ := bind_ok hb
    obtain ⟨fr, _, hb⟩ := bind_ok hb
    obtain ⟨sy, _, hb⟩ := bind_ok hb
    rw [hL (loadSection f) (by unfold loadSection; rw [hf])] at hu
    cases hu
    cases hst
    cases hb
    exact ⟨rfl, rfl⟩
  unfold scanBin at h
  split at h
  · cases h
  · rename_i t _
    obtain ⟨refs, hr, h⟩ := bind_ok h
    obtain ⟨ex, he, h⟩ := bind_ok h
    obtain ⟨st, hc, h⟩ := bind_ok h
    cases h
    have hrefs : refs = [] := by
      obtain ⟨addresses, _, hr⟩ := bind_ok hr
      rw [hempty.2] at hr
      refine loop_inv (I := fun l => l = []) _ _ _ ?_ rfl hr
      rintro s a s' _ rfl hs
      obtain ⟨l', hl, hs⟩ := bind_ok hs
      cases hs
      rw [objectRefs_no_debug hempty.1 hl]
      rfl
    subst hrefs
    cases hc
    constructor
    · show (emitShortest (order [])).map Prod.snd = []
      rw [List.Perm.eq_nil (horder [])]
      rfl
    · rw [hempty.1] at he
      cases he
      rfl

/-- **C145, disagreement.** Arguments of the linker that cannot be resolved make no difference. -/
theorem C145_missing {d : Link.Disk} {root : PathC} {env : AMap Str Str} {info : Link.LinkInfo} {before after : List Str}
    {x : Str} (hx : Link.canonicalize d (pathOf x) = none) :
    Link.scanned d root env { info with objects := before ++ x :: after } =
      Link.scanned d root env { info with objects := before ++ after } := by
  unfold Link.scanned Link.objectPathsUnder
  dsimp only
  rw [List.filterMap_append, List.filterMap_append, List.filterMap_cons_none (a := x) (by exact hx)]

/-! ## Examples -/

namespace Ex

def obj : Obj := ⟨[], []⟩
def libs : Libs := ⟨fun _ => .ok [], fun _ => .ok fun _ => some (none, none)⟩
def bin : BinFile := ⟨some [], [(str! ".debug_info", some [1, 2])]⟩
def li : LinkInfo := { crate := ⟨⟨str! "a", str! "1.0.0", true⟩, .primary⟩, outputFile := str! "a" }
def lib : PathC := [['/'], str! "t", str! "libx.rlib"]
def good : Option Entry := some ⟨some (str! "x.o"), some (some obj)⟩
def disk (es : List (Option Entry)) (p : PathC) : Option InFile := if p = lib then some ⟨es, none⟩ else none
def state : State := { idx := { pkgs := [] } }

theorem lib_rlib : IsRlib lib := ⟨[['/'], str! "t"], str! "libx", rfl, by decide⟩

end Ex

/-- **C145, disagreement.** -/
theorem C145_refuted : ¬ C145_Claim := by
  intro h
  have h1 := h Ex.libs (fun _ => false) Ex.state 5 id Ex.li (some Ex.bin) (Ex.disk [Ex.good, none]) [Ex.lib] _ rfl
  obtain ⟨f, hf, g, _⟩ := h1.files Ex.lib (.head _)
  have hd : Ex.disk [Ex.good, none] Ex.lib = some ⟨[Ex.good, none], none⟩ := if_pos rfl
  rw [hd] at hf
  cases hf
  obtain ⟨e, he, _⟩ := g Ex.lib_rlib none (.tail _ (.head _))
  cases he

/-- The entry of a library is examined. -/
example : ∃ out, scanObjects Ex.libs (fun _ => false) Ex.state 5 id Ex.li (some Ex.bin) (Ex.disk [Ex.good]) [Ex.lib] = .ok out ∧
    Holds (Ex.disk [Ex.good]) Ex.lib Ex.obj :=
  ⟨_, rfl, .member (if_pos rfl) Ex.lib_rlib (.head _) rfl⟩

/-- Whatever is not an object file is an error, also if something else was fine. -/
example : scanObjects Ex.libs (fun _ => false) Ex.state 5 id Ex.li (some Ex.bin)
    (Ex.disk [Ex.good, some ⟨some (str! "x.txt"), some none⟩]) [Ex.lib] = .err := rfl

example : scanObjects Ex.libs (fun _ => false) Ex.state 5 id Ex.li (some Ex.bin) (Ex.disk [Ex.good])
    [Ex.lib, [['/'], str! "t", str! "y.o"]] = .err := rfl

/-- A binary whose debug information is damaged. -/
example : ∃ out, scanObjects Ex.libs (fun _ => false) Ex.state 5 id Ex.li (some ⟨some [], [(str! ".debug_info", none)]⟩)
    (Ex.disk [Ex.good]) [Ex.lib] = .ok out ∧ out.usages = [] ∧ out.exports = [] := by
  have h : scanObjects Ex.libs (fun _ => false) Ex.state 5 id Ex.li (some ⟨some [], [(str! ".debug_info", none)]⟩)
    (Ex.disk [Ex.good]) [Ex.lib] = .ok { usages := [], exports := [], apis := [] } := rfl
  exact ⟨_, h, C145_debug_info (fun _ _ => rfl) (fun g => List.Perm.refl g) rfl h⟩

end Cackle.Read
