import Verif.Props.FixTitles
import Verif.Lemmas.Json

/-!
# C129: the title determines what the edit does

Besides what `Props/FixTitles.lean` has for permissions to use APIs: two edits, for whatever problems they are offered, that have the
same title change every config file in the same way.
-/

namespace Cackle.Fixes
open Cackle Config Perm Toml
open Cackle.ApiMap (Api)
open Cackle.Report (selText pkgText quote selector)

/-- The name of a package. Cargo permits only letters, digits, `-` and `_`. -/
def PkgName (s : Str) : Prop := ∀ c ∈ s, c ≠ '`' ∧ c ≠ '.' ∧ c ≠ '['

/-- A text in which there is no backquote. -/
def NoQuote (s : Str) : Prop := '`' ∉ s

/-- The edit is about packages with proper names, the names of APIs, versions and paths contain no backquote, and what a package
exports is given by its name and version. The two edits that remove what is unused say what they remove in the problem and not in the title. -/
def Fix.Proper (exports : Str → Api → ApiCfg) : Fix → Prop
  | .importStd api | .inlineStd api | .ignoreStd api => NoQuote api
  | .importApi pkg api | .ignoreApi pkg api | .noDetectApi pkg api => PkgName pkg.name ∧ NoQuote pkg.version ∧ NoQuote api
  | .allowApi pkg _ api => PkgName pkg.name ∧ NoQuote pkg.version ∧ NoQuote api
  | .inlineApi pkg api cfg => PkgName pkg.name ∧ NoQuote pkg.version ∧ NoQuote api ∧ cfg = exports (pkgText pkg) api
  | .extendApi api path | .excludeFromApi api path => NoQuote api ∧ NoQuote path
  | .allowProcMacro sel | .allowBuildInstruction sel _ | .disableSandbox sel | .allowNetwork sel | .allowUnsafe sel
  | .allowExtern sel => PkgName sel.pkg
  | .removeUnusedAllowApis _ _ | .removeUnusedPkgConfig _ => False
  | _ => True

/-- A text up to a character that it does not contain. -/
theorem split_at {c : Char} : ∀ {a b r r' : Str}, c ∉ a → c ∉ b → a ++ c :: r = b ++ c :: r' → a = b ∧ r = r'
  | [], [], _, _, _, _, h => ⟨rfl, by simpa using h⟩
  | [], x :: b, _, _, _, hb, h => by
    simp only [List.nil_append, List.cons_append, List.cons.injEq] at h
    exact absurd (by simp [h.1]) hb
  | x :: a, [], _, _, ha, _, h => by
    simp only [List.nil_append, List.cons_append, List.cons.injEq] at h
    exact absurd (by simp [← h.1]) ha
  | x :: a, y :: b, r, r', ha, hb, h => by
    simp only [List.cons_append, List.cons.injEq] at h
    obtain ⟨h1, h2⟩ := split_at (fun hm => ha (by simp [hm])) (fun hm => hb (by simp [hm])) h.2
    exact ⟨by rw [h.1, h1], h2⟩

theorem pkgText_eq (p : PkgId) : pkgText p = p.name ++ (if p.nameIsUnique then [] else '[' :: p.version ++ str! "]") := by
  simp [pkgText, Report.crateText, Report.kindText]

theorem pkgText_noQuote {p : PkgId} (h : PkgName p.name) (hv : NoQuote p.version) : '`' ∉ pkgText p := by
  rw [pkgText_eq]
  intro hm
  rcases List.mem_append.mp hm with hm | hm
  · exact (h _ hm).1 rfl
  · split at hm
    · cases hm
    · simp at hm
      exact hv hm

theorem name_of_pkgText {p q : PkgId} (hp : PkgName p.name) (hq : PkgName q.name) (h : pkgText p = pkgText q) : p.name = q.name := by
  rw [pkgText_eq, pkgText_eq] at h
  have hp' : '[' ∉ p.name := fun hm => (hp _ hm).2.2 rfl
  have hq' : '[' ∉ q.name := fun hm => (hq _ hm).2.2 rfl
  split at h <;> split at h
  · simpa using h
  · simp only [List.append_nil] at h
    exact absurd (by rw [h]; simp) hp'
  · simp only [List.append_nil] at h
    exact absurd (by rw [← h]; simp) hq'
  · exact (split_at hp' hq' h).1

theorem selText_noQuote {s : PermSel} (h : PkgName s.pkg) : '`' ∉ selText s := by
  obtain ⟨pkg, scope⟩ := s
  have hp : '`' ∉ pkg := fun hm => (h _ hm).1 rfl
  cases scope <;> simp [selText, selector, hp]

theorem selText_inj {s t : PermSel} (hs : PkgName s.pkg) (ht : PkgName t.pkg) (h : selText s = selText t) : s = t := by
  obtain ⟨pkg, scope⟩ := s
  obtain ⟨pkg', scope'⟩ := t
  have hp : '.' ∉ pkg := fun hm => (hs _ hm).2.1 rfl
  have hq : '.' ∉ pkg' := fun hm => (ht _ hm).2.1 rfl
  unfold selText at h
  dsimp only at h
  cases h1 : selector scope <;> cases h2 : selector scope' <;> rw [h1, h2] at h <;> dsimp only at h
  · cases scope <;> cases h1
    cases scope' <;> cases h2
    rw [h]
  · exact absurd (by rw [h]; simp) hp
  · exact absurd (by rw [← h]; simp) hq
  · obtain ⟨h3, h4⟩ := split_at hp hq h
    subst h3
    subst h4
    cases scope <;> cases scope' <;> first
      | rfl
      | (exfalso; rw [← h2] at h1; revert h1; decide)

theorem quote_split {a b r r' : Str} (ha : '`' ∉ a) (hb : '`' ∉ b) (h : quote a ++ r = quote b ++ r') : a = b ∧ r = r' := by
  simp only [quote, List.cons_append, List.append_assoc, List.cons.injEq, true_and, List.nil_append] at h
  exact split_at ha hb h

theorem decimal_split {n m : Nat} {r r' : Str} (hr : ∀ c s, r = c :: s → Json.isDigit c = false)
    (hr' : ∀ c s, r' = c :: s → Json.isDigit c = false) (h : Wire.decimal n ++ r = Wire.decimal m ++ r') : n = m ∧ r = r' := by
  obtain ⟨k, hk⟩ := Json.readDigits_decimal n 0 r
  obtain ⟨k', hk'⟩ := Json.readDigits_decimal m 0 r'
  rw [h, hk', Json.readDigits_stop _ _ hr, Json.readDigits_stop _ _ hr'] at hk
  simp only [Nat.zero_mul, Nat.zero_add, Prod.mk.injEq] at hk
  exact ⟨hk.1.symm, hk.2.symm⟩

/-- The end of the title of an edit about unsafe or extern code. -/
theorem title_unsafe (sel : PermSel) : (Fix.allowUnsafe sel).title = str! "Allow package " ++ (quote (selText sel) ++ str! " to use unsafe code") := by
  simp [Fix.title]

theorem title_extern (sel : PermSel) : (Fix.allowExtern sel).title = str! "Allow package " ++ (quote (selText sel) ++ str! " to use extern code") := by
  simp [Fix.title]

/-- The beginning of a title, as far as it tells the kinds of edits apart. -/
def beginning (t : Str) : Str := if t[6]? = some '`' then str! "Allow `" else t.take 8

/-- The beginnings. -/
def Fix.beginning : Fix → Str
  | .createCustom => str! "Create c"
  | .createRecommended => str! "Create r"
  | .selectSandbox .disabled => str! "Disabled"
  | .selectSandbox .bubblewrap => str! "Bubblewr"
  | .importStd _ => str! "Import s"
  | .inlineStd _ => str! "Inline s"
  | .ignoreStd _ => str! "Ignore s"
  | .importApi _ _ => str! "Import A"
  | .inlineApi _ _ _ => str! "Inline A"
  | .ignoreApi _ _ => str! "Ignore A"
  | .extendApi _ _ => str! "Include "
  | .excludeFromApi _ _ => str! "Exclude "
  | .noDetectApi _ _ => str! "Don't de"
  | .allowApi _ _ _ => str! "Allow `"
  | .removeUnusedAllowApis _ _ => str! "Remove u"
  | .removeUnusedPkgConfig _ => str! "Remove u"
  | .updateVersion _ => str! "Update c"
  | .updatePreserving _ => str! "Update c"
  | .allowProcMacro _ => str! "Allow pr"
  | .allowBuildInstruction _ _ => str! "Allow bu"
  | .disableSandbox _ => str! "Disable "
  | .allowNetwork _ => str! "Permit n"
  | .allowUnsafe _ => str! "Allow pa"
  | .allowExtern _ => str! "Allow pa"

theorem beginning_title (f : Fix) : Fixes.beginning f.title = f.beginning := by
  cases f <;> first | rfl | (rename_i k; cases k <;> rfl)

theorem unsafe_ne_extern {s t : PermSel} (hs : PkgName s.pkg) (ht : PkgName t.pkg) :
    (Fix.allowUnsafe s).title ≠ (Fix.allowExtern t).title := by
  intro h
  rw [title_unsafe, title_extern] at h
  have h1 := (quote_split (selText_noQuote hs) (selText_noQuote ht) (List.append_cancel_left h)).2
  revert h1
  decide

theorem update_ne_preserving (n m : Nat) : (Fix.updateVersion n).title ≠ (Fix.updatePreserving m).title := by
  intro h
  simp only [Fix.title, List.append_assoc] at h
  have h0 := List.append_cancel_left h
  have h1 := (decimal_split (r := []) (r' := str! " while preserving old behaviour") (by intro c s h; cases h)
    (by intro c s h; cases h; decide) (by rw [List.append_nil]; exact h0)).2
  revert h1
  decide

/-- Edits of different kinds have different titles. -/
theorem title_kind (exports : Str → Api → ApiCfg) (f g : Fix) (hf : f.Proper exports) (hg : g.Proper exports)
    (ht : f.title = g.title) : f.ctorIdx = g.ctorIdx := by
  have hb : f.beginning = g.beginning := by rw [← beginning_title, ← beginning_title, ht]
  by_cases h : f.ctorIdx = g.ctorIdx
  · exact h
  · exfalso
    cases f <;> cases g <;> first
      | exact h rfl
      | exact hf
      | exact hg
      | exact unsafe_ne_extern hf hg ht
      | exact unsafe_ne_extern hg hf ht.symm
      | exact update_ne_preserving _ _ ht
      | exact update_ne_preserving _ _ ht.symm
      | (clear h hf hg ht; simp only [Fix.beginning] at hb; exact absurd hb (by decide))
      | (clear h hf hg ht; rename_i k; cases k <;> simp only [Fix.beginning] at hb <;> exact absurd hb (by decide))
      | (clear h hf hg ht; rename_i k _; cases k <;> simp only [Fix.beginning] at hb <;> exact absurd hb (by decide))
      | (clear h hf hg ht; rename_i k _ _; cases k <;> simp only [Fix.beginning] at hb <;> exact absurd hb (by decide))
      | (clear h hf hg ht; rename_i k _ _ _; cases k <;> simp only [Fix.beginning] at hb <;> exact absurd hb (by decide))

/-- **C129, the title determines the effect.** Two edits with the same title, of whatever problems, change every config file in
the same way. -/
theorem C129_title_effect (exports : Str → Api → ApiCfg) (f g : Fix) (hf : f.Proper exports) (hg : g.Proper exports)
    (ht : f.title = g.title) (bwrap : Bool) (doc : Entries) : f.apply bwrap doc = g.apply bwrap doc := by
  have hk := title_kind exports f g hf hg ht
  cases f with
  | createCustom =>
    cases g <;> try (exfalso; simp [Fix.ctorIdx] at hk; done)
    rfl
  | createRecommended =>
    cases g <;> try (exfalso; simp [Fix.ctorIdx] at hk; done)
    rfl
  | selectSandbox k =>
    cases g <;> try (exfalso; simp [Fix.ctorIdx] at hk; done)
    rename_i k'
    cases k <;> cases k' <;> first
      | rfl
      | exact absurd ht (by decide)
  | importStd api =>
    cases g <;> try (exfalso; simp [Fix.ctorIdx] at hk; done)
    rename_i api'
    simp only [Fix.title] at ht
    obtain ⟨rfl, -⟩ := quote_split (r := []) (r' := []) hf hg (by simpa only [List.append_nil] using List.append_cancel_left ht)
    rfl
  | inlineStd api =>
    cases g <;> try (exfalso; simp [Fix.ctorIdx] at hk; done)
    rename_i api'
    simp only [Fix.title] at ht
    obtain ⟨rfl, -⟩ := quote_split (r := []) (r' := []) hf hg (by simpa only [List.append_nil] using List.append_cancel_left ht)
    rfl
  | ignoreStd api =>
    cases g <;> try (exfalso; simp [Fix.ctorIdx] at hk; done)
    rename_i api'
    simp only [Fix.title] at ht
    obtain ⟨rfl, -⟩ := quote_split (r := []) (r' := []) hf hg (by simpa only [List.append_nil] using List.append_cancel_left ht)
    rfl
  | importApi pkg api =>
    cases g <;> try (exfalso; simp [Fix.ctorIdx] at hk; done)
    rename_i pkg' api'
    simp only [Fix.title, List.append_assoc] at ht
    obtain ⟨rfl, h2⟩ := quote_split hf.2.2 hg.2.2 (List.append_cancel_left ht)
    obtain ⟨h3, -⟩ := quote_split (r := []) (r' := []) (fun hm => (hf.1 _ hm).1 rfl) (fun hm => (hg.1 _ hm).1 rfl)
      (by simpa only [List.append_nil] using List.append_cancel_left h2)
    simp only [Fix.apply, Fix.edit, h3]
  | inlineApi pkg api cfg =>
    cases g <;> try (exfalso; simp [Fix.ctorIdx] at hk; done)
    rename_i pkg' api' cfg'
    simp only [Fix.title, List.append_assoc] at ht
    obtain ⟨rfl, h2⟩ := quote_split hf.2.2.1 hg.2.2.1 (List.append_cancel_left ht)
    obtain ⟨h3, -⟩ := quote_split (r := []) (r' := []) (pkgText_noQuote hf.1 hf.2.1) (pkgText_noQuote hg.1 hg.2.1)
      (by simpa only [List.append_nil] using List.append_cancel_left h2)
    simp only [Fix.apply, Fix.edit, name_of_pkgText hf.1 hg.1 h3, hf.2.2.2, hg.2.2.2, h3]
  | ignoreApi pkg api =>
    cases g <;> try (exfalso; simp [Fix.ctorIdx] at hk; done)
    rename_i pkg' api'
    simp only [Fix.title, List.append_assoc] at ht
    obtain ⟨rfl, h2⟩ := quote_split hf.2.2 hg.2.2 (List.append_cancel_left ht)
    obtain ⟨h3, -⟩ := quote_split (r := []) (r' := []) (pkgText_noQuote hf.1 hf.2.1) (pkgText_noQuote hg.1 hg.2.1)
      (by simpa only [List.append_nil] using List.append_cancel_left h2)
    simp only [Fix.apply, Fix.edit, name_of_pkgText hf.1 hg.1 h3]
  | extendApi api path =>
    cases g <;> try (exfalso; simp [Fix.ctorIdx] at hk; done)
    rename_i api' path'
    simp only [Fix.title, List.append_assoc] at ht
    obtain ⟨rfl, h2⟩ := quote_split hf.2 hg.2 (List.append_cancel_left ht)
    obtain ⟨rfl, -⟩ := quote_split (r := []) (r' := []) hf.1 hg.1
      (by simpa only [List.append_nil] using List.append_cancel_left h2)
    rfl
  | excludeFromApi api path =>
    cases g <;> try (exfalso; simp [Fix.ctorIdx] at hk; done)
    rename_i api' path'
    simp only [Fix.title, List.append_assoc] at ht
    obtain ⟨rfl, h2⟩ := quote_split hf.2 hg.2 (List.append_cancel_left ht)
    obtain ⟨rfl, -⟩ := quote_split (r := []) (r' := []) hf.1 hg.1
      (by simpa only [List.append_nil] using List.append_cancel_left h2)
    rfl
  | noDetectApi pkg api =>
    cases g <;> try (exfalso; simp [Fix.ctorIdx] at hk; done)
    rename_i pkg' api'
    simp only [Fix.title, List.append_assoc] at ht
    obtain ⟨rfl, h2⟩ := quote_split hf.2.2 hg.2.2 (List.append_cancel_left ht)
    obtain ⟨h3, -⟩ := quote_split (r := []) (r' := []) (fun hm => (hf.1 _ hm).1 rfl) (fun hm => (hg.1 _ hm).1 rfl)
      (by simpa only [List.append_nil] using List.append_cancel_left h2)
    simp only [Fix.apply, Fix.edit, h3]
  | allowApi pkg scope api =>
    cases g <;> try (exfalso; simp [Fix.ctorIdx] at hk; done)
    rename_i pkg' scope' api'
    simp only [Fix.title, List.append_assoc] at ht
    obtain ⟨h1, h2⟩ := quote_split (pkgText_noQuote hf.1 hf.2.1) (pkgText_noQuote hg.1 hg.2.1) (List.append_cancel_left ht)
    obtain ⟨rfl, h3⟩ := quote_split hf.2.2 hg.2.2 (List.append_cancel_left h2)
    have h4 := List.append_cancel_left h3
    have h5 : scope = scope' := by
      clear ht hk hf hg h1 h2 h3
      revert h4
      cases scope <;> cases scope' <;> decide
    simp only [Fix.apply, Fix.edit, name_of_pkgText hf.1 hg.1 h1, h5]
  | removeUnusedAllowApis sel apis => exact hf.elim
  | removeUnusedPkgConfig sel => exact hf.elim
  | updateVersion n =>
    cases g <;> try (exfalso; simp [Fix.ctorIdx] at hk; done)
    rename_i m
    have h0 := List.append_cancel_left ht
    obtain ⟨rfl, -⟩ := decimal_split (n := n) (m := m) (r := []) (r' := []) (by intro c s h; cases h) (by intro c s h; cases h)
      (by rw [List.append_nil, List.append_nil]; exact h0)
    rfl
  | updatePreserving n =>
    cases g <;> try (exfalso; simp [Fix.ctorIdx] at hk; done)
    rename_i m
    simp only [Fix.title, List.append_assoc] at ht
    have h0 := List.append_cancel_left ht
    obtain ⟨rfl, -⟩ := decimal_split (r := str! " while preserving old behaviour") (r' := str! " while preserving old behaviour")
      (by intro c s h; cases h; decide) (by intro c s h; cases h; decide) h0
    rfl
  | allowProcMacro sel =>
    cases g <;> try (exfalso; simp [Fix.ctorIdx] at hk; done)
    rename_i sel'
    obtain ⟨h1, -⟩ := quote_split (r := []) (r' := []) (selText_noQuote hf) (selText_noQuote hg)
      (by rw [List.append_nil, List.append_nil]; exact List.append_cancel_left ht)
    rw [selText_inj hf hg h1]
  | disableSandbox sel =>
    cases g <;> try (exfalso; simp [Fix.ctorIdx] at hk; done)
    rename_i sel'
    obtain ⟨h1, -⟩ := quote_split (r := []) (r' := []) (selText_noQuote hf) (selText_noQuote hg)
      (by rw [List.append_nil, List.append_nil]; exact List.append_cancel_left ht)
    rw [selText_inj hf hg h1]
  | allowNetwork sel =>
    cases g <;> try (exfalso; simp [Fix.ctorIdx] at hk; done)
    rename_i sel'
    obtain ⟨h1, -⟩ := quote_split (r := []) (r' := []) (selText_noQuote hf) (selText_noQuote hg)
      (by rw [List.append_nil, List.append_nil]; exact List.append_cancel_left ht)
    rw [selText_inj hf hg h1]
  | allowBuildInstruction sel pattern =>
    cases g <;> try (exfalso; simp [Fix.ctorIdx] at hk; done)
    rename_i sel' pattern'
    simp only [Fix.title, List.append_assoc] at ht
    obtain ⟨h1, h2⟩ := quote_split (selText_noQuote hf) (selText_noQuote hg) (List.append_cancel_left ht)
    have h3 := List.append_cancel_left h2
    simp only [quote, List.cons_append, List.cons.injEq, true_and] at h3
    rw [selText_inj hf hg h1, List.append_cancel_right h3]
  | allowUnsafe sel =>
    cases g <;> try (exfalso; simp [Fix.ctorIdx] at hk; done)
    rename_i sel'
    simp only [Fix.title, List.append_assoc] at ht
    obtain ⟨h1, -⟩ := quote_split (selText_noQuote hf) (selText_noQuote hg) (List.append_cancel_left ht)
    rw [selText_inj hf hg h1]
  | allowExtern sel =>
    cases g <;> try (exfalso; simp [Fix.ctorIdx] at hk; done)
    rename_i sel'
    simp only [Fix.title, List.append_assoc] at ht
    obtain ⟨h1, -⟩ := quote_split (selText_noQuote hf) (selText_noQuote hg) (List.append_cancel_left ht)
    rw [selText_inj hf hg h1]

/-- Non-vacuity. -/
def someInline : Fix := .inlineApi ⟨str! "foo", str! "1.0.0", false⟩ (str! "fs") {}

example : (Fix.allowUnsafe ⟨str! "foo", .test⟩).Proper (fun _ _ => {}) ∧ someInline.Proper (fun _ _ => {}) := by
  have h : PkgName (str! "foo") := by unfold PkgName; decide
  refine ⟨h, h, ?_, ?_, rfl⟩ <;> (unfold NoQuote; decide)

/-- The same title for different problems: the same effect, although two versions of the package are concerned. -/
example : (Fix.importApi ⟨str! "foo", str! "1.0.0", false⟩ (str! "fs")).title = (Fix.importApi ⟨str! "foo", str! "2.0.0", false⟩ (str! "fs")).title :=
  rfl

/-- The edits that remove what is unused are an exception: their title does not say what they remove. -/
theorem C129_remove_title : ∃ (f g : Fix) (doc : Entries), f.title = g.title ∧ f.apply true doc ≠ g.apply true doc := by
  refine ⟨.removeUnusedPkgConfig ⟨str! "a", .all⟩, .removeUnusedPkgConfig ⟨str! "b", .all⟩,
    [(str! "pkg", .table [(str! "a", .table []), (str! "b", .table [])])], rfl, ?_⟩
  intro h
  have h1 := congrArg (fun d => d.bind (fun d => match d with
    | [(_, .table l)] => l.head?.map Prod.fst
    | _ => none)) h
  revert h1
  decide +kernel

end Cackle.Fixes
