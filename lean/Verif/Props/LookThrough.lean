import Verif.Props.EndToEnd
import Verif.Props.Demangle

/-!
# C140: uses of an API through the functions in `core::ops::function`

When a function is passed as a value, calls of it go through small functions such as
`core::ops::function::FnOnce::call_once`. They are compiled for each function that is called, and they are looked through: what
they refer to counts as used by the function that refers to them.
-/

namespace Cackle.Graph
open Cackle Checker Config
open Cackle.Names hiding State
open Cackle.Perm (PkgId Scope determine)
open Cackle.ApiMap (Api ApiDef Trie Classified C01_classification)

/-! ## Specification -/

/-- The path of the module. -/
def shimModule : List Str := [str! "core", str! "ops", str! "function"]

/-- A symbol with legacy mangling of something in `core::ops::function`. The further components can be anything, for example
`FnOnce::call_once{{vtable.shim}}` with a hash. -/
def Shim (s : Str) : Prop := ∃ rest, s = str! "_ZN4core3ops8function" ++ rest ++ str! "E"

/-- Following references to functions in `core::ops::function` to what these refer to. A symbol means the function in its own
object file if it is defined there, otherwise the one in another object file. -/
inductive Via (objs : List Obj) : Obj → Target → Obj → Target → Prop
  | refl {o : Obj} {t : Target} : Via objs o t o t
  | here {o o' : Obj} {i k : Nat} {e g : ObjSym} {relocs : List (Nat × Target)} {r : Nat × Target} {u : Target} :
      o.symbols.get? i = some e → Shim e.name → e.section_ = some k → FirstIn o.symbols k g → g.name = e.name →
      o.sections.get? k = some relocs → r ∈ relocs → Via objs o r.2 o' u → Via objs o (.symbol i) o' u
  | elsewhere {o o1 o' : Obj} {i k : Nat} {e g : ObjSym} {relocs : List (Nat × Target)} {r : Nat × Target} {u : Target} :
      o.symbols.get? i = some e → Shim e.name → e.section_ = none → o1 ∈ objs → FirstIn o1.symbols k g → g.name = e.name →
      o1.sections.get? k = some relocs → r ∈ relocs → Via objs o1 r.2 o' u → Via objs o (.symbol i) o' u

/-- A function refers to another one, at a place in the source, directly or through functions in `core::ops::function`. -/
inductive Refers (b : Bin) (objs : List Obj) : SymName → SymName → SourceLoc → Prop
  | intro {o o' : Obj} {k offset start : Nat} {relocs : List (Nat × Target)} {t u : Target} {first : ObjSym}
      {info : DebugInfo} {frame : Option Str × Option SourceLoc} {s : Str} :
      o ∈ objs → (k, relocs) ∈ o.sections → (offset, t) ∈ relocs → FirstIn o.symbols k first →
      AddressOf b first.name start → b.debug.get? first.name = some info →
      b.frame (start + offset - first.address) = some frame →
      Via objs o t o' u → StandsFor o' (linked b) u (.inl s) →
      Refers b objs (functionOf b (frame.1.getD first.name)) (functionOf b s) (frame.2.getD info.loc)

/-- In the source file of the package, a function that is not part of the API refers to one that is, by this name. A
name that begins with the package's own name does not count. -/
def UsesThrough (c : State) (b : Bin) (objs : List Obj) (pkg : PkgId) (a : Api) (loc : SourceLoc) (name : List Str) : Prop :=
  (∃ ids, pkgIdsFromPath c (pathOf loc.file) = some ids ∧ pkg ∈ ids) ∧
    ∃ origin target, Refers b objs origin target loc ∧ ¬ InApi (Config.defsOf c.cfg.apis) origin a ∧
      Called (Config.defsOf c.cfg.apis) target name ∧ Classified (Config.defsOf c.cfg.apis) name a ∧
      name.head? ≠ some pkg.name

/-- What users rely on: a use of an API through a function in `core::ops::function` is reported like any other. (The
packages that are not dependencies, for which C77 does not hold in general, are left out.) -/
def C140_Claim : Prop := ∀ (idx : Index) (c : State) (tr : List CEv) (b : Bin) (objs : List Obj) (ps : List Problem),
  Scanned idx c tr b objs ps → (∀ f ∈ b.inlined, Agrees b f.from_ ∧ Agrees b f.to) →
  ∀ (pkg : PkgId) (a : Api) (loc : SourceLoc) (name : List Str),
    UsesThrough c b objs pkg a loc name → (∀ m, OnTree idx pkg m) → Known idx pkg.name (determine pkg b.crate) →
    Refused tr b pkg a → ∃ q ∈ ps, Reports q pkg (determine pkg b.crate) a loc

/-! ## Which symbols are looked through -/

open Demangle

theorem next_component {i ds : Str} (hn : Numeral ds i.length) (hi : LegacyIdent i) (rest : Str) :
    ∃ pos, Iter.next (.legacy { outer := ds ++ i ++ rest }) = .tok (.text i pos) (.legacy { outer := rest }) := by
  have hb := ident_bytes hi.ident
  refine ⟨_, next_legacy (rest := rest) (hb ▸ hn) (by obtain ⟨c, r, rfl, _⟩ := hi.ident; simp) ?_ (by rw [hb]; exact hi.short)
    (fun hc => ident_chars hi.ident hc rfl)⟩
  obtain ⟨c, r, rfl, hc, _⟩ := hi.ident
  intro d hd
  simp only [List.head?_cons, Option.some.injEq] at hd
  subst hd
  exact ⟨letter_not_digit hc, fun e => hi.noUnderscore (by rw [e]; rfl)⟩

theorem starts_path {path : List Str} {s : Str} (h : Components path s) (hp : ∀ i ∈ path, LegacyIdent i) (rest last : Str)
    (hr : ∃ pos it, Iter.next (.legacy { outer := rest }) = .tok (.text last pos) it) :
    ∀ ps : List Str, last ∉ ps →
      startsWithTexts ps (.legacy { outer := s ++ rest }) = .ok (decide (ps <+: path)) := by
  induction h with
  | nil =>
    intro ps hl
    cases ps with
    | nil => rfl
    | cons p ps =>
      obtain ⟨pos, it, e⟩ := hr
      rw [startsWithTexts, List.nil_append, e]
      simp only []
      rw [if_neg (fun e => hl (by simp [e]))]
      simp
  | @cons i path ds s hn hc ih =>
    intro ps hl
    cases ps with
    | nil => simp [startsWithTexts]
    | cons p ps =>
      obtain ⟨pos, e⟩ := next_component hn (hp i (by simp)) (s ++ rest)
      rw [startsWithTexts, show ds ++ i ++ s ++ rest = ds ++ i ++ (s ++ rest) by simp, e]
      simp only []
      by_cases hip : i = p
      · subst hip
        rw [if_pos rfl, ih (fun j hj => hp j (by simp [hj])) ps (fun hm => hl (by simp [hm]))]
        simp [List.cons_prefix_cons]
      · rw [if_neg hip]
        simp [List.cons_prefix_cons, Ne.symm hip]

theorem new_legacy (s : Str) : Iter.new (str! "_ZN" ++ s ++ str! "E") = .legacy { outer := s } := by
  have e : str! "_ZN" ++ s ++ str! "E" = '_' :: 'Z' :: 'N' :: (s ++ ['E']) := by simp
  rw [e]
  unfold Iter.new
  simp only [stripText, if_true, Option.bind_some, stripLast]
  rw [if_neg (by cases s <;> simp), List.getLast?_concat, if_pos rfl, List.dropLast_concat]

/-- **C140 (recognised).** The functions in `core::ops::function` are looked through. -/
theorem C140_shim (s : Str) (h : Shim s) : isLookThrough s = .ok true := by
  obtain ⟨rest, rfl⟩ := h
  have e : str! "_ZN4core3ops8function" ++ rest ++ str! "E" = str! "_ZN" ++ (str! "4core3ops8function" ++ rest) ++ str! "E" := by
    simp
  rw [e]
  unfold isLookThrough
  rw [new_legacy]
  have h1 := next_legacy (ds := str! "4") (i := str! "core") (rest := str! "3ops8function" ++ rest)
    (Numeral.one (c := '4') (by unfold Digit; simp only [Char.le_def]; decide)) (by simp)
    (by intro c hc; cases hc; decide) (by decide) (by decide)
  have h2 := next_legacy (ds := str! "3") (i := str! "ops") (rest := str! "8function" ++ rest)
    (Numeral.one (c := '3') (by unfold Digit; simp only [Char.le_def]; decide)) (by simp)
    (by intro c hc; cases hc; decide) (by decide) (by decide)
  have h3 := next_legacy (ds := str! "8") (i := str! "function") (rest := rest)
    (Numeral.one (c := '8') (by unfold Digit; simp only [Char.le_def]; decide)) (by simp)
    (by intro c hc; cases hc; decide) (by decide) (by decide)
  rw [startsWithTexts, show str! "4core3ops8function" ++ rest = str! "4" ++ str! "core" ++ (str! "3ops8function" ++ rest) by simp, h1]
  simp only []
  rw [if_pos trivial, startsWithTexts, show str! "3ops8function" ++ rest = str! "3" ++ str! "ops" ++ (str! "8function" ++ rest) by simp, h2]
  simp only []
  rw [if_pos trivial, startsWithTexts, show str! "8function" ++ rest = str! "8" ++ str! "function" ++ rest by simp, h3]
  simp only []
  rw [if_pos trivial]
  rfl

/-- **C140 (exactly these).** Of the functions with plain paths only those in `core::ops::function` are looked through. -/
theorem C140_recognised (path : List Str) (s : Str) (hp : ∀ i ∈ path, LegacyIdent i) (hs : LegacySymbol path s) :
    isLookThrough s = .ok true ↔ shimModule <+: path := by
  obtain ⟨t, hash, hc, hl, hhex, rfl⟩ := hs
  have e : str! "_ZN" ++ t ++ str! "17h" ++ hash ++ str! "E" = str! "_ZN" ++ (t ++ (str! "17" ++ ('h' :: hash) ++ [])) ++ str! "E" := by
    simp
  rw [e]
  unfold isLookThrough
  rw [new_legacy]
  have hasc : Ascii ('h' :: hash) := by
    intro c hc
    simp only [List.mem_cons] at hc
    rcases hc with rfl | hc
    · decide
    · exact (hex_spec (hhex c hc)).2
  have hbytes : byteLen ('h' :: hash) = 17 := by rw [byteLen_ascii hasc]; simp [hl]
  have hdollar : '$' ∉ 'h' :: hash := by
    intro hm
    simp only [List.mem_cons] at hm
    rcases hm with hm | hm
    · exact absurd hm (by decide)
    · have := hhex _ hm
      unfold Hex Digit at this
      simp only [Char.le_def] at this
      exact absurd this (by decide)
  have h17 : Numeral (str! "17") 17 := by
    have h1 : Numeral ['1'] 1 := .one (by unfold Digit; simp only [Char.le_def]; decide)
    exact .more (c := '7') (s := ['1']) h1 (by unfold Digit; simp only [Char.le_def]; decide)
  have hnext := next_legacy (rest := []) (i := 'h' :: hash) (ds := str! "17") (by rw [hbytes]; exact h17) (by simp)
    (by intro c hc; simp only [List.head?_cons, Option.some.injEq] at hc; subst hc; exact ⟨rfl, by decide⟩)
    (by rw [hbytes]; decide) hdollar
  rw [starts_path hc hp _ _ ⟨_, _, hnext⟩ _ (by
    intro hm
    simp only [List.mem_cons, List.not_mem_nil, or_false] at hm
    rcases hm with hm | hm | hm <;> cases hm)]
  simp [shimModule]

/-! ## Uses are reported -/

/-- A symbol that is looked through is not in the table. -/
theorem shim_unlinked {b : Bin} {s : Str} (h : Shim s) : ¬ InBinary (linked b) s := by
  intro hm
  unfold InBinary AMap.keys linked at hm
  obtain ⟨x, hx, rfl⟩ := List.mem_map.mp hm
  have := (List.mem_filter.mp hx).2
  simp only [ne_eq, decide_not, Bool.not_eq_true', decide_eq_false_iff_not] at this
  exact this (C140_shim _ h)

/-- Each object file defines the functions in `core::ops::function` that it refers to. -/
def OwnShims (objs : List Obj) : Prop := ∀ o ∈ objs, ∀ i e, o.symbols.get? i = some e → Shim e.name → e.section_ ≠ none

theorem Via.reaches {b : Bin} {objs : List Obj} (hown : OwnShims objs) {o o' : Obj} {t u : Target} (h : Via objs o t o' u) :
    o ∈ objs → o' = o ∧ Reaches o (linked b) t u := by
  induction h with
  | refl => exact fun _ => ⟨rfl, .refl⟩
  | here h1 h2 h3 h4 h5 h6 h7 _ ih =>
    intro ho
    obtain ⟨rfl, hr⟩ := ih ho
    refine ⟨rfl, .through (.anonymous h1 (.inr (shim_unlinked h2)) h3 fun s hs => ?_) h6 h7 hr⟩
    rw [hs.unique h4, h5]
    exact shim_unlinked h2
  | elsewhere h1 h2 h3 => exact fun ho => absurd h3 (hown _ ho _ _ h1 h2)

/-- **C140 (reported).** A use of an API through functions in `core::ops::function` is reported, if each object file defines those
that it refers to.

What is missing: object files that share such a function, see `C140_other_object`. -/
theorem C140_reported_partial (idx : Index) (c : State) (tr : List CEv) (b : Bin) (objs : List Obj) (ps : List Problem)
    (hs : Scanned idx c tr b objs ps) (hin : ∀ f ∈ b.inlined, Agrees b f.from_ ∧ Agrees b f.to) (hown : OwnShims objs)
    (pkg : PkgId) (a : Api) (loc : SourceLoc) (name : List Str) (hu : UsesThrough c b objs pkg a loc name)
    (htree : ∀ m, OnTree idx pkg m) (hk : Known idx pkg.name (determine pkg b.crate)) (hr : Refused tr b pkg a) :
    ∃ q ∈ ps, Reports q pkg (determine pkg b.crate) a loc := by
  refine C77_reported_partial idx c tr b objs ps hs hin pkg a loc name ?_ (fun _ m _ _ => htree m) hk hr
  obtain ⟨hids, origin, target, hrefers, hrest⟩ := hu
  refine ⟨hids, origin, target, ?_, hrest⟩
  cases hrefers with
  | intro ho hk hr hfirst haddr hinfo hframe hvia hstands =>
    obtain ⟨rfl, hreach⟩ := hvia.reaches (b := b) hown ho
    exact .relocation ho hk hr hfirst haddr hinfo hframe hreach hstands

/-! ## A function in another object file -/

def shimSymbol : Str := str! "_ZN4core3ops8function6FnOnce9call_once17h0123456789abcdefE"

/-- The function `pf` of `p`, in section 1, refers to `FnOnce::call_once`, which is in section 2 of the same object file and
refers to `std::fs::read`. -/
def oneObj : Obj where
  symbols := [(0, ⟨str! "pf", some 1, true, 0⟩), (1, ⟨shimSymbol, some 2, true, 0⟩), (2, ⟨str! "sr", none, false, 0⟩)]
  sections := [(1, [(4, .symbol 1)]), (2, [(4, .symbol 2)])]

/-- The same with `FnOnce::call_once` in another object file. -/
def callerObj : Obj where
  symbols := [(0, ⟨str! "pf", some 1, true, 0⟩), (1, ⟨shimSymbol, none, false, 0⟩)]
  sections := [(1, [(4, .symbol 1)])]
def shimObj : Obj where
  symbols := [(0, ⟨shimSymbol, some 1, true, 0⟩), (1, ⟨str! "sr", none, false, 0⟩)]
  sections := [(1, [(4, .symbol 1)])]

def shimBin : Bin where
  path := str! "/bin"
  crate := ⟨pp, .primary⟩
  symbols := [(str! "pf", 100), (shimSymbol, 200), (str! "sr", 300)]
  debug := [(str! "pf", ⟨⟨str! "/p/a.rs", 1, none⟩, none⟩), (shimSymbol, ⟨⟨str! "/core/function.rs", 250, none⟩, none⟩),
    (str! "sr", ⟨⟨str! "/std/fs.rs", 1, none⟩, some ⟨[str! "std", str! "fs"], str! "read"⟩⟩)]
  inlined := []
  frame n := if n = 104 then some (some (str! "pf"), some wPlace) else some (none, none)

theorem shimSymbol_shim : Shim shimSymbol := ⟨str! "6FnOnce9call_once17h0123456789abcdef", rfl⟩

theorem addressOf_head {b : Bin} {s : Str} {n : Nat} {l : List (Str × Nat)} (h : linked b = (s, n) :: l)
    (hl : ∀ x ∈ l, x.1 ≠ s) : AddressOf b s n := ⟨[], l, h, hl⟩

theorem shimBin_linked : linked shimBin = [(str! "pf", 100), (str! "sr", 300)] := by decide +kernel

theorem shimBin_uses {objs : List Obj} (h : Refers shimBin objs (functionOf shimBin (str! "pf")) (functionOf shimBin (str! "sr")) wPlace)
    (deps : List Str) : UsesThrough (wState deps) shimBin objs pp (str! "fs") wPlace [str! "std", str! "fs", str! "read"] := by
  obtain ⟨t', ht', hfits⟩ := C01_classification (Config.defsOf (wState deps).cfg.apis)
    (by simp [Config.defsOf, wState, wCfg, updateConfig]) .empty
  have htrie : trieOf (wState deps).cfg.apis = some t' := ht'
  rw [wTrie] at htrie
  cases htrie
  obtain ⟨f1, _⟩ := allHits_spec hfits (n := 40) (x := functionOf shimBin (str! "pf")) (hits := []) (by decide +kernel)
  obtain ⟨_, f2⟩ := allHits_spec hfits (n := 40) (x := functionOf shimBin (str! "sr"))
    (hits := [⟨[str! "std", str! "fs", str! "read"], .debugName [str! "std", str! "fs"] (str! "read"), [str! "fs"]⟩])
    (by decide +kernel)
  obtain ⟨g1, g2⟩ := f2 _ (List.mem_singleton.mpr rfl)
  refine ⟨⟨[pp], rfl, by simp⟩, _, _, h, ?_, g1, (g2 _).mp (List.mem_singleton.mpr rfl), by decide⟩
  rintro ⟨m, hc, hcl⟩
  obtain ⟨q, hq, _⟩ := f1 m _ hc hcl
  cases hq

theorem two_refers : Refers shimBin [callerObj, shimObj] (functionOf shimBin (str! "pf")) (functionOf shimBin (str! "sr")) wPlace :=
  .intro (o := callerObj) (o' := shimObj) (k := 1) (offset := 4) (start := 100) (relocs := [(4, .symbol 1)]) (t := .symbol 1)
    (u := .symbol 1) (first := ⟨str! "pf", some 1, true, 0⟩) (info := ⟨⟨str! "/p/a.rs", 1, none⟩, none⟩)
    (frame := (some (str! "pf"), some wPlace)) (by simp) (by simp [callerObj]) (by simp)
    ⟨0, [], _, rfl, ⟨by simp, rfl, rfl⟩, by simp, fun x _ _ => Nat.zero_le _⟩
    (addressOf_head shimBin_linked (by simp)) rfl rfl
    (.elsewhere (e := ⟨shimSymbol, none, false, 0⟩) (g := ⟨shimSymbol, some 1, true, 0⟩) (k := 1) (o1 := shimObj) rfl
      shimSymbol_shim rfl (by simp) ⟨0, [], _, rfl, ⟨by decide, rfl, rfl⟩, by simp, fun x _ _ => Nat.zero_le _⟩ rfl rfl
      (r := (4, .symbol 1)) (by simp) .refl)
    (.named (e := ⟨str! "sr", none, false, 0⟩) rfl (by decide) (.inr rfl))

/-- A use of `std::fs::read` that goes through `FnOnce::call_once` in another object file is not reported. -/
theorem C140_other_object : ¬ C140_Claim := by
  intro h
  obtain ⟨q, hq, _⟩ := h (wIdx [str! "q"]) (wState [str! "q"]) [.loaded wCfg] shimBin [callerObj, shimObj] []
    (scanned (wRun _) (wApis _) (by decide +kernel)) (by intro f hf; cases hf) pp (str! "fs") wPlace _
    (shimBin_uses two_refers _) wTreeAll (wKnown _) (wRefused _)
  cases hq

/-! ## Non-vacuity -/

theorem one_refers : Refers shimBin [oneObj] (functionOf shimBin (str! "pf")) (functionOf shimBin (str! "sr")) wPlace :=
  .intro (o := oneObj) (o' := oneObj) (k := 1) (offset := 4) (start := 100) (relocs := [(4, .symbol 1)]) (t := .symbol 1)
    (u := .symbol 2) (first := ⟨str! "pf", some 1, true, 0⟩) (info := ⟨⟨str! "/p/a.rs", 1, none⟩, none⟩)
    (frame := (some (str! "pf"), some wPlace)) (by simp) (by simp [oneObj]) (by simp)
    ⟨0, [], _, rfl, ⟨by simp, rfl, rfl⟩, by simp, fun x _ _ => Nat.zero_le _⟩
    (addressOf_head shimBin_linked (by simp)) rfl rfl
    (.here (e := ⟨shimSymbol, some 2, true, 0⟩) (g := ⟨shimSymbol, some 2, true, 0⟩) (k := 2) rfl
      shimSymbol_shim rfl ⟨1, [(0, ⟨str! "pf", some 1, true, 0⟩)], _, rfl, ⟨by decide, rfl, rfl⟩, by
        intro x hx hd
        rw [List.mem_singleton.mp hx] at hd
        exact absurd hd.2.2 (by decide), fun x _ _ => Nat.zero_le _⟩ rfl rfl
      (r := (4, .symbol 2)) (by simp) .refl)
    (.named (e := ⟨str! "sr", none, false, 0⟩) rfl (by decide) (.inr rfl))

example : ∃ ps, Scanned (wIdx [str! "q"]) (wState [str! "q"]) [.loaded wCfg] shimBin [oneObj] ps ∧
    ∃ q ∈ ps, Reports q pp .all (str! "fs") wPlace := by
  have h : (report (wState [str! "q"]) shimBin [oneObj]).isSome = true := by decide +kernel
  obtain ⟨ps, hps⟩ := Option.isSome_iff_exists.mp h
  refine ⟨ps, scanned (wRun _) (wApis _) hps, ?_⟩
  refine C140_reported_partial _ _ _ shimBin [oneObj] ps (scanned (wRun _) (wApis _) hps) (by intro f hf; cases hf) ?_ pp _ wPlace _
    (shimBin_uses one_refers _) wTreeAll (wKnown _) (wRefused _)
  intro o ho i e he hsh hn
  rw [List.mem_singleton.mp ho] at he
  have hm := AMap.mem_of_get? he
  simp only [oneObj, List.mem_cons, List.not_mem_nil, or_false, Prod.mk.injEq] at hm
  rcases hm with ⟨_, rfl⟩ | ⟨_, rfl⟩ | ⟨_, rfl⟩
  · cases hn
  · cases hn
  · obtain ⟨r, hr⟩ := hsh
    cases hr

example : shimModule <+: [str! "core", str! "ops", str! "function", str! "FnOnce", str! "call_once"] := by decide
example : isLookThrough shimSymbol = .ok true := by decide +kernel
example : isLookThrough (str! "_ZN4core3ops5range17h0123456789abcdefE") = .ok false := by decide +kernel
example : isLookThrough (str! "_ZN4core3ops8function6FnOnce40call_once$u7b$$u7b$vtable.shim$u7d$$u7d$17h0123456789abcdefE") = .ok true :=
  C140_shim _ ⟨str! "6FnOnce40call_once$u7b$$u7b$vtable.shim$u7d$$u7d$17h0123456789abcdef", rfl⟩

end Cackle.Graph
