import Verif.Props.Server
import Verif.Props.Rustc
import Verif.Props.Link

/-!
# C178: which products of a build are analysed

Specification of rustc: what a run of rustc makes is given by `--crate-type` and `--test`; executables, dynamic libraries and
procedural macros are made by starting the linker, static libraries and libraries for other crates are written by rustc itself.
-/

namespace Cackle.Products
open Cackle Perm Checker Rustc Link Server BuildScript Identity

/-! ## Specification of rustc -/

/-- The crate types that one option asks for: `--crate-type a,b` or `--crate-type=a,b`. -/
def askedBy : Item → List Str
  | .valued a v => if a = str! "--crate-type" then splitChar ',' v else []
  | .plain a =>
    match stripPrefix (str! "--crate-type=") a with
    | some v => splitChar ',' v
    | none => []
  | .codegen _ => []

/-- What a run of rustc makes: with `--test` an executable, otherwise what is asked for, by default an executable. -/
def made (items : List Item) : List Str :=
  if Item.plain (str! "--test") ∈ items ∨ items.flatMap askedBy = [] then [str! "bin"] else items.flatMap askedBy

/-- The products that are made by starting a linker. -/
def linkedTypes : List Str := [str! "bin", str! "dylib", str! "cdylib", str! "proc-macro"]

/-- The products with code that is used without cargo linking it again: those, and static libraries. -/
def finalTypes : List Str := str! "staticlib" :: linkedTypes

/-- The program that rustc starts to make a product of this type, if it starts one. -/
def starts (items : List Item) (t : Str) : Option Str :=
  if t ∈ made items ∧ t ∈ linkedTypes then some ((effective (str! "linker=") items).getD (str! "cc")) else none

/-! ## Builds -/

/-- A run of rustc that cargo asks for: the arguments and what the user's configuration permits, the environment of the programs that
rustc starts, the arguments with which it starts the linker for each type of product, the file it makes, and the files there are
after linking. -/
structure Run where
  args : List Str
  unsafeOk : Bool
  externOk : Bool
  env : AMap Str Str
  linkArgs : Str → List Str
  file : Str → Str
  files : Str → Option Str

/-- The command line with which the wrapper runs rustc. -/
def Run.items (takesArg : Str → Bool) (exe : Str) (r : Run) : List Item :=
  parseArgs takesArg (getCommand exe r.args r.unsafeOk r.externOk).1

/-- What cackle is told about the product `t` of the run: something if rustc starts cackle to make it and cackle takes itself for a
linker. The real linker succeeds. -/
def Run.told (takesArg : Str → Bool) (exe : Str) (r : Run) (t : Str) : Option Checker.LinkInfo :=
  if starts (r.items takesArg exe) t = some exe then
    match role r.env (r.linkArgs t) with
    | .linker info =>
      (proxyLinker exe info (some 0) r.files true true).request.map (fun l => ⟨l.crate, l.output, l.objects⟩)
    | _ => none
  else none

/-- What is usual for a run of rustc for `crate` during a build: the options are written as cargo writes them; the environment is that of the build and names the
crate; rustc starts the linker with an option first, and with `-o` and the file to make, which is there afterwards. -/
structure Usual (takesArg : Str → Bool) (crate : CrateSel) (r : Run) : Prop where
  args : ∃ items, (∀ i ∈ items, Clear takesArg i) ∧ r.args = render items
  socket : (AMap.get? r.env (str! "CACKLE_SOCKET_PATH")).getD [] ≠ []
  crate : crateFromEnv r.env = some crate
  link : ∀ t, ∃ name pre post rest, r.linkArgs t = ('-' :: name) :: rest ∧ '/' ∉ name ∧
    r.linkArgs t = pre ++ str! "-o" :: r.file t :: post ∧ str! "-o" ∉ pre
  file : ∀ t, (r.files (r.file t)).isSome

/-- This product has been analysed, and the last analysis found nothing: either the file that rustc asked for, or the file that it has
been moved to so that a wrapper can take its place. -/
def Analysed (P : Parts) (idx : Index) (log : List Analysis) (crate : CrateSel) (file : Str) : Prop :=
  ∃ li : Checker.LinkInfo, li.crate = crate ∧ (li.outputFile = file ∨ li.outputFile = origBinPath file) ∧ AnalysedOk P idx log li

/-- A full run of cackle that ends with success. Each run of rustc has told cackle about its products, on a connection; cackle is told
about linking by nobody else; no problems were found in crates that were linked twice. -/
structure Success (takesArg : Str → Bool) (exe : Str) (P : Parts) (idx : Index) (runs : List (CrateSel × Run))
    (links : List Checker.LinkInfo) (log : List Analysis) : Prop where
  ex : ∃ (sys : Sys) (n : Nat) (s : Server.State) (p : Main.Phases) (store : Store.State) (str : List Store.Ev)
      (tr0 tr : List CEv),
    SysRun P idx sys [] [] tr0 ∧ (∀ h ∈ sys.handlers, h.req = .initial ∧ h.status = .finished .continue_) ∧ Exec P { sys := sys } n s ∧ Main.Fits p store str ∧
    p.build = decide (s.pc = .returned .ok) ∧ p.unused = checkUnused s.sys.checker ∧
    (∀ c ∈ s.conns, c.required = true) ∧ Main.success true p = true ∧ SysRun P idx s.sys links log tr ∧
    (∀ r ∈ runs, ∀ t li, r.2.told takesArg exe t = some li →
      ∃ c ∈ s.conns, c.message = some (.request (.linkerInvoked li))) ∧
    (∀ c ∈ s.conns, ∀ li, c.message = some (.request (.linkerInvoked li)) →
      ∃ r ∈ runs, ∃ t, r.2.told takesArg exe t = some li)
  distinct : Unmixed links log

/-- The English claim C178: after a successful run, everything that the build has made for use as it is has been analysed. -/
def C178_Claim : Prop :=
  ∀ (takesArg : Str → Bool) (exe : Str) (P : Parts) (idx : Index) (runs : List (CrateSel × Run)) (links : List Checker.LinkInfo)
    (log : List Analysis), Plausible takesArg → (∀ r ∈ runs, Usual takesArg r.1 r.2) → Success takesArg exe P idx runs links log →
    ∀ r ∈ runs, ∀ t ∈ made (parseArgs takesArg r.2.args), t ∈ finalTypes → Analysed P idx log r.1 (r.2.file t)

/-! ## Lemmas -/

theorem made_append (a b : List Item) (h1 : Item.plain (str! "--test") ∉ b) (h2 : b.flatMap askedBy = []) : made (a ++ b) = made a := by
  unfold made
  simp [h1, h2]

theorem made_filter (l : List Item) : made (l.filter (fun i => !dropped i)) = made l := by
  have h1 : Item.plain (str! "--test") ∈ l.filter (fun i => !dropped i) ↔ Item.plain (str! "--test") ∈ l := by
    rw [List.mem_filter]
    exact ⟨fun h => h.1, fun h => ⟨h, by decide⟩⟩
  have h2 : ∀ l : List Item, (l.filter (fun i => !dropped i)).flatMap askedBy = l.flatMap askedBy := by
    intro l
    induction l with
    | nil => rfl
    | cons i l ih =>
      rw [List.filter_cons]
      split
      · simp [ih]
      · rename_i hd
        have : askedBy i = [] := by
          cases i with
          | codegen v => rfl
          | valued a v => simp [dropped] at hd
          | plain a =>
            simp only [dropped, Bool.not_eq_true', Bool.not_eq_false] at hd
            obtain ⟨v, rfl⟩ := startsWith_iff.mp hd
            rfl
        simp [ih, this]
  unfold made
  rw [h2]
  simp only [h1]

/-- Items that are written out are read again, whatever follows. -/
theorem parse_render_append {takesArg : Str → Bool} (tail : List Str) : ∀ {l : List Item}, (∀ i ∈ l, Clear takesArg i) →
    parseArgs takesArg (render l ++ tail) = l ++ parseArgs takesArg tail
  | [], _ => rfl
  | i :: l, h => by
    have hi := h i (by simp)
    have ih := parse_render_append tail (fun x hx => h x (List.mem_cons_of_mem _ hx))
    cases i with
    | codegen v =>
      simp only [render, List.cons_append]
      rw [parseArgs_cons, if_pos (.inl rfl)]
      simp [ih]
    | valued a v =>
      obtain ⟨h1, h2, h3, -, -, -⟩ := hi
      simp only [render, List.cons_append]
      rw [parseArgs_cons, if_neg (by simp [ne_C h2, h3]), h2]
      simp [h1, ih]
    | plain a =>
      obtain ⟨h1, h2, h3⟩ := hi
      simp only [render, List.cons_append]
      rw [parseArgs_cons, if_neg (by simp [ne_C h2, h3]), h2]
      simp [h1, ih]

/-- The wrapper does not change what a run of rustc makes. -/
theorem made_command {takesArg : Str → Bool} (ht : Plausible takesArg) (exe : Str) (items : List Item) (u e : Bool)
    (hc : ∀ i ∈ items, Clear takesArg i) :
    made (parseArgs takesArg (getCommand exe (render items) u e).1) = made (parseArgs takesArg (render items)) := by
  have no : ∀ a, '=' ∈ a → takesArg a = false := by
    intro a ha
    cases h : takesArg a with
    | false => rfl
    | true => exact absurd ha (ht a h).1
  have nf : takesArg (str! "-Funsafe-code") = false := by
    cases h : takesArg (str! "-Funsafe-code") with
    | false => rfl
    | true => exact absurd rfl (ht _ h).2
  have hj := no (str! "--error-format=json") (by decide)
  have hc' : ∀ i ∈ items.filter (fun i => !dropped i), Clear takesArg i := fun i hi => hc i (List.mem_filter.mp hi).1
  rw [parse_render hc, getCommand_eq, filterArgs_render none hc, parse_render_append _ hc', ← made_filter items]
  refine made_append _ _ ?_ ?_
  · cases u <;> cases e <;> simp [fixedArgs, parseArgs_cons, stripPrefix, hj, nf, parseArgs]
  · cases u <;> cases e <;> simp [fixedArgs, parseArgs_cons, stripPrefix, hj, nf, parseArgs, askedBy]

/-- The linker that rustc starts is cackle. -/
theorem starts_command {takesArg : Str → Bool} (ht : Plausible takesArg) (exe : Str) (r : Run) (t : Str) :
    starts (r.items takesArg exe) t = if t ∈ made (r.items takesArg exe) ∧ t ∈ linkedTypes then some exe else none := by
  unfold starts
  rw [show effective (str! "linker=") (r.items takesArg exe) = some exe from
    (C56_command_partial takesArg exe r.args r.unsafeOk r.externOk ht).1]
  rfl

/-- Cackle is told about each product that is linked. -/
theorem told_linked {takesArg : Str → Bool} (ht : Plausible takesArg) (exe : Str) {crate : CrateSel} {r : Run} (hr : Usual takesArg crate r)
    {t : Str} (hm : t ∈ made (parseArgs takesArg r.args)) (hl : t ∈ linkedTypes) :
    ∃ li, r.told takesArg exe t = some li ∧ li.crate = crate ∧ (li.outputFile = r.file t ∨ li.outputFile = origBinPath (r.file t)) := by
  obtain ⟨items, hc, ha⟩ := hr.args
  have hmade : made (r.items takesArg exe) = made (parseArgs takesArg r.args) := by
    unfold Run.items
    rw [ha]
    exact made_command ht exe items _ _ hc
  obtain ⟨name, pre, post, rest, h1, h2, h3, h4⟩ := hr.link t
  obtain ⟨info, g1, g2, g3⟩ := C104_linker r.env [] ('-' :: name) pre post rest (r.file t) crate hr.socket hr.crate (.inl rfl)
    (by simp [h2]) (by simp) (by simp) (by intro h; cases h) (by intro h; cases h) (by rw [← h3, h1]; rfl) h4
  have hrole : role r.env (r.linkArgs t) = .linker info := by rw [h1]; exact g1
  unfold Run.told
  have hst : starts (r.items takesArg exe) t = some exe := by rw [starts_command ht, hmade, if_pos ⟨hm, hl⟩]
  rw [if_pos hst, hrole]
  have hf := hr.file t
  rw [← g3] at hf
  obtain ⟨content, hf⟩ := Option.isSome_iff_exists.mp hf
  simp only [proxyLinker, hf]
  split
  · exact ⟨_, rfl, g2, .inr (by rw [g3])⟩
  · exact ⟨_, rfl, g2, .inl g3⟩

/-- Cackle is told about nothing else. -/
theorem told_only {takesArg : Str → Bool} (ht : Plausible takesArg) (exe : Str) {crate : CrateSel} {r : Run} (hr : Usual takesArg crate r)
    {t : Str} {li : Checker.LinkInfo} (h : r.told takesArg exe t = some li) :
    t ∈ made (parseArgs takesArg r.args) ∧ t ∈ linkedTypes := by
  obtain ⟨items, hc, ha⟩ := hr.args
  have hmade : made (r.items takesArg exe) = made (parseArgs takesArg r.args) := by
    unfold Run.items
    rw [ha]
    exact made_command ht exe items _ _ hc
  unfold Run.told at h
  split at h
  · rename_i hs
    rw [starts_command ht, hmade] at hs
    split at hs
    · assumption
    · cases hs
  · cases h

/-- **C178 (partial).** After a successful run, each executable, dynamic library and procedural macro that the build has made has been
analysed. Missing: static libraries. -/
theorem C178_partial (takesArg : Str → Bool) (exe : Str) (P : Parts) (idx : Index) (runs : List (CrateSel × Run))
    (links : List Checker.LinkInfo) (log : List Analysis) (ht : Plausible takesArg) (hu : ∀ r ∈ runs, Usual takesArg r.1 r.2)
    (hs : Success takesArg exe P idx runs links log) (r : CrateSel × Run) (hr : r ∈ runs) (t : Str)
    (hm : t ∈ made (parseArgs takesArg r.2.args))
    (hl : t ∈ [str! "bin", str! "dylib", str! "cdylib", str! "proc-macro"]) : Analysed P idx log r.1 (r.2.file t) := by
  obtain ⟨li, h1, h2, h3⟩ := told_linked ht exe (hu r hr) hm hl
  obtain ⟨sys, n, s, p, store, str, tr0, tr, g1, g2, g3, g4, g5, g6, g7, g8, g9, g10, g11⟩ := hs.ex
  obtain ⟨c, hc, hcm⟩ := g10 r hr t li h1
  refine ⟨li, h2, h3, ?_⟩
  obtain ⟨l, g, t', e1, e2, e3⟩ := C109_succeeded g1 g3 g4 (fun _ h hh => (g2 h hh).2) g5 g6 g7 g8
  have hfin : ∃ x ∈ s.sys.handlers, x.req = .linkerInvoked li := by
    obtain ⟨_, _, _, _, _, _, _, _, k9, _, _⟩ := Main.C15_success true p store str g4 s.sys.checker g6 g8
    have hok : s.pc = .returned .ok := by
      rw [g5] at k9
      simpa using k9
    obtain ⟨_, r', i, x, f1, f2, f3, _⟩ := C109_success_partial ⟨sys, n, fun h hh => (g2 h hh).2, g3⟩ hok c hc (g7 c hc)
    rw [hcm] at f1
    cases f1
    exact ⟨x, List.mem_of_getElem? f2, f3⟩
  obtain ⟨x, hx, hxr⟩ := hfin
  have hli := linked_reported g9 x hx li hxr (by rw [e3.1 x hx]; intro h; cases h)
  exact C08_linked_analysed_partial P idx s.sys links log tr g9 e3 li hli (hs.distinct li hli)

theorem no_link_before {l : List Handler} {i : Nat} {y y' : Handler} (hh : l[i]? = some y) (hy : y'.req = y.req)
    (hn : ∀ x ∈ l.set i y', ∀ li, x.req ≠ .linkerInvoked li) : ∀ x ∈ l, ∀ li, x.req ≠ .linkerInvoked li := by
  intro x hx li hr
  obtain ⟨j, hj⟩ := List.getElem?_of_mem hx
  by_cases e : i = j
  · subst e
    rw [hh] at hj
    cases hj
    have hlt : i < l.length := (List.getElem?_eq_some_iff.mp hh).1
    exact hn y' (List.mem_of_getElem? (by rw [List.getElem?_set_self hlt])) li (by rw [hy, hr])
  · exact hn x (List.mem_of_getElem? (by rw [List.getElem?_set_ne e, hj])) li hr

/-- If no request is about linking, nothing is analysed. -/
theorem nothing_analysed {P : Parts} {idx : Index} {sys : Sys} {links : List Checker.LinkInfo} {log : List Analysis} {tr : List CEv}
    (h : SysRun P idx sys links log tr) (hn : ∀ x ∈ sys.handlers, ∀ li, x.req ≠ .linkerInvoked li) :
    links = [] ∧ log = [] ∧ sys.checker.outstanding = [] := by
  induction h with
  | init => exact ⟨rfl, rfl, rfl⟩
  | load cfg hc h ih => exact ih hn
  | start req h ih => exact ih (fun x hx => hn x (List.mem_append_left _ hx))
  | @check s links log tr i y hh hr h ih =>
    have hb := no_link_before hh (check_req P s.checker y) hn
    obtain ⟨h1, h2, h3⟩ := ih hb
    have hy := hb y (List.mem_of_getElem? hh)
    have key : linksOf y.req = [] ∧ analysisOf P s.checker tr y = [] ∧ (handleRequest P s.checker y.req y.cache).1.outstanding = [] := by
      generalize hq : y.req = q at hy
      cases q with
      | linkerInvoked li => exact absurd rfl (hy li)
      | initial => exact ⟨rfl, by simp [analysisOf, hq], h3⟩
      | crateUsesUnsafe c l => exact ⟨rfl, by simp [analysisOf, hq], h3⟩
      | crateUsesExtern c l => exact ⟨rfl, by simp [analysisOf, hq], h3⟩
      | rustcStarted c => exact ⟨rfl, by simp [analysisOf, hq], h3⟩
      | binExecutionComplete c e o =>
        refine ⟨rfl, by simp [analysisOf, hq], ?_⟩
        simp only [handleRequest]
        repeat' split
        all_goals exact h3
      | rustcComplete c ps =>
        refine ⟨rfl, by simp [analysisOf, hq, h3, takeLink], ?_⟩
        simp only [handleRequest, rustcComplete, h3, takeLink]
    refine ⟨by rw [key.1, h1]; rfl, by rw [key.2.1, h2]; rfl, ?_⟩
    show (y.check P s.checker).1.outstanding = []
    unfold Handler.check
    have := key.2.2
    split <;> rename_i e <;> rw [e] at this <;> exact this
  | @resume s links log tr i y retry hh hr cfg hc h ih =>
    obtain ⟨h1, h2, h3⟩ := ih (no_link_before hh (resume_req s.checker y retry (some cfg)) hn)
    exact ⟨h1, h2, h3⟩
  | @resumeBad s links log tr i y retry hh hr h ih =>
    obtain ⟨h1, h2, h3⟩ := ih (no_link_before hh (resume_req s.checker y retry none) hn)
    exact ⟨h1, h2, h3⟩
  | @giveUp s links log tr i y retry hh hr h ih =>
    obtain ⟨h1, h2, h3⟩ := ih (no_link_before (y' := { y with status := .finished .giveUp }) hh rfl hn)
    exact ⟨h1, h2, h3⟩

/-- **C178, disagreement.** If a build makes no executables, dynamic libraries or procedural macros, as for a package that is a library,
nothing at all is analysed in a successful run, whatever the code of the package and of its dependencies does. -/
theorem C178_library (takesArg : Str → Bool) (exe : Str) (P : Parts) (idx : Index) (runs : List (CrateSel × Run))
    (links : List Checker.LinkInfo) (log : List Analysis) (ht : Plausible takesArg) (hu : ∀ r ∈ runs, Usual takesArg r.1 r.2)
    (hs : Success takesArg exe P idx runs links log)
    (hl : ∀ r ∈ runs, ∀ t ∈ made (parseArgs takesArg r.2.args), t ∉ [str! "bin", str! "dylib", str! "cdylib", str! "proc-macro"]) :
    log = [] := by
  obtain ⟨sys, n, s, p, store, str, tr0, tr, g1, g2, g3, g4, g5, g6, g7, g8, g9, g10, g11⟩ := hs.ex
  refine (nothing_analysed g9 ?_).2.1
  intro x hx li hr
  have hi := inv_of (fun h hh => (g2 h hh).2) g3
  obtain ⟨i, hx'⟩ := List.getElem?_of_mem hx
  have hlt : i < s.sys.handlers.length := (List.getElem?_eq_some_iff.mp hx').1
  by_cases hb : sys.handlers.length ≤ i
  · obtain ⟨th, hth, rfl⟩ := hi.served i hb hlt
    obtain ⟨⟨c, r, y, f1, f2, f3, f4, f5⟩, _⟩ := hi.threads th hth
    rw [hx'] at f3
    cases f3
    rw [← f4, hr] at f2
    obtain ⟨r, hrun, t, hto⟩ := g11 c (List.mem_of_getElem? f1) li f2
    obtain ⟨k1, k2⟩ := told_only ht exe (hu r hrun) hto
    exact hl r hrun t k1 k2
  · obtain ⟨y, hy⟩ : ∃ y, sys.handlers[i]? = some y := ⟨sys.handlers[i], List.getElem?_eq_getElem (by omega)⟩
    obtain ⟨k1, k2⟩ := g2 y (List.mem_of_getElem? hy)
    have := exec_keeps g3 i y hy (by rw [k2]; rfl)
    rw [hx'] at this
    cases this
    rw [k1] at hr
    cases hr

/-! ## Disagreement and examples -/

namespace Ex
open Cackle.Checker.C08Ex (idx crate)

def env : AMap Str Str :=
  [(str! "CACKLE_SOCKET_PATH", str! "/t/s"), (str! "CARGO_PKG_NAME", str! "a"), (str! "CARGO_PKG_VERSION", str! "1.0.0"),
   (str! "CACKLE_MULTIPLE_VERSION_PKG_NAMES", str! "")]
/-- A run of rustc as cargo starts it for a crate of this type. -/
def run (type : Str) : Run where
  args := [str! "--crate-name", str! "a", str! "--crate-type", type, str! "src/lib.rs"]
  unsafeOk := false
  externOk := false
  env := env
  linkArgs := fun _ => [str! "-m64", str! "-lc", str! "-o", str! "x", str! "-shared"]
  file := fun _ => str! "x"
  files := fun _ => some []
def takes (a : Str) : Bool := a = str! "--crate-name" ∨ a = str! "--crate-type"

theorem plausible : Plausible takes := by
  intro a ha
  simp only [takes, decide_eq_true_eq] at ha
  rcases ha with rfl | rfl <;> decide

theorem usual (type : Str) (h1 : stripPrefix (str! "-C") type = none) (h2 : startsWith type (str! "--error-format") = false) :
    Usual takes crate (run type) where
  args := by
    refine ⟨[.valued (str! "--crate-name") (str! "a"), .valued (str! "--crate-type") type, .plain (str! "src/lib.rs")], ?_, rfl⟩
    intro i hi
    simp only [List.mem_cons, List.not_mem_nil, or_false] at hi
    rcases hi with rfl | rfl | rfl
    · simp [Clear, stripPrefix, startsWith, takes]
    · simp [Clear, stripPrefix, startsWith, takes, h1] at h2 ⊢
      exact h2
    · simp [Clear, stripPrefix, takes]
  socket := by show (AMap.get? env _).getD [] ≠ []; decide
  crate := by show crateFromEnv env = _; decide
  link := fun t => ⟨str! "m64", [str! "-m64", str! "-lc"], [str! "-shared"], _, rfl, by decide, rfl, by decide⟩
  file := fun t => rfl

example : made (parseArgs takes (run (str! "bin")).args) = [str! "bin"] := by decide
example : made (parseArgs takes (run (str! "lib,cdylib")).args) = [str! "lib", str! "cdylib"] := by decide
example : (run (str! "cdylib")).told takes (str! "cackle") (str! "cdylib") = some ⟨crate, str! "x", []⟩ := by decide
example : (run (str! "staticlib")).told takes (str! "cackle") (str! "staticlib") = none := by decide

/-- A crate is compiled, nothing is linked, and the build succeeds. -/
theorem reach : ∃ n s, Exec Cackle.Checker.C08Ex.P { sys := { checker := { idx := idx } } } n s ∧ s.pc = .returned .ok ∧
    (∀ c ∈ s.conns, c.required = true) ∧ s.sys.checker.outstanding = [] ∧
    s.conns.map (·.message) = [some (.request (.rustcComplete crate []))] ∧
    s.sys.handlers.map (·.req) = [.rustcComplete crate []] := by
  have r := Exec.refl (P := Cackle.Checker.C08Ex.P) { sys := { checker := { idx := idx } } }
  have r := Exec.act (.connect true) r (by intro _ h; cases h)
  have r := Exec.main r (Server.Ex.free (.inl rfl))
  have r := Exec.main r (Server.Ex.free (.inr (.inl rfl)))
  have r := Exec.main r (Server.Ex.free (.inr (.inr (.inl rfl))))
  have r := Exec.act (.send 0 (.request (.rustcComplete crate []))) r (by intro h; cases h)
  have r := Exec.main r (not_blocked (by intro c h; cases h; rfl))
  have r := Exec.act (.check 0) r trivial
  have r := Exec.act (.thread 0) r trivial
  have r := Exec.act (.thread 0) r trivial
  have r := Exec.act (.exit (some 0)) r ⟨rfl, fun _ c hc _ => by
    rw [List.mem_singleton.mp hc]
    exact ⟨_, .continue_, rfl, rfl, fun _ => rfl⟩⟩
  have r := Exec.main r (Server.Ex.free (.inl rfl))
  have r := Exec.main r (Server.Ex.free (.inr (.inr (.inr (.inl ⟨some 0, rfl⟩)))))
  refine ⟨_, _, r, rfl, ?_, by decide +kernel, rfl, rfl⟩
  intro c hc
  rw [List.mem_singleton.mp hc]

/-- Cackle is told nothing about a product that is not linked. -/
theorem told_none {type : Str} (h1 : stripPrefix (str! "-C") type = none) (h2 : startsWith type (str! "--error-format") = false)
    (h3 : ∀ t ∈ made (parseArgs takes (run type).args), t ∉ linkedTypes) (t : Str) : (run type).told takes (str! "cackle") t = none := by
  cases h : (run type).told takes (str! "cackle") t with
  | none => rfl
  | some li =>
    obtain ⟨k1, k2⟩ := told_only plausible _ (usual type h1 h2) h
    exact absurd k2 (h3 t k1)

theorem success {type : Str} (h1 : stripPrefix (str! "-C") type = none) (h2 : startsWith type (str! "--error-format") = false)
    (h3 : ∀ t ∈ made (parseArgs takes (run type).args), t ∉ linkedTypes) :
    ∃ links log, Success takes (str! "cackle") Cackle.Checker.C08Ex.P idx [(crate, run type)] links log := by
  obtain ⟨n, s, he, e1, e2, e3, e4, e5⟩ := reach
  obtain ⟨us, hus⟩ : ∃ us, checkUnused s.sys.checker = some us := by simp [checkUnused, e3]
  obtain ⟨l, g, t, q1, _⟩ := exec_run he (.init (P := Cackle.Checker.C08Ex.P) (idx := idx))
  have hm : ∀ c ∈ s.conns, c.message = some (.request (.rustcComplete crate [])) := by
    intro c hc
    have : c.message ∈ s.conns.map (·.message) := List.mem_map.mpr ⟨c, hc, rfl⟩
    rw [e4] at this
    exact List.mem_singleton.mp this
  have hl : l = [] := by
    refine (nothing_analysed q1 ?_).1
    intro x hx li hr
    have : x.req ∈ s.sys.handlers.map (·.req) := List.mem_map.mpr ⟨x, hx, rfl⟩
    rw [e5, List.mem_singleton, hr] at this
    cases this
  refine ⟨l, g, ⟨⟨{ checker := { idx := idx } }, n, s, Server.Ex.phases us, {}, [], [], t, .init, (by intro h hh; cases hh), he,
    ⟨.init, rfl, by simp [Server.Ex.phases], by simp [Server.Ex.phases], by simp [Server.Ex.phases]⟩, (by rw [e1]; rfl), hus.symm, e2,
    by simp [Main.success, Main.run, Server.Ex.phases, Main.cleanOk, Outcome.and], q1, ?_, ?_⟩, by rw [hl]; intro _ h; cases h⟩⟩
  · intro r hr t' li hto
    rw [List.mem_singleton.mp hr, told_none h1 h2 h3] at hto
    cases hto
  · intro c hc li hcm
    rw [hm c hc] at hcm
    cases hcm

/-- A dynamic library that uses an API that is allowed is linked and then analysed. -/
theorem linked_success : ∃ log, Success takes (str! "cackle") Cackle.Checker.C08Ex.P idx [(crate, run (str! "cdylib"))]
    [Cackle.Checker.C08Ex.x] log := by
  have r := Exec.refl (P := Cackle.Checker.C08Ex.P) { sys := { checker := { idx := idx } } }
  have q : SysRun Cackle.Checker.C08Ex.P idx _ _ _ _ := .load Cackle.Checker.C08Ex.cfg Cackle.Checker.C08Ex.cfg_nodup .init
  have q := SysRun.start (.linkerInvoked Cackle.Checker.C08Ex.x) q
  have q := SysRun.check 0 _ rfl rfl q
  have q := SysRun.start (.rustcComplete crate []) q
  have q := SysRun.check 1 _ rfl rfl q
  have r := Exec.act (.load Cackle.Checker.C08Ex.cfg) r Cackle.Checker.C08Ex.cfg_nodup
  have r := Exec.act (.connect true) r (by intro _ h; cases h)
  have r := Exec.act (.connect true) r (by intro _ h; cases h)
  have r := Exec.main r (Server.Ex.free (.inl rfl))
  have r := Exec.main r (Server.Ex.free (.inr (.inl rfl)))
  have r := Exec.main r (Server.Ex.free (.inr (.inr (.inl rfl))))
  have r := Exec.act (.send 0 (.request (.linkerInvoked Cackle.Checker.C08Ex.x))) r (by intro h; cases h)
  have r := Exec.main r (not_blocked (by intro c h; cases h; rfl))
  have r := Exec.act (.check 0) r trivial
  have r := Exec.act (.thread 0) r trivial
  have r := Exec.act (.thread 0) r trivial
  have r := Exec.main r (Server.Ex.free (.inl rfl))
  have r := Exec.main r (Server.Ex.free (.inr (.inl rfl)))
  have r := Exec.main r (Server.Ex.free (.inr (.inr (.inl rfl))))
  have r := Exec.act (.send 1 (.request (.rustcComplete crate []))) r (by intro h; cases h)
  have r := Exec.main r (not_blocked (by intro c h; cases h; rfl))
  have r := Exec.act (.check 1) r trivial
  have r := Exec.act (.thread 1) r trivial
  have r := Exec.act (.thread 1) r trivial
  have r := Exec.act (.exit (some 0)) r ⟨rfl, fun _ c hc _ => by
    rcases List.mem_cons.mp hc with rfl | hc
    · exact ⟨_, .continue_, rfl, rfl, fun _ => rfl⟩
    · rw [List.mem_singleton.mp hc]
      exact ⟨_, .continue_, rfl, rfl, fun _ => rfl⟩⟩
  have r := Exec.main r (Server.Ex.free (.inl rfl))
  have r := Exec.main r (Server.Ex.free (.inr (.inr (.inr (.inl ⟨some 0, rfl⟩)))))
  refine ⟨_, ⟨⟨_, _, _, Server.Ex.phases [], {}, [], [], _, .init, (by intro h hh; cases hh), r,
    ⟨.init, rfl, by simp [Server.Ex.phases], by simp [Server.Ex.phases], by simp [Server.Ex.phases]⟩, rfl, ?_, ?_,
    by simp [Main.success, Main.run, Server.Ex.phases, Main.cleanOk, Outcome.and], q, ?_, ?_⟩, .of_nodup (by decide) _⟩⟩
  · decide +kernel
  · intro c hc
    rcases List.mem_cons.mp hc with rfl | hc
    · rfl
    · rw [List.mem_singleton.mp hc]
  · intro r hr t' li hto
    rw [List.mem_singleton.mp hr] at hto
    obtain ⟨k1, _⟩ := told_only plausible _ (usual (str! "cdylib") (by decide) (by decide)) hto
    have k1 : t' ∈ [str! "cdylib"] := k1
    rw [List.mem_singleton.mp k1] at hto
    have e : (run (str! "cdylib")).told takes (str! "cackle") (str! "cdylib") = some Cackle.Checker.C08Ex.x := by decide
    rw [e] at hto
    cases hto
    exact ⟨_, List.mem_cons_self, rfl⟩
  · intro c hc li hcm
    rcases List.mem_cons.mp hc with rfl | hc
    · cases hcm
      exact ⟨_, List.mem_singleton.mpr rfl, str! "cdylib", by decide⟩
    · rw [List.mem_singleton.mp hc] at hcm
      cases hcm

/-- The dynamic library has been analysed. -/
example : ∃ log, Analysed Cackle.Checker.C08Ex.P idx log crate (str! "x") := by
  obtain ⟨log, h⟩ := linked_success
  exact ⟨log, C178_partial _ _ _ _ _ _ _ plausible (by
    intro r hr
    rw [List.mem_singleton.mp hr]
    exact usual _ (by decide) (by decide)) h (crate, run (str! "cdylib")) (List.mem_singleton.mpr rfl) (str! "cdylib") (by decide) (by decide)⟩

/-- A library: the build succeeds, and nothing has been analysed. -/
example : ∃ links, Success takes (str! "cackle") Cackle.Checker.C08Ex.P idx [(crate, run (str! "lib"))] links [] := by
  have h3 : ∀ t ∈ made (parseArgs takes (run (str! "lib")).args), t ∉ linkedTypes := by decide
  obtain ⟨links, log, hs⟩ := success (type := str! "lib") (by decide) (by decide) h3
  have : log = [] := C178_library _ _ _ _ _ _ _ plausible (by
    intro r hr
    rw [List.mem_singleton.mp hr]
    exact usual _ (by decide) (by decide)) hs (by
    intro r hr
    rw [List.mem_singleton.mp hr]
    exact h3)
  exact ⟨links, this ▸ hs⟩

end Ex

/-- **C178, disagreement.** A package that is made into a static library, for use from another language, is not analysed. -/
theorem C178_refuted : ¬ C178_Claim := by
  intro h
  have h3 : ∀ t ∈ made (parseArgs Ex.takes (Ex.run (str! "staticlib")).args), t ∉ linkedTypes := by decide
  obtain ⟨links, log, hs⟩ := Ex.success (type := str! "staticlib") (by decide) (by decide) h3
  have hu : ∀ r ∈ [(Cackle.Checker.C08Ex.crate, Ex.run (str! "staticlib"))], Usual Ex.takes r.1 r.2 := by
    intro r hr
    rw [List.mem_singleton.mp hr]
    exact Ex.usual _ (by decide) (by decide)
  have hlog := C178_library _ _ _ _ _ _ _ Ex.plausible hu hs (by
    intro r hr
    rw [List.mem_singleton.mp hr]
    exact h3)
  obtain ⟨li, _, _, a, ha, _⟩ := h _ _ _ _ _ _ _ Ex.plausible hu hs _ (List.mem_singleton.mpr rfl) (str! "staticlib") (by decide) (by decide)
  rw [hlog] at ha
  cases ha

end Cackle.Products
