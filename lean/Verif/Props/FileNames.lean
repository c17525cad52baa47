import Verif.Props.Attribution
import Verif.Model.Link
import Verif.Model.SymbolGraph

/-!
# C175: the code of a package counts as its own, by whichever name a source file is included

rustc knows a source file by the name under which it was included. This name, made absolute, is in the debug information.
The file that lists the sources has the same name, and the wrapper of rustc sends its canonical form to the main process.
-/

namespace Cackle.FileNames
open Cackle Perm Checker
open Cackle.Link (Disk canonicalize)

/-! ## Specification -/

/-- The package was compiled from the file that is called `name`, and the wrapper said so. -/
def CompiledFrom (d : Disk) (events : List Event) (pkg : PkgId) (name : PathC) : Prop :=
  ∃ file, canonicalize d name = some file ∧ Listed events pkg file

/-- All requests are from wrappers, which list canonical names. -/
def Honest (d : Disk) (events : List Event) : Prop := ∀ pkg p, Listed events pkg p → canonicalize d p = some p

/-- Code at this place counts as the package's. -/
def CountsAs (c : State) (name : PathC) (pkg : PkgId) : Prop := ∃ ids, pkgIdsFromPath c name = some ids ∧ pkg ∈ ids

/-- The English claim C175. -/
def C175_Claim : Prop :=
  ∀ (P : Parts) (d : Disk) (c : State), c.paths = [] → [] ∉ c.idx.dirs.keys → ∀ events, Honest d events → ∀ pkg name,
    name.head? = some ['/'] → CompiledFrom d events pkg name → CountsAs (events.foldl (Event.apply P) c) name pkg

/-- The names of the files of a crate in the directory `dir`: the root of the crate is in the directory, and other files are
given relative to the directory of the file that includes them. -/
inductive Reached (dir : PathC) : PathC → Prop
  | root {rel : PathC} (h : rel ≠ []) : Reached dir (dir ++ rel)
  | included {name rel : PathC} (h : Reached dir name) (hr : rel ≠ []) : Reached dir (name.dropLast ++ rel)

/-! ## Lemmas -/

theorem reached_inside {dir name : PathC} (h : Reached dir name) : ∃ rest, rest ≠ [] ∧ name = dir ++ rest := by
  induction h with
  | root h => exact ⟨_, h, rfl⟩
  | @included name rel h hr ih =>
    obtain ⟨rest, h1, rfl⟩ := ih
    refine ⟨rest.dropLast ++ rel, by simp [hr], ?_⟩
    rw [List.dropLast_append_of_ne_nil h1, List.append_assoc]

/-! ## C175 -/

/-- A file that is called by its canonical name counts as the package's, and only as packages' that were compiled from it. -/
theorem C175_canonical (P : Parts) (d : Disk) (c : State) (hc : c.paths = []) (hd : [] ∉ c.idx.dirs.keys) (events : List Event)
    (pkg : PkgId) (name : PathC) (h : CompiledFrom d events pkg name) (hn : canonicalize d name = some name) :
    CountsAs (events.foldl (Event.apply P) c) name pkg ∧
      ∀ q, CountsAs (events.foldl (Event.apply P) c) name q → Listed events q name := by
  obtain ⟨file, h1, h2⟩ := h
  rw [hn] at h1
  cases h1
  obtain ⟨ids, h3, -, h4⟩ := (C33_owner P c hc hd events name).1 ⟨pkg, h2⟩
  refine ⟨⟨ids, h3, (h4 pkg).mpr h2⟩, ?_⟩
  rintro q ⟨ids', h5, h6⟩
  rw [h3] at h5
  cases h5
  exact (h4 q).mp h6

/-- A file that is named relative to the package counts as the package's: also with `..` and links in the name, and wherever
the file is. The name must not lead through the directory of a package inside this one, nor is the directory part of the
distribution of Rust. -/
theorem C175_relative_partial (P : Parts) (d : Disk) (c : State) (hc : c.paths = []) (hd : [] ∉ c.idx.dirs.keys)
    (events : List Event) (hh : Honest d events) (pkg : PkgId) (dir name : PathC) (hdir : c.idx.dirs.get? dir = some pkg)
    (hr : Reached dir name) (h : CompiledFrom d events pkg name) (hstd : ¬ InStd c.idx.sysroot name)
    (hnest : ∀ e ∈ c.idx.dirs.keys, e <+: name → e <+: dir) :
    CountsAs (events.foldl (Event.apply P) c) name pkg := by
  by_cases hn : canonicalize d name = some name
  · exact (C175_canonical P d c hc hd events pkg name h hn).1
  · obtain ⟨rest, -, hname⟩ := reached_inside hr
    have hl : ∀ q, ¬ Listed events q name := fun q hq => hn (hh q name hq)
    have := ((C33_owner P c hc hd events name).2.2 hl hstd).1 dir pkg
      ⟨⟨rest, hname.symm⟩, List.mem_map.mpr ⟨_, AMap.mem_of_get? hdir, rfl⟩, fun e he hk => (hnest e hk he).length_le⟩ hdir
    exact ⟨[pkg], this, List.mem_singleton.mpr rfl⟩

/-- What it means if a name counts as nobody's: no reference at such a place is recorded as a use of an API, whatever the names
and definitions are. -/
theorem C175_nobody {c : State} {t : ApiMap.Trie} {n : Nat} {binPath : Str} {crate : CrateSel} {st st' : Graph.Coll} {r : Graph.Ref}
    {loc : SourceLoc} (hl : r.from_.loc = some loc) (hn : pkgIdsFromPath c (pathOf loc.file) = some [])
    (h : Graph.processReference c t n binPath crate st r = .ok st') : st'.groups = st.groups := by
  have hloop : ∀ (hs : List Graph.Hit) (as : List ApiMap.Api) (g : AMap Graph.Key (List Graph.Single)),
      Graph.Res.loop (Graph.onHit c binPath crate r as) g hs = .ok g := by
    intro hs as
    induction hs with
    | nil => intro g; rfl
    | cons x hs ih =>
      intro g
      have : Graph.onHit c binPath crate r as g x = .ok g := by
        unfold Graph.onHit
        rw [hl]
        show (Graph.Res.ofOption (pkgIdsFromPath c (pathOf loc.file))).bind _ = _
        rw [hn]
        rfl
      unfold Graph.Res.loop
      rw [this]
      exact ih g
  unfold Graph.processReference at h
  cases h1 : Graph.namesAndApis t n st.cache r.from_.names with
  | ok fromHits =>
    rw [h1] at h
    simp only [Graph.Res.bind] at h
    cases h2 : Graph.namesAndApis t n fromHits.2 r.target with
    | ok hits =>
      rw [h2] at h
      simp only [hloop] at h
      cases h
      rfl
    | _ => rw [h2] at h; cases h
  | _ => rw [h1] at h; cases h

/-! ### Where it is not so -/

def evil : PkgId := ⟨str! "evil", str! "1.0.0", false⟩
def good : PkgId := ⟨str! "good", str! "1.0.0", false⟩

/-- Two packages in the registry, and a toolchain of rustup. -/
def exState : State :=
  { idx := { dirs := [(pathOf (str! "/reg/evil-1.0.0"), evil), (pathOf (str! "/reg/good-1.0.0"), good)]
             sysroot := pathOf (str! "/home/u/.rustup/toolchains/stable") } }

/-- The file that `evil` is compiled from. -/
def exFile : PathC := pathOf (str! "/reg/evil-1.0.0/src/x.rs")

def exDisk : Disk := { files := [exFile] }

def exEvents : List Event := [.request (.rustcComplete ⟨evil, .primary⟩ [exFile]) none]

theorem exHonest : Honest exDisk exEvents := by
  rintro pkg p ⟨crate, paths, cache, hm, rfl, hp⟩
  simp only [exEvents, List.mem_singleton, Event.request.injEq, Request.rustcComplete.injEq] at hm
  obtain ⟨⟨rfl, rfl⟩, rfl⟩ := hm
  rw [List.mem_singleton] at hp
  subst hp
  decide +kernel

theorem exListed : Listed exEvents evil exFile := ⟨_, _, _, List.mem_singleton.mpr rfl, rfl, List.mem_singleton.mpr rfl⟩

theorem exCompiled {name : PathC} (h : canonicalize exDisk name = some exFile) : CompiledFrom exDisk exEvents evil name :=
  ⟨exFile, h, exListed⟩

theorem exOwners (P : Parts) (name : PathC) (hne : name ≠ exFile) :
    pkgIdsFromPath (exEvents.foldl (Event.apply P) exState) name = pkgIdsFromPath exState name := by
  have hn : ¬ exFile = name := fun h => hne h.symm
  simp [exEvents, exState, Event.apply, handleRequest, rustcComplete, takeLink, recordPaths, pkgIdsFromPath, AMap.get?, AMap.insert, hn]
  rfl

/-- `include!` or `#[path]` with an absolute name that begins with the directory of the toolchain and leads back with `..`: the code
counts as nobody's and is not analysed (`C175_nobody`). -/
theorem C175_through_sysroot : ∃ (d : Disk) (c : State) (events : List Event) (pkg : PkgId) (name : PathC),
    c.paths = [] ∧ [] ∉ c.idx.dirs.keys ∧ Honest d events ∧ name.head? = some ['/'] ∧ CompiledFrom d events pkg name ∧
    ∀ P, pkgIdsFromPath (events.foldl (Event.apply P) c) name = some [] := by
  refine ⟨exDisk, exState, exEvents, evil,
    pathOf (str! "/home/u/.rustup/toolchains/stable/../../../../../reg/evil-1.0.0/src/x.rs"), rfl, by decide +kernel, exHonest,
    by decide +kernel, exCompiled (by decide +kernel), fun P => ?_⟩
  rw [exOwners P _ (by decide +kernel)]
  decide +kernel

/-- A name through the directory of another package: the code counts as that package's, and only as that package's. -/
theorem C175_through_package : ∃ (d : Disk) (c : State) (events : List Event) (pkg other : PkgId) (name : PathC),
    c.paths = [] ∧ [] ∉ c.idx.dirs.keys ∧ Honest d events ∧ name.head? = some ['/'] ∧ CompiledFrom d events pkg name ∧ pkg ≠ other ∧
    ∀ P, pkgIdsFromPath (events.foldl (Event.apply P) c) name = some [other] := by
  refine ⟨exDisk, exState, exEvents, evil, good, pathOf (str! "/reg/good-1.0.0/../evil-1.0.0/src/x.rs"), rfl,
    by decide +kernel, exHonest, by decide +kernel, exCompiled (by decide +kernel), by decide, fun P => ?_⟩
  rw [exOwners P _ (by decide +kernel)]
  decide +kernel

/-- A package in the directory of another one, as in a workspace with a package at its root. -/
def nestState : State :=
  { idx := { dirs := [(pathOf (str! "/ws"), evil), (pathOf (str! "/ws/good"), good)], sysroot := pathOf (str! "/sysroot") } }

def nestFile : PathC := pathOf (str! "/ws/x.rs")
def nestDisk : Disk := { files := [nestFile] }
def nestEvents : List Event := [.request (.rustcComplete ⟨evil, .primary⟩ [nestFile]) none]

/-- Also with a relative name, if there is a package inside: `#[path = "good/../x.rs"] mod x;` in `/ws/lib.rs`. -/
theorem C175_nested : ∃ (d : Disk) (c : State) (events : List Event) (pkg other : PkgId) (dir name : PathC),
    c.paths = [] ∧ [] ∉ c.idx.dirs.keys ∧ Honest d events ∧ c.idx.dirs.get? dir = some pkg ∧ Reached dir name ∧
    CompiledFrom d events pkg name ∧ ¬ InStd c.idx.sysroot name ∧ pkg ≠ other ∧
    ∀ P, pkgIdsFromPath (events.foldl (Event.apply P) c) name = some [other] := by
  refine ⟨nestDisk, nestState, nestEvents, evil, good, pathOf (str! "/ws"), pathOf (str! "/ws/good/../x.rs"), rfl,
    by decide +kernel, ?_, by decide +kernel, ?_, ⟨nestFile, by decide +kernel, _, _, _, List.mem_singleton.mpr rfl, rfl,
      List.mem_singleton.mpr rfl⟩, ?_, by decide, fun P => ?_⟩
  · rintro pkg p ⟨crate, paths, cache, hm, rfl, hp⟩
    simp only [nestEvents, List.mem_singleton, Event.request.injEq, Request.rustcComplete.injEq] at hm
    obtain ⟨⟨rfl, rfl⟩, rfl⟩ := hm
    rw [List.mem_singleton] at hp
    subst hp
    decide +kernel
  · exact Reached.included (Reached.root (dir := pathOf (str! "/ws")) (rel := [str! "lib.rs"]) (by simp))
      (rel := [str! "good", str! "..", str! "x.rs"]) (by simp)
  · rw [← isInRustStd_iff]
    decide +kernel
  · have hn : ¬ nestFile = pathOf (str! "/ws/good/../x.rs") := by decide +kernel
    have : pkgIdsFromPath (nestEvents.foldl (Event.apply P) nestState) (pathOf (str! "/ws/good/../x.rs")) =
        pkgIdsFromPath nestState (pathOf (str! "/ws/good/../x.rs")) := by
      simp [nestEvents, nestState, Event.apply, handleRequest, rustcComplete, takeLink, recordPaths, pkgIdsFromPath, AMap.get?, AMap.insert, hn]
      rfl
    rw [this]
    decide +kernel

theorem C175_refuted : ¬ C175_Claim := by
  intro h
  obtain ⟨d, c, events, pkg, name, h1, h2, h3, h4, h5, h6⟩ := C175_through_sysroot
  obtain ⟨ids, h7, h8⟩ := h { scan := fun _ _ => none, report := fun _ _ _ => none } d c h1 h2 events h3 pkg name h4 h5
  rw [h6] at h7
  cases h7
  cases h8

/-! ## Not vacuous -/

/-- The same file by a relative name with `..`. -/
example (P : Parts) : CountsAs (exEvents.foldl (Event.apply P) exState)
    (pathOf (str! "/reg/evil-1.0.0/src/../../evil-1.0.0/src/x.rs")) evil := by
  refine C175_relative_partial P exDisk exState rfl (by decide +kernel) exEvents exHonest evil (pathOf (str! "/reg/evil-1.0.0")) _
    (by decide +kernel) ?_ (exCompiled (by decide +kernel)) ?_ ?_
  · have h := Reached.included (Reached.root (dir := pathOf (str! "/reg/evil-1.0.0")) (rel := [str! "src", str! "lib.rs"]) (by simp))
      (rel := [str! "..", str! "..", str! "evil-1.0.0", str! "src", str! "x.rs"]) (by simp)
    exact h
  · rw [← isInRustStd_iff]
    decide +kernel
  · decide +kernel

example (P : Parts) : CountsAs (exEvents.foldl (Event.apply P) exState) exFile evil :=
  (C175_canonical P exDisk exState rfl (by decide +kernel) exEvents evil exFile (exCompiled (by decide +kernel)) (by decide +kernel)).1

end Cackle.FileNames
