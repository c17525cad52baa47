import Verif.Lemmas.Messages
import Verif.Props.Wire

/-!
# Requests, answers and configurations between processes (C119, C120, C121)
-/

namespace Cackle.Messages
open Cackle Json Config Perm

/-! ## C119: a request arrives exactly as it was sent -/

/-- The paths in a request. -/
def Request.paths : Request → List OsPath
  | .usesUnsafe u => u.locations.map (·.file)
  | .usesExtern u => u.locations.map (·.file)
  | .linkerInvoked l => l.objects ++ [l.output]
  | .binComplete b => [b.binary]
  | .rustcStarted _ => []
  | .rustcComplete r => r.sources

/-- All paths are text. -/
def Request.Text (r : Request) : Prop := ∀ p ∈ r.paths, ∃ s, p = .utf8 s

theorem mapM_path_some {ps : List OsPath} (h : ∀ p ∈ ps, ∃ s, p = .utf8 s) : ∃ js, ps.mapM encPath = some js := by
  induction ps with
  | nil => exact ⟨[], rfl⟩
  | cons p ps ih =>
    obtain ⟨s, rfl⟩ := h p (List.mem_cons_self ..)
    obtain ⟨js, hj⟩ := ih (fun q hq => h q (List.mem_cons_of_mem _ hq))
    exact ⟨.str s :: js, by simp [List.mapM_cons, hj, encPath]⟩

theorem mapM_loc_some {ls : List Loc} (h : ∀ p ∈ ls.map (·.file), ∃ s, p = .utf8 s) : ∃ js, ls.mapM encLoc = some js := by
  induction ls with
  | nil => exact ⟨[], rfl⟩
  | cons x ls ih =>
    obtain ⟨s, hs⟩ := h x.file (by simp)
    obtain ⟨js, hj⟩ := ih (fun q hq => h q (by simp at hq ⊢; exact .inr hq))
    exact ⟨_ :: js, by simp [List.mapM_cons, hj, encLoc, hs, encPath]; rfl⟩

theorem encRequest_some {r : Request} (h : r.Text) : ∃ j, encRequest r = some j := by
  cases r with
  | usesUnsafe u => obtain ⟨js, hj⟩ := mapM_loc_some h; exact ⟨_, by simp only [encRequest, encUsage, hj, Option.map_some]; rfl⟩
  | usesExtern u => obtain ⟨js, hj⟩ := mapM_loc_some h; exact ⟨_, by simp only [encRequest, encUsage, hj, Option.map_some]; rfl⟩
  | linkerInvoked l =>
    obtain ⟨js, hj⟩ := mapM_path_some (ps := l.objects) (fun p hp => h p (List.mem_append.mpr (.inl hp)))
    obtain ⟨s, hs⟩ := h l.output (List.mem_append.mpr (.inr (List.mem_cons_self ..)))
    exact ⟨_, by simp only [encRequest, encLink, hj, hs, encPath, Option.map_some, Option.bind_some]; rfl⟩
  | binComplete b =>
    obtain ⟨s, hs⟩ := h b.binary (List.mem_cons_self ..)
    exact ⟨_, by simp only [encRequest, encBinOut, hs, encPath, Option.map_some]; rfl⟩
  | rustcStarted c => exact ⟨_, rfl⟩
  | rustcComplete x =>
    obtain ⟨js, hj⟩ := mapM_path_some (ps := x.sources) h
    exact ⟨_, by simp only [encRequest, encRustcOut, hj, Option.map_some]; rfl⟩

theorem mapM_path_none {ps : List OsPath} {js : List Json} (h : ps.mapM encPath = some js) : ∀ p ∈ ps, ∃ s, p = .utf8 s := by
  induction ps generalizing js with
  | nil => intro p hp; cases hp
  | cons q ps ih =>
    cases q with
    | other b => simp [List.mapM_cons, encPath] at h
    | utf8 s =>
      cases hm : ps.mapM encPath with
      | none => simp [List.mapM_cons, hm] at h
      | some l =>
        intro p hp
        rcases List.mem_cons.mp hp with rfl | hp
        · exact ⟨s, rfl⟩
        · exact ih hm p hp

theorem encPath_utf8 {p : OsPath} {j : Json} (h : encPath p = some j) : ∃ s, p = .utf8 s := by
  cases p with
  | utf8 s => exact ⟨s, rfl⟩
  | other b => cases h

theorem mapM_loc_none {ls : List Loc} {js : List Json} (h : ls.mapM encLoc = some js) :
    ∀ p ∈ ls.map (·.file), ∃ s, p = .utf8 s := by
  induction ls generalizing js with
  | nil => intro p hp; cases hp
  | cons x ls ih =>
    cases hx : encLoc x with
    | none => simp [List.mapM_cons, hx] at h
    | some i =>
      cases hm : ls.mapM encLoc with
      | none => simp [List.mapM_cons, hm] at h
      | some l =>
        intro p hp
        rw [List.map_cons] at hp
        rcases List.mem_cons.mp hp with rfl | hp
        · simp only [encLoc, Option.map_eq_some_iff] at hx
          obtain ⟨f, hf, -⟩ := hx
          exact encPath_utf8 hf
        · exact ih hm p hp

theorem text_of_enc {r : Request} {j : Json} (h : encRequest r = some j) : r.Text := by
  cases r with
  | usesUnsafe u =>
    simp only [encRequest, encUsage, Option.map_eq_some_iff] at h
    obtain ⟨_, ⟨l, h, -⟩, -⟩ := h
    exact mapM_loc_none h
  | usesExtern u =>
    simp only [encRequest, encUsage, Option.map_eq_some_iff] at h
    obtain ⟨_, ⟨l, h, -⟩, -⟩ := h
    exact mapM_loc_none h
  | linkerInvoked l =>
    simp only [encRequest, encLink, Option.map_eq_some_iff, Option.bind_eq_some_iff] at h
    obtain ⟨_, ⟨os, h, o, ho, -⟩, -⟩ := h
    intro p hp
    rcases List.mem_append.mp hp with hp | hp
    · exact mapM_path_none h p hp
    · simp only [List.mem_cons, List.not_mem_nil, or_false] at hp
      subst hp
      exact encPath_utf8 ho
  | binComplete b =>
    simp only [encRequest, encBinOut, Option.map_eq_some_iff] at h
    obtain ⟨_, ⟨l, h, -⟩, -⟩ := h
    intro p hp
    simp only [Request.paths, List.mem_cons, List.not_mem_nil, or_false] at hp
    subst hp
    exact encPath_utf8 h
  | rustcStarted c => intro p hp; cases hp
  | rustcComplete x =>
    simp only [encRequest, encRustcOut, Option.map_eq_some_iff] at h
    obtain ⟨_, ⟨l, h, -⟩, -⟩ := h
    exact mapM_path_none h

/-- The bytes of a request decode to the request. -/
theorem decode_request {r : Request} (hv : r.Valid) {j : Json} (h : encRequest r = some j) :
    (fromBytes (toBytes (text j))).bind (fun t => (parse t).bind decRequest) = some r := by
  have hf := fits_request hv h
  rw [fromBytes_toBytes, Option.bind_some, parse_text hf.1 (by have := hf.2; omega), Option.bind_some, decRequest_enc hv h]

theorem sendable {A : Type} {dec : Json → Option A} {t : Str} {a : A}
    (hd : (fromBytes (toBytes t)).bind (fun t => (parse t).bind dec) = some a) (hl : (toBytes t).length < 256 ^ 8)
    (rest : List Wire.Byte) : receive dec (Wire.leBytes 8 (toBytes t).length ++ toBytes t ++ rest) = some (a, rest) :=
  Wire.readMsg_writeMsg (ser := fun _ : A => toBytes t) (v := a) ⟨hd, hl⟩ rest

/-- C119: a request whose paths are text is written, and what the other side reads is the request, followed by whatever
comes next on the connection. (Numbers are in the range of their Rust types. A message of 2⁶⁴ bytes does not exist.) -/
theorem C119_arrives (r : Request) (hv : r.Valid) (ht : r.Text) :
    ∃ bytes, sendRequest r = some bytes ∧
      (bytes.length < 2 ^ 64 → ∀ rest, receive decRequest (bytes ++ rest) = some (r, rest)) := by
  obtain ⟨j, hj⟩ := encRequest_some ht
  refine ⟨_, by rw [sendRequest, hj]; rfl, ?_⟩
  intro hl rest
  refine sendable (decode_request hv hj) ?_ rest
  simp only [List.length_append] at hl
  have : (256 : Nat) ^ 8 = 2 ^ 64 := by decide
  omega

/-- C119: a request with a path that is not text is an error of the sender; nothing is written. -/
theorem C119_refused (r : Request) : sendRequest r = none ↔ ∃ b, .other b ∈ r.paths := by
  constructor
  · intro h
    apply Classical.byContradiction
    intro hno
    have ht : r.Text := by
      intro p hp
      cases p with
      | utf8 s => exact ⟨s, rfl⟩
      | other b => exact absurd ⟨b, hp⟩ hno
    obtain ⟨j, hj⟩ := encRequest_some ht
    rw [sendRequest, hj] at h
    cases h
  · rintro ⟨b, hb⟩
    cases hj : encRequest r with
    | none => rw [sendRequest, hj]; rfl
    | some j =>
      obtain ⟨s, hs⟩ := text_of_enc hj _ hb
      cases hs

/-- C119: part of a request is never taken for a request. -/
theorem C119_truncated (r : Request) (hv : r.Valid) {bytes : List Wire.Byte} (h : sendRequest r = some bytes)
    (hl : bytes.length < 2 ^ 64) {s t : List Wire.Byte} (hs : bytes = s ++ t) (ht : t ≠ []) : receive decRequest s = none := by
  cases hj : encRequest r with
  | none => rw [sendRequest, hj] at h; cases h
  | some j =>
    rw [sendRequest, hj] at h
    simp only [Option.map_some, Option.some.injEq] at h
    refine Wire.readMsg_truncated (ser := fun _ : Request => toBytes (text j)) (v := r) ⟨decode_request hv hj, ?_⟩
      (h.trans hs) ht
    rw [← h, List.length_append] at hl
    have : (256 : Nat) ^ 8 = 2 ^ 64 := by decide
    simp only
    omega

/-- C119: different requests are different bytes. -/
theorem C119_distinct (r r' : Request) (hv : r.Valid) (hv' : r'.Valid) {bytes : List Wire.Byte}
    (h : sendRequest r = some bytes) (h' : sendRequest r' = some bytes) : r = r' := by
  cases hj : encRequest r with
  | none => rw [sendRequest, hj] at h; cases h
  | some j =>
    cases hj' : encRequest r' with
    | none => rw [sendRequest, hj'] at h'; cases h'
    | some j' =>
      rw [sendRequest, hj] at h
      rw [sendRequest, hj'] at h'
      simp only [Option.map_some, Option.some.injEq] at h h'
      have hb : toBytes (text j) = toBytes (text j') := by
        have := congrArg (List.drop 8) (h.trans h'.symm)
        rwa [List.drop_left' (Wire.length_leBytes ..), List.drop_left' (Wire.length_leBytes ..)] at this
      have h1 := decode_request hv hj
      rw [hb, decode_request hv' hj'] at h1
      exact (Option.some.inj h1).symm

/-- A request with every awkward character: quotes, a backslash, a control character, letters beyond ASCII. -/
def exRequest : Request :=
  .usesUnsafe ⟨⟨⟨str! "a\"b\\c\nd\te", str! "1.0.0", true⟩, .buildScript⟩, [⟨.utf8 (str! "/ü/日本/\u0001.rs"), 7, some 4294967295⟩]⟩

example : exRequest.Valid ∧ exRequest.Text := by
  constructor
  · intro x hx
    simp only [List.mem_cons, List.not_mem_nil, or_false] at hx
    subst hx
    exact ⟨by decide, by intro c hc; cases hc; decide⟩
  · intro p hp
    simp only [exRequest, Request.paths, List.map_cons, List.map_nil, List.mem_cons, List.not_mem_nil, or_false] at hp
    exact ⟨_, hp⟩

/-- A path that is not text exists, and is refused. -/
example : sendRequest (.rustcComplete ⟨⟨⟨str! "a", str! "1.0.0", false⟩, .primary⟩, [.utf8 (str! "/a.rs"), .other [255]]⟩) = none :=
  (C119_refused _).mpr ⟨[255], by decide⟩

/-! ## C121: an answer arrives exactly as it was sent -/

/-- C121: whatever the checker answers is what the waiting process reads. -/
theorem C121_answer (o : Outcome) (rest : List Wire.Byte) : receive decOutcome (sendOutcome o ++ rest) = some (o, rest) := by
  refine sendable ?_ ?_ rest
  · rw [fromBytes_toBytes, Option.bind_some]
    have hf : Fits 1 (encOutcome o) := by cases o <;> exact fits_str _ _
    rw [parse_text hf.1 (by have := hf.2; omega), Option.bind_some, decOutcome_enc]
  · cases o <;> decide

/-- C121: a connection that is closed early is never an answer, in particular not permission to go on. -/
theorem C121_closed (o : Outcome) {s t : List Wire.Byte} (hs : sendOutcome o = s ++ t) (ht : t ≠ []) :
    receive decOutcome s = none := by
  refine Wire.readMsg_truncated (ser := fun _ : Outcome => toBytes (text (encOutcome o))) (v := o) ⟨?_, ?_⟩ hs ht
  · rw [fromBytes_toBytes, Option.bind_some]
    have hf : Fits 1 (encOutcome o) := by cases o <;> exact fits_str _ _
    rw [parse_text hf.1 (by have := hf.2; omega), Option.bind_some, decOutcome_enc]
  · cases o <;> decide

example : sendOutcome .goOn ≠ sendOutcome .giveUp := by decide

/-! ## C120: sub-processes use the permissions in force -/

/-- The state after a number of attempts to load the configuration. -/
def loads (idx : List IdxPkg) (l : List (Option (Raw × Cargo.Common) × Bool)) : Live :=
  l.foldl (fun s e => loadConfig idx s e.1 e.2) {}

/-- What a sub-process that starts now reads is the configuration that the checker uses now. -/
def InForce (idx : List IdxPkg) (s : Live) : Prop :=
  (s.config = none → s.file = none) ∧
  ∀ raw cargo, s.config = some (raw, cargo) →
    ∃ text sub, s.file = some text ∧ deserialise text = some sub ∧
      sub.common.common = raw.common ∧ sub.common.cargo = cargo ∧ sub.permissions = withInheritance raw idx ∧
      sub.rustc = raw.rustcSandbox

/-- C120: after any history of loading and failing to load, a sub-process reads exactly the settings, the permissions
(with inheritance) and the sandbox for rustc of the configuration that the checker uses. -/
theorem C120_in_force (idx : List IdxPkg) (l : List (Option (Raw × Cargo.Common) × Bool)) : InForce idx (loads idx l) := by
  have key : ∀ (l : List (Option (Raw × Cargo.Common) × Bool)) (s : Live), InForce idx s →
      InForce idx (l.foldl (fun s e => loadConfig idx s e.1 e.2) s) := by
    intro l
    induction l with
    | nil => intro s h; exact h
    | cons e l ih =>
      intro s h
      refine ih _ ?_
      obtain ⟨parsed, written⟩ := e
      simp only
      unfold loadConfig
      split
      · exact h
      · rename_i raw cargo
        split
        · exact h
        · rename_i hv
          split
          · refine ⟨fun hc => (Option.some_ne_none _ hc).elim, ?_⟩
            intro raw' cargo' he
            simp only [Option.some.injEq, Prod.mk.injEq] at he
            obtain ⟨rfl, rfl⟩ := he
            exact ⟨_, fromFull raw cargo idx, rfl,
              deserialise_serialise (fromFull_valid (Classical.not_not.mp hv) cargo idx), rfl, rfl, rfl, rfl⟩
          · exact h
  refine key l {} ⟨fun _ => rfl, ?_⟩
  intro raw cargo h
  cases h

/-- C120: so the wrapper of rustc forbids unsafe code in exactly the crates in which the checker's configuration does, and
the wrapper of programs uses the sandbox of that configuration. -/
theorem C120_decisions (idx : List IdxPkg) (l : List (Option (Raw × Cargo.Common) × Bool)) {raw : Raw} {cargo : Cargo.Common}
    (h : (loads idx l).config = some (raw, cargo)) :
    ∃ sub, (loads idx l).file.bind deserialise = some sub ∧
      (∀ c, unsafePermitted sub.permissions c = unsafePermitted (withInheritance raw idx) c) ∧
      (∀ p, sandboxFor sub.permissions p = sandboxFor (withInheritance raw idx) p) := by
  obtain ⟨t, sub, h1, h2, -, -, h3, -⟩ := (C120_in_force idx l).2 raw cargo h
  refine ⟨sub, by rw [h1, Option.bind_some, h2], ?_, ?_⟩
  · intro c; rw [h3]
  · intro p; rw [h3]

/-- An attempt to load that succeeds: the file could be read, has no mistakes, and what sub-processes need was written. -/
def Succeeds : Option (Raw × Cargo.Common) × Bool → Option (Raw × Cargo.Common)
  | (some (raw, cargo), true) => if validate raw = [] then some (raw, cargo) else none
  | _ => none

/-- C120: the configuration in force is that of the last successful attempt. -/
theorem C120_last (idx : List IdxPkg) (l : List (Option (Raw × Cargo.Common) × Bool)) :
    (loads idx l).config = (l.filterMap Succeeds).getLast? := by
  have key : ∀ (l : List (Option (Raw × Cargo.Common) × Bool)) (s : Live),
      (l.foldl (fun s e => loadConfig idx s e.1 e.2) s).config = ((l.filterMap Succeeds).getLast?).or s.config := by
    intro l
    induction l with
    | nil => intro s; rfl
    | cons e l ih =>
      intro s
      obtain ⟨parsed, written⟩ := e
      rw [List.foldl_cons, ih, List.filterMap_cons]
      rcases parsed with _ | ⟨raw, cargo⟩
      · rfl
      · cases written
        · have : (loadConfig idx s (some (raw, cargo)) false).config = s.config := by
            unfold loadConfig
            simp only
            split <;> rfl
          rw [this]
          rfl
        · by_cases hv : validate raw = []
          · have h1 : (loadConfig idx s (some (raw, cargo)) true).config = some (raw, cargo) := by
              unfold loadConfig
              simp [hv]
            have h2 : Succeeds (some (raw, cargo), true) = some (raw, cargo) := if_pos hv
            rw [h1, h2, List.getLast?_cons]
            cases (List.filterMap Succeeds l).getLast? <;> rfl
          · have h1 : (loadConfig idx s (some (raw, cargo)) true).config = s.config := by
              unfold loadConfig
              simp [hv]
            have h2 : Succeeds (some (raw, cargo), true) = none := if_neg hv
            rw [h1, h2]
  have := key l {}
  rw [Option.or_none] at this
  exact this

/-- A good configuration, then one that cannot be read, one that is not valid and one that cannot be written: the first
stays in force, and it is what sub-processes read. -/
def exLoads : List (Option (Raw × Cargo.Common) × Bool) :=
  [(some (okCfg, {}), true), (none, true), (some (badCfg, {}), true), (some (okCfg, { features := [str! "f"] }), false)]

theorem exLoads_config (idx : List IdxPkg) : (loads idx exLoads).config = some (okCfg, {}) := by
  have h1 : validate okCfg = [] := by decide
  have h2 : validate badCfg ≠ [] := by decide
  simp only [loads, exLoads, List.foldl_cons, List.foldl_nil, loadConfig, h1, h2, ne_eq, not_true_eq_false, not_false_eq_true,
    if_true, if_false, Bool.false_eq_true]

example (idx : List IdxPkg) : ∃ sub, (loads idx exLoads).file.bind deserialise = some sub :=
  let ⟨sub, h, _⟩ := C120_decisions idx exLoads (exLoads_config idx)
  ⟨sub, h⟩

end Cackle.Messages
