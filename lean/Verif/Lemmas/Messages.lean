import Verif.Model.Messages
import Verif.Lemmas.Json
import Verif.Lemmas.Checker

/-!
# Lemmas about requests and configurations as JSON
-/

namespace Cackle.Messages
open Cackle Json Config Perm

/-! ## Bytes -/

theorem fromBytes_toBytes (s : Str) : fromBytes (toBytes s) = some s := by
  have h : (⟨((toBytes s).map UInt8.ofFin).toArray⟩ : ByteArray) = s.utf8Encode := by
    have h1 : (toBytes s).map UInt8.ofFin = s.flatMap String.utf8EncodeChar := by
      rw [toBytes, List.map_map]
      have : (UInt8.ofFin ∘ UInt8.toFin) = id := by funext x; rfl
      rw [this, List.map_id]
    rw [h1, List.utf8Encode]
    apply ByteArray.ext
    simp
  rw [fromBytes, h, List.utf8Decode?_utf8Encode]
  simp

/-! ## Building blocks -/

theorem mapM_map {A B : Type} (dec : Json → Option A) (enc : B → Json) (f : B → A) (h : ∀ b, dec (enc b) = some (f b)) :
    ∀ l : List B, (l.map enc).mapM dec = some (l.map f)
  | [] => rfl
  | b :: l => by simp [h, mapM_map dec enc f h l]

theorem decStrs (l : List Str) : decList decStr (encStrs l) = some l := by
  have := mapM_map decStr Json.str id (fun _ => rfl) l
  simpa [decList, encStrs] using this

theorem decBytes {l : List Nat} (h : ∀ n ∈ l, n < 256) : decList (decNat 256) (encBytes l) = some l := by
  simp only [decList, encBytes]
  induction l with
  | nil => rfl
  | cons n l ih =>
    have hn := h n (List.mem_cons_self ..)
    have h1 : decNat 256 (.num (n : Int)) = some n := by
      simp only [decNat]
      rw [if_pos (by omega)]
      simp
    simp [h1, ih (fun m hm => h m (List.mem_cons_of_mem _ hm))]

theorem decOpt_encOpt {A : Type} {dec : Json → Option A} {enc : A → Json} (h : ∀ a, dec (enc a) = some a)
    (hn : ∀ a, enc a ≠ .null) (o : Option A) : decOpt dec (encOpt enc o) = some o := by
  cases o with
  | none => rfl
  | some a =>
    simp only [encOpt]
    unfold decOpt
    split
    · rename_i he; exact absurd he (hn a)
    · rw [h]; rfl

theorem decPkgId_enc (p : PkgId) : decPkgId (encPkgId p) = some p := rfl
theorem decKind_enc (k : CrateKind) : decKind (encKind k) = some k := by cases k <;> rfl
theorem decCrate_enc (c : CrateSel) : decCrate (encCrate c) = some c := by
  obtain ⟨p, k⟩ := c
  cases k <;> rfl
theorem decSandboxKind_enc (k : SandboxKind) : decSandboxKind (encSandboxKind k) = some k := by cases k <;> rfl
theorem decOutcome_enc (o : Outcome) : decOutcome (encOutcome o) = some o := by cases o <;> rfl

theorem decSandbox_enc (s : Sandbox) : decSandbox (encSandbox s) = some s := by
  have h1 := decOpt_encOpt decSandboxKind_enc (by intro a h; cases a <;> cases h) s.kind
  have h2 : decOpt decBool (encOpt .bool s.allowNetwork) = some s.allowNetwork :=
    decOpt_encOpt (A := Bool) (fun _ => rfl) (by intro a h; cases h) s.allowNetwork
  have : decSandbox (encSandbox s) =
      (decOpt decSandboxKind (encOpt encSandboxKind s.kind)).bind (fun kind =>
      (decList decStr (encStrs s.extraArgs)).bind (fun extraArgs =>
      (decOpt decBool (encOpt .bool s.allowNetwork)).bind (fun allowNetwork =>
      (decList decStr (encStrs s.bindWritable)).bind (fun bindWritable =>
      (decList decStr (encStrs s.makeWritable)).bind (fun makeWritable =>
      (decList decStr (encStrs s.passEnv)).bind (fun passEnv =>
        some { kind, extraArgs, allowNetwork, bindWritable, makeWritable, passEnv })))))) := rfl
  rw [this, h1, h2]
  simp only [decStrs, Option.bind_some]

/-! ## Requests -/

/-- The line and the column are 32-bit numbers. -/
def Loc.Valid (x : Loc) : Prop := x.line < u32 ∧ ∀ c, x.column = some c → c < u32

/-- The numbers of a request are in the range of their types. -/
def Request.Valid : Request → Prop
  | .usesUnsafe u => ∀ x ∈ u.locations, x.Valid
  | .usesExtern u => ∀ x ∈ u.locations, x.Valid
  | .binComplete b => (∀ n ∈ b.stdout, n < 256) ∧ (∀ n ∈ b.stderr, n < 256) ∧ -2 ^ 31 ≤ b.exitCode ∧ b.exitCode < 2 ^ 31
  | _ => True

theorem decPath_enc {p : OsPath} {j : Json} (h : encPath p = some j) : decPath j = some p := by
  cases p with
  | utf8 s => cases h; rfl
  | other b => cases h

theorem decNat_num {b n : Nat} (h : n < b) : decNat b (.num (n : Int)) = some n := by
  simp only [decNat]
  rw [if_pos (by omega)]
  simp

theorem mapM_decode {A : Type} {enc : A → Option Json} {dec : Json → Option A} : ∀ {l : List A} {js : List Json},
    (∀ a ∈ l, ∀ j, enc a = some j → dec j = some a) → l.mapM enc = some js → js.mapM dec = some l
  | [], js, _, h => by simp at h; subst h; rfl
  | a :: l, js, hd, h => by
    simp only [List.mapM_cons, Option.bind_eq_bind, Option.bind_eq_some_iff, Option.pure_def, Option.some.injEq] at h
    obtain ⟨j, hj, js', hjs, rfl⟩ := h
    simp [hd a (List.mem_cons_self ..) j hj, mapM_decode (fun b hb => hd b (List.mem_cons_of_mem _ hb)) hjs]

theorem mem_of_mapM {A : Type} {enc : A → Option Json} : ∀ {l : List A} {js : List Json},
    l.mapM enc = some js → ∀ j ∈ js, ∃ a ∈ l, enc a = some j
  | [], js, h => by simp at h; subst h; intro j hj; cases hj
  | a :: l, js, h => by
    simp only [List.mapM_cons, Option.bind_eq_bind, Option.bind_eq_some_iff, Option.pure_def, Option.some.injEq] at h
    obtain ⟨j, hj, js', hjs, rfl⟩ := h
    intro j' hm
    rcases List.mem_cons.mp hm with rfl | hm
    · exact ⟨a, List.mem_cons_self .., hj⟩
    · obtain ⟨b, hb, he⟩ := mem_of_mapM hjs j' hm
      exact ⟨b, List.mem_cons_of_mem _ hb, he⟩

theorem decOptNat {b : Nat} {o : Option Nat} (h : ∀ c, o = some c → c < b) :
    decOpt (decNat b) (encOpt (fun (n : Nat) => Json.num n) o) = some o := by
  cases o with
  | none => rfl
  | some c =>
    have := decNat_num (h c rfl)
    simp only [encOpt, decOpt]
    rw [this]; rfl

theorem decLoc_obj (f n c : Json) : decLoc (.obj [(str! "filename", f), (str! "line", n), (str! "column", c)]) =
    (decPath f).bind (fun file => (decNat u32 n).bind (fun line =>
      (decOpt (decNat u32) c).bind (fun column => some ⟨file, line, column⟩))) := rfl

theorem decLoc_enc {x : Loc} (hv : x.Valid) {j : Json} (h : encLoc x = some j) : decLoc j = some x := by
  simp only [encLoc, Option.map_eq_some_iff] at h
  obtain ⟨f, hf, rfl⟩ := h
  have h1 := decPath_enc hf
  have h2 := decNat_num hv.1
  have h3 := decOptNat hv.2
  rw [decLoc_obj, h1, h2, h3]
  rfl

theorem decUsage_enc {u : Usage} (hv : ∀ x ∈ u.locations, x.Valid) {j : Json} (h : encUsage u = some j) :
    decUsage j = some u := by
  simp only [encUsage, Option.map_eq_some_iff] at h
  obtain ⟨ls, hl, rfl⟩ := h
  have h1 := mapM_decode (dec := decLoc) (fun x hx j hj => decLoc_enc (hv x hx) hj) hl
  have : decUsage (.obj [(str! "crate_sel", encCrate u.crate), (str! "locations", .arr ls)]) =
      (decCrate (encCrate u.crate)).bind (fun c => (ls.mapM decLoc).bind (fun ls => some ⟨c, ls⟩)) := rfl
  rw [this, h1, decCrate_enc]
  rfl

theorem decLink_enc {x : Link} {j : Json} (h : encLink x = some j) : decLink j = some x := by
  simp only [encLink, Option.map_eq_some_iff, Option.bind_eq_some_iff] at h
  obtain ⟨os, ho, o, hout, rfl⟩ := h
  have h1 := mapM_decode (dec := decPath) (fun x _ j hj => decPath_enc hj) ho
  have h2 := decPath_enc hout
  have : decLink (.obj [(str! "crate_sel", encCrate x.crate), (str! "object_paths", .arr os), (str! "output_file", o),
      (str! "is_shared", .bool x.isShared)]) =
      (decCrate (encCrate x.crate)).bind (fun c => (os.mapM decPath).bind (fun os => (decPath o).bind (fun o =>
        some ⟨c, os, o, x.isShared⟩))) := rfl
  rw [this, h1, h2, decCrate_enc]
  rfl

theorem decBinOut_enc {x : BinOut} (hv : (Request.binComplete x).Valid) {j : Json} (h : encBinOut x = some j) :
    decBinOut j = some x := by
  simp only [encBinOut, Option.map_eq_some_iff] at h
  obtain ⟨b, hb, rfl⟩ := h
  obtain ⟨v1, v2, v3, v4⟩ := hv
  have h1 := decPath_enc hb
  have h2 : decOpt decStr (encOpt .str x.display) = some x.display :=
    decOpt_encOpt (A := Str) (fun _ => rfl) (by intro a h; cases h) x.display
  have h3 : decInt (-2 ^ 31) (2 ^ 31) (.num x.exitCode) = some x.exitCode := by
    simp only [decInt]; rw [if_pos ⟨v3, v4⟩]
  have : decBinOut (.obj [(str! "exit_code", .num x.exitCode), (str! "stdout", encBytes x.stdout), (str! "stderr", encBytes x.stderr),
      (str! "crate_sel", encCrate x.crate), (str! "sandbox_config", encSandbox x.sandbox), (str! "binary_path", b),
      (str! "sandbox_config_display", encOpt .str x.display)]) =
      (decInt (-2 ^ 31) (2 ^ 31) (.num x.exitCode)).bind (fun exitCode =>
      (decList (decNat 256) (encBytes x.stdout)).bind (fun stdout =>
      (decList (decNat 256) (encBytes x.stderr)).bind (fun stderr =>
      (decCrate (encCrate x.crate)).bind (fun crate =>
      (decSandbox (encSandbox x.sandbox)).bind (fun sandbox =>
      (decPath b).bind (fun binary =>
      (decOpt decStr (encOpt .str x.display)).bind (fun display =>
        some { exitCode, stdout, stderr, crate, sandbox, binary, display }))))))) := rfl
  rw [this, h1, h2, h3, decBytes v1, decBytes v2, decCrate_enc, decSandbox_enc]
  rfl

theorem decRustcOut_enc {x : RustcOut} {j : Json} (h : encRustcOut x = some j) : decRustcOut j = some x := by
  simp only [encRustcOut, Option.map_eq_some_iff] at h
  obtain ⟨ps, hp, rfl⟩ := h
  have h1 := mapM_decode (dec := decPath) (fun x _ j hj => decPath_enc hj) hp
  have : decRustcOut (.obj [(str! "crate_sel", encCrate x.crate), (str! "source_paths", .arr ps)]) =
      (decCrate (encCrate x.crate)).bind (fun c => (ps.mapM decPath).bind (fun ps => some ⟨c, ps⟩)) := rfl
  rw [this, h1, decCrate_enc]
  rfl

theorem decRequest_enc {r : Request} (hv : r.Valid) {j : Json} (h : encRequest r = some j) : decRequest j = some r := by
  cases r with
  | usesUnsafe u =>
    simp only [encRequest, Option.map_eq_some_iff] at h
    obtain ⟨i, hi, rfl⟩ := h
    have : decRequest (variant (str! "CrateUsesUnsafe") i) = (decUsage i).map .usesUnsafe := rfl
    rw [this, decUsage_enc hv hi]; rfl
  | usesExtern u =>
    simp only [encRequest, Option.map_eq_some_iff] at h
    obtain ⟨i, hi, rfl⟩ := h
    have : decRequest (variant (str! "CrateUsesExtern") i) = (decUsage i).map .usesExtern := rfl
    rw [this, decUsage_enc hv hi]; rfl
  | linkerInvoked l =>
    simp only [encRequest, Option.map_eq_some_iff] at h
    obtain ⟨i, hi, rfl⟩ := h
    have : decRequest (variant (str! "LinkerInvoked") i) = (decLink i).map .linkerInvoked := rfl
    rw [this, decLink_enc hi]; rfl
  | binComplete b =>
    simp only [encRequest, Option.map_eq_some_iff] at h
    obtain ⟨i, hi, rfl⟩ := h
    have : decRequest (variant (str! "BinExecutionComplete") i) = (decBinOut i).map .binComplete := rfl
    rw [this, decBinOut_enc hv hi]; rfl
  | rustcStarted c =>
    simp only [encRequest, Option.some.injEq] at h
    subst h
    have : decRequest (variant (str! "RustcStarted") (encCrate c)) = (decCrate (encCrate c)).map .rustcStarted := rfl
    rw [this, decCrate_enc]; rfl
  | rustcComplete x =>
    simp only [encRequest, Option.map_eq_some_iff] at h
    obtain ⟨i, hi, rfl⟩ := h
    have : decRequest (variant (str! "RustcComplete") i) = (decRustcOut i).map .rustcComplete := rfl
    rw [this, decRustcOut_enc hi]; rfl

/-! ## Numbers and nesting -/

/-- The numbers are in range and the nesting is at most `n`. -/
def Fits (n : Nat) (j : Json) : Prop := Ok j ∧ depth j ≤ n

theorem Fits.mono {m n : Nat} {j : Json} (h : Fits m j) (hmn : m ≤ n) : Fits n j := ⟨h.1, by have := h.2; omega⟩
theorem fits_str (n : Nat) (s : Str) : Fits n (.str s) := ⟨by simp [Ok], by simp [depth]⟩
theorem fits_bool (n : Nat) (b : Bool) : Fits n (.bool b) := ⟨by simp [Ok], by simp [depth]⟩
theorem fits_null (n : Nat) : Fits n .null := ⟨by simp [Ok], by simp [depth]⟩
theorem fits_num (n : Nat) {i : Int} (h : -2 ^ 63 ≤ i ∧ i < 2 ^ 64) : Fits n (.num i) := ⟨by simpa [Ok] using h, by simp [depth]⟩

theorem fits_arr {n : Nat} {l : List Json} (h : ∀ j ∈ l, Fits n j) : Fits (n + 1) (.arr l) := by
  have : OkElems l ∧ depthElems l ≤ n := by
    induction l with
    | nil => simp [OkElems, depthElems]
    | cons j l ih =>
      obtain ⟨h1, h2⟩ := ih (fun i hi => h i (List.mem_cons_of_mem _ hi))
      obtain ⟨h3, h4⟩ := h j (List.mem_cons_self ..)
      exact ⟨by simp [OkElems, h1, h3], by simp only [depthElems]; omega⟩
  exact ⟨by simpa [Ok] using this.1, by simp only [depth]; omega⟩

theorem fits_obj {n : Nat} {l : List (Str × Json)} (h : ∀ e ∈ l, Fits n e.2) : Fits (n + 1) (.obj l) := by
  have : OkFields l ∧ depthFields l ≤ n := by
    induction l with
    | nil => simp [OkFields, depthFields]
    | cons e l ih =>
      obtain ⟨k, j⟩ := e
      obtain ⟨h1, h2⟩ := ih (fun i hi => h i (List.mem_cons_of_mem _ hi))
      obtain ⟨h3, h4⟩ := h (k, j) (List.mem_cons_self ..)
      simp only at h3 h4
      exact ⟨by simp [OkFields, h1, h3], by simp only [depthFields]; omega⟩
  exact ⟨by simpa [Ok] using this.1, by simp only [depth]; omega⟩

theorem fits_opt {A : Type} {n : Nat} {enc : A → Json} (h : ∀ a, Fits n (enc a)) (o : Option A) : Fits n (encOpt enc o) := by
  cases o with
  | none => exact fits_null n
  | some a => exact h a

theorem fits_strs (n : Nat) (l : List Str) : Fits (n + 1) (encStrs l) := by
  refine fits_arr ?_
  intro j hj
  obtain ⟨s, _, rfl⟩ := List.mem_map.mp hj
  exact fits_str n s

theorem fits_bytes (n : Nat) {l : List Nat} (h : ∀ b ∈ l, b < 256) : Fits (n + 1) (encBytes l) := by
  refine fits_arr ?_
  intro j hj
  obtain ⟨b, hb, rfl⟩ := List.mem_map.mp hj
  exact fits_num n (by have := h b hb; omega)

theorem fits_path {n : Nat} {p : OsPath} {j : Json} (h : encPath p = some j) : Fits n j := by
  cases p with
  | utf8 s => cases h; exact fits_str n s
  | other b => cases h

theorem fits_crate (c : CrateSel) : Fits 2 (encCrate c) := by
  refine fits_obj ?_
  simp only [List.mem_cons, List.not_mem_nil, or_false, forall_eq_or_imp, forall_eq]
  refine ⟨fits_obj ?_, ?_⟩
  · simp only [List.mem_cons, List.not_mem_nil, or_false, forall_eq_or_imp, forall_eq]
    exact ⟨fits_str _ _, fits_str _ _, fits_bool _ _⟩
  · cases c.kind <;> exact fits_str _ _

theorem fits_sandbox (s : Sandbox) : Fits 2 (encSandbox s) := by
  refine fits_obj ?_
  simp only [List.mem_cons, List.not_mem_nil, or_false, forall_eq_or_imp, forall_eq]
  exact ⟨fits_opt (fun k => by cases k <;> exact fits_str _ _) _, fits_strs _ _, fits_opt (fun b => fits_bool _ b) _,
    fits_strs _ _, fits_strs _ _, fits_strs _ _⟩

theorem fits_loc {x : Loc} (hv : x.Valid) {j : Json} (h : encLoc x = some j) : Fits 1 j := by
  simp only [encLoc, Option.map_eq_some_iff] at h
  obtain ⟨f, hf, rfl⟩ := h
  refine fits_obj ?_
  simp only [List.mem_cons, List.not_mem_nil, or_false, forall_eq_or_imp, forall_eq]
  refine ⟨fits_path hf, fits_num _ (by have := hv.1; simp only [u32] at this; omega), ?_⟩
  cases hc : x.column with
  | none => exact fits_null _
  | some c => exact fits_num _ (by have := hv.2 c hc; simp only [u32] at this; omega)

theorem fits_usage {u : Usage} (hv : ∀ x ∈ u.locations, x.Valid) {j : Json} (h : encUsage u = some j) : Fits 3 j := by
  simp only [encUsage, Option.map_eq_some_iff] at h
  obtain ⟨ls, hl, rfl⟩ := h
  refine fits_obj ?_
  simp only [List.mem_cons, List.not_mem_nil, or_false, forall_eq_or_imp, forall_eq]
  refine ⟨fits_crate _, fits_arr ?_⟩
  intro j hj
  obtain ⟨x, hx, he⟩ := mem_of_mapM hl j hj
  exact fits_loc (hv x hx) he

theorem fits_paths {ps : List OsPath} {js : List Json} (h : ps.mapM encPath = some js) : Fits 2 (.arr js) := by
  refine (fits_arr (n := 0) ?_).mono (by omega)
  intro j hj
  obtain ⟨x, _, he⟩ := mem_of_mapM h j hj
  exact fits_path he

theorem fits_request {r : Request} (hv : r.Valid) {j : Json} (h : encRequest r = some j) : Fits 4 j := by
  have hvar : ∀ (n : Str) (i : Json), Fits 3 i → Fits 4 (variant n i) := by
    intro n i hi
    refine fits_obj ?_
    simp only [List.mem_cons, List.not_mem_nil, or_false, forall_eq]
    exact hi
  cases r with
  | usesUnsafe u =>
    simp only [encRequest, Option.map_eq_some_iff] at h
    obtain ⟨i, hi, rfl⟩ := h
    exact hvar _ _ (fits_usage hv hi)
  | usesExtern u =>
    simp only [encRequest, Option.map_eq_some_iff] at h
    obtain ⟨i, hi, rfl⟩ := h
    exact hvar _ _ (fits_usage hv hi)
  | linkerInvoked l =>
    simp only [encRequest, Option.map_eq_some_iff] at h
    obtain ⟨i, hi, rfl⟩ := h
    simp only [encLink, Option.map_eq_some_iff, Option.bind_eq_some_iff] at hi
    obtain ⟨os, ho, o, hout, rfl⟩ := hi
    refine hvar _ _ (fits_obj ?_)
    simp only [List.mem_cons, List.not_mem_nil, or_false, forall_eq_or_imp, forall_eq]
    exact ⟨fits_crate _, fits_paths ho, fits_path hout, fits_bool _ _⟩
  | binComplete b =>
    simp only [encRequest, Option.map_eq_some_iff] at h
    obtain ⟨i, hi, rfl⟩ := h
    simp only [encBinOut, Option.map_eq_some_iff] at hi
    obtain ⟨p, hp, rfl⟩ := hi
    obtain ⟨v1, v2, v3, v4⟩ := hv
    refine hvar _ _ (fits_obj ?_)
    simp only [List.mem_cons, List.not_mem_nil, or_false, forall_eq_or_imp, forall_eq]
    exact ⟨fits_num _ (by omega), fits_bytes _ v1, fits_bytes _ v2, fits_crate _, fits_sandbox _, fits_path hp,
      fits_opt (fun s => fits_str _ s) _⟩
  | rustcStarted c =>
    simp only [encRequest, Option.some.injEq] at h
    subst h
    exact hvar _ _ ((fits_crate c).mono (by omega))
  | rustcComplete x =>
    simp only [encRequest, Option.map_eq_some_iff] at h
    obtain ⟨i, hi, rfl⟩ := h
    simp only [encRustcOut, Option.map_eq_some_iff] at hi
    obtain ⟨ps, hp, rfl⟩ := hi
    refine hvar _ _ (fits_obj ?_)
    simp only [List.mem_cons, List.not_mem_nil, or_false, forall_eq_or_imp, forall_eq]
    exact ⟨fits_crate _, fits_paths hp⟩

/-! ## The configuration for sub-processes -/

theorem decCommon_enc {c : FullCommon} (h : -2 ^ 63 ≤ c.common.version ∧ c.common.version < 2 ^ 63) :
    decCommon (encCommon c) = some c := by
  have h1 : decInt (-2 ^ 63) (2 ^ 63) (.num c.common.version) = some c.common.version := by
    simp only [decInt]; rw [if_pos h]
  have h2 : decOpt (decList decStr) (encOpt encStrs c.cargo.buildFlags) = some c.cargo.buildFlags :=
    decOpt_encOpt decStrs (by intro a h; cases h) _
  have h3 : decOpt decStr (encOpt .str c.cargo.profile) = some c.cargo.profile :=
    decOpt_encOpt (A := Str) (fun _ => rfl) (by intro a h; cases h) _
  have : decCommon (encCommon c) =
      (decInt (-2 ^ 63) (2 ^ 63) (.num c.common.version)).bind (fun version =>
      (decOpt (decList decStr) (encOpt encStrs c.cargo.buildFlags)).bind (fun buildFlags =>
      (decList decStr (encStrs c.common.importStd)).bind (fun importStd =>
      (decList decStr (encStrs c.cargo.features)).bind (fun features =>
      (decOpt decStr (encOpt .str c.cargo.profile)).bind (fun profile =>
        some ⟨{ version, explicitBuildScripts := c.common.explicitBuildScripts, importStd }, { buildFlags, features, profile }⟩))))) := rfl
  rw [this, h1, h2, h3]
  simp only [decStrs, Option.bind_some]

/-- A package configuration without nested sections. -/
def Flat (c : PkgCfg) : Prop := c.build = none ∧ c.test = none ∧ c.from_ = none

theorem decPkgCfg_enc {c : PkgCfg} (h : Flat c) (n : Nat) : decPkgCfg (n + 1) (encPkgCfg c) = some c := by
  obtain ⟨p, b, t, f⟩ := c
  obtain ⟨h1, h2, h3⟩ := h
  simp only [PkgCfg.build, PkgCfg.test, PkgCfg.from_] at h1 h2 h3
  subst h1; subst h2; subst h3
  have h4 : decOpt (decList decStr) (encOpt encStrs p.imports) = some p.imports :=
    decOpt_encOpt decStrs (by intro a h; cases h) _
  have : decPkgCfg (n + 1) (encPkgCfg (.mk p none none none)) =
      (decList decStr (encStrs p.allowBuildInstructions)).bind (fun allowBuildInstructions =>
      (decList decStr (encStrs p.allowApis)).bind (fun allowApis =>
      (decSandbox (encSandbox p.sandbox)).bind (fun sandbox =>
      (decOpt (decList decStr) (encOpt encStrs p.imports)).bind (fun imports =>
        some (.mk ⟨p.allowUnsafe, p.allowExtern, allowBuildInstructions, allowApis, p.allowProcMacro, sandbox, imports⟩
          none none none))))) := rfl
  rw [this, h4, decSandbox_enc]
  simp only [decStrs, Option.bind_some]

theorem fits_pkgCfg {c : PkgCfg} (h : Flat c) : Fits 3 (encPkgCfg c) := by
  obtain ⟨p, b, t, f⟩ := c
  obtain ⟨h1, h2, h3⟩ := h
  simp only [PkgCfg.build, PkgCfg.test, PkgCfg.from_] at h1 h2 h3
  subst h1; subst h2; subst h3
  simp only [encPkgCfg]
  refine fits_obj ?_
  simp only [List.mem_cons, List.not_mem_nil, or_false, forall_eq_or_imp, forall_eq]
  refine ⟨fits_bool _ _, fits_bool _ _, fits_strs _ _, fits_strs _ _, fits_bool _ _, ?_, ?_, ?_, fits_sandbox _,
    fits_opt (fun l => fits_strs _ l) _⟩
  · exact fits_null _
  · exact fits_null _
  · exact fits_null _

theorem decScope_name (s : Scope) : decScope (.str (scopeName s)) = some s := by cases s <;> rfl

theorem decSel_enc (s : PermSel) : decSel (encSel s) = some s := by
  have hf : Fits 1 (.arr [.str s.pkg, .str (scopeName s.scope)]) := by
    refine fits_arr ?_
    simp only [List.mem_cons, List.not_mem_nil, or_false, forall_eq_or_imp, forall_eq]
    exact ⟨fits_str _ _, fits_str _ _⟩
  rw [decSel, encSel, parse_text hf.1 (by have := hf.2; omega)]
  simp only [Option.bind_some, decScope_name]
  rfl

theorem insert_new {K V : Type} [DecidableEq K] : ∀ {m : AMap K V} {k : K} {v : V}, k ∉ m.keys → m.insert k v = m ++ [(k, v)]
  | [], _, _, _ => rfl
  | (k', v') :: m, k, v, h => by
    simp only [AMap.keys, List.map_cons, List.mem_cons, not_or] at h
    simp only [AMap.insert, List.cons_append]
    rw [if_neg (fun e => h.1 e.symm), insert_new h.2]

theorem decMap_enc {m : PermMap} (hn : m.keys.Nodup) (hf : ∀ e ∈ m, Flat e.2) :
    decMap (m.map (fun e => (encSel e.1, encPkgCfg e.2))) = some m := by
  have key : ∀ (m acc : PermMap), (AMap.keys (acc ++ m)).Nodup → (∀ e ∈ m, Flat e.2) →
      (m.map (fun e => (encSel e.1, encPkgCfg e.2))).foldlM (fun (m : PermMap) e =>
        (decSel e.1).bind (fun k => (decPkgCfg 128 e.2).bind (fun c => some (m.insert k c)))) acc = some (acc ++ m) := by
    intro m
    induction m with
    | nil => intro acc _ _; simp
    | cons e m ih =>
      intro acc hn hf
      obtain ⟨k, c⟩ := e
      have hk : k ∉ acc.keys := by
        simp only [AMap.keys, List.map_append, List.map_cons, List.nodup_append] at hn
        intro hm
        exact hn.2.2 k hm k (List.mem_cons_self ..) rfl
      have h1 := decPkgCfg_enc (hf (k, c) (List.mem_cons_self ..)) 127
      simp only at h1
      simp only [List.map_cons, List.foldlM_cons, decSel_enc, h1, Option.bind_some, Option.bind_eq_bind]
      rw [insert_new hk, ih (acc ++ [(k, c)]) (by simpa using hn) (fun e he => hf e (List.mem_cons_of_mem _ he))]
      simp
  exact key m [] (by simpa using hn) hf

theorem decPermissions_enc {m : PermMap} (hn : m.keys.Nodup) (hf : ∀ e ∈ m, Flat e.2) :
    decPermissions (encPermissions m) = some m := decMap_enc hn hf

/-- A configuration that can be written: numbers in range, no nested sections. -/
structure SubConfig.Valid (c : SubConfig) : Prop where
  version : -2 ^ 63 ≤ c.common.common.version ∧ c.common.common.version < 2 ^ 63
  nodup : c.permissions.keys.Nodup
  flat : ∀ e ∈ c.permissions, Flat e.2

theorem deserialise_serialise {c : SubConfig} (h : c.Valid) : deserialise (serialise c) = some c := by
  have hf : Fits 6 (.obj [(str! "common", encCommon c.common), (str! "permissions", encPermissions c.permissions),
      (str! "rustc", encRustc c.rustc)]) := by
    refine fits_obj ?_
    simp only [List.mem_cons, List.not_mem_nil, or_false, forall_eq_or_imp, forall_eq]
    refine ⟨?_, ?_, ?_⟩
    · refine (fits_obj (n := 1) ?_).mono (by omega)
      simp only [List.mem_cons, List.not_mem_nil, or_false, forall_eq_or_imp, forall_eq]
      exact ⟨fits_num _ (by have := h.version; omega), fits_bool _ _, fits_opt (fun l => fits_strs _ l) _, fits_strs _ _,
        fits_strs _ _, fits_opt (fun s => fits_str _ s) _⟩
    · refine fits_obj ?_
      simp only [List.mem_cons, List.not_mem_nil, or_false, forall_eq]
      refine fits_obj ?_
      intro e he
      obtain ⟨x, hx, rfl⟩ := List.mem_map.mp he
      exact fits_pkgCfg (h.flat x hx)
    · refine (fits_obj (n := 2) ?_).mono (by omega)
      simp only [List.mem_cons, List.not_mem_nil, or_false, forall_eq]
      exact fits_sandbox _
  rw [deserialise, serialise, parse_text hf.1 (by have := hf.2; omega)]
  have : (fieldsOf [str! "common", str! "permissions", str! "rustc"] false
      (.obj [(str! "common", encCommon c.common), (str! "permissions", encPermissions c.permissions),
        (str! "rustc", encRustc c.rustc)])).bind (fun l =>
      (req l (str! "common") decCommon).bind (fun common =>
      (req l (str! "permissions") decPermissions).bind (fun permissions =>
      (req l (str! "rustc") decRustc).bind (fun rustc => some (⟨common, permissions, rustc⟩ : SubConfig))))) =
      (decCommon (encCommon c.common)).bind (fun common => (decPermissions (encPermissions c.permissions)).bind (fun permissions =>
        (decSandbox (encSandbox c.rustc)).bind (fun rustc => some ⟨common, permissions, rustc⟩))) := rfl
  simp only [Option.bind_some]
  rw [this, decCommon_enc h.version, decPermissions_enc h.nodup h.flat, decSandbox_enc]
  rfl

/-! ## Loaded configurations have no nested sections -/

theorem flat_inherit {c : PkgCfg} (h : Flat c) (o : PkgCfg) : Flat (inheritCfg c o) := h

theorem flat_inheritFrom {c : PkgCfg} (h : Flat c) (m : PermMap) (s : PermSel) : Flat (inheritFrom m s c) := by
  unfold inheritFrom
  split
  · exact flat_inherit h _
  · exact h

theorem flat_loaded {raw : Raw} (hv : validate raw = []) (idx : List IdxPkg) : ∀ e ∈ withInheritance raw idx, Flat e.2 := by
  have h0 : ∀ e ∈ fromConfig raw, Flat e.2 := by
    intro e he
    unfold validate at hv
    rw [List.append_eq_nil_iff, List.flatMap_eq_nil_iff] at hv
    have := (checkEntry_nil _ e).mp (hv.2 e he)
    exact this.2.2
  have hins : ∀ (m : PermMap) (k : PermSel) (v : PkgCfg), (∀ e ∈ m, Flat e.2) → Flat v → ∀ e ∈ m.insert k v, Flat e.2 := by
    intro m k v hm hfv
    induction m with
    | nil => intro e he; simp [AMap.insert] at he; subst he; exact hfv
    | cons x m ih =>
      obtain ⟨a, b⟩ := x
      simp only [AMap.insert]
      split
      · intro e he
        rcases List.mem_cons.mp he with rfl | he
        · exact hfv
        · exact hm e (List.mem_cons_of_mem _ he)
      · intro e he
        rcases List.mem_cons.mp he with rfl | he
        · exact hm _ (List.mem_cons_self ..)
        · exact ih (fun e he => hm e (List.mem_cons_of_mem _ he)) e he
  have h1 : ∀ (sels : List PermSel) (m : PermMap), (∀ e ∈ m, Flat e.2) → ∀ e ∈ sels.foldl orDefault m, Flat e.2 := by
    intro sels
    induction sels with
    | nil => intro m h; exact h
    | cons s sels ih =>
      intro m h
      refine ih _ ?_
      unfold orDefault
      split
      · exact h
      · exact hins m s _ h ⟨rfl, rfl, rfl⟩
  have h2 := h1 (indexSelectors idx) (fromConfig raw) h0
  intro e he
  simp only [withInheritance, applyInheritance] at he
  rcases List.mem_append.mp he with he | he
  · rcases List.mem_append.mp he with he | he
    · obtain ⟨x, hx, rfl⟩ := List.mem_map.mp he
      exact flat_inherit (h2 x (List.mem_filter.mp hx).1) _
    · obtain ⟨x, hx, rfl⟩ := List.mem_map.mp he
      exact flat_inheritFrom (h2 x (List.mem_filter.mp hx).1) _ _
  · obtain ⟨x, hx, rfl⟩ := List.mem_map.mp he
    exact flat_inheritFrom (h2 x (List.mem_filter.mp hx).1) _ _

theorem fromFull_valid {raw : Raw} (hv : validate raw = []) (cargo : Cargo.Common) (idx : List IdxPkg) :
    (fromFull raw cargo idx).Valid where
  version := by
    simp only [fromFull]
    unfold validate at hv
    rw [List.append_eq_nil_iff] at hv
    have := hv.1
    split at this
    · cases this
    · rename_i h
      simp only [maxVersion] at h
      omega
  nodup := withInheritance_nodup raw idx
  flat := flat_loaded hv idx

end Cackle.Messages
