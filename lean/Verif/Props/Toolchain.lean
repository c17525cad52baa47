import Verif.Model.Toolchain
import Verif.Props.Std
import Verif.Props.RootPath

/-!
# C171: cargo, the compiler and the standard library of a run are of one toolchain
-/

namespace Cackle.Toolchain
open Cackle
open Cackle.ConfigFile

/-! ## Specification -/

/-- What rustup knows. Directories are lists of names, the innermost first. -/
structure Rustup where
  /-- The variable `RUSTUP_TOOLCHAIN`. It is set if cackle is started as `cargo acl` by rustup's cargo. -/
  env : Option Str
  /-- The toolchain that is chosen for a directory (`rust-toolchain.toml`, `rustup override`). -/
  choice : List Str → Option Str
  /-- The default toolchain. -/
  dflt : Str
  /-- Where the toolchains are. -/
  home : Str → Str

/-- The toolchain that is chosen for the innermost of the directories around a directory. -/
def Rustup.around (r : Rustup) : List Str → Option Str
  | [] => r.choice []
  | c :: rest => (r.choice (c :: rest)).or (r.around rest)

/-- The toolchain of whatever is run in a directory (rustup book, "Overrides"). -/
def Rustup.of (r : Rustup) (dir : List Str) : Str := r.env.getD ((r.around dir).getD r.dflt)

/-- The compiler of a toolchain. -/
def Rustup.rustc (r : Rustup) (t : Str) : Str := r.home t ++ str! "/bin/rustc"

/-- Toolchains are kept in directories whose name begins and ends as it is written. -/
def Rustup.Ok (r : Rustup) : Prop := ∀ t, ∃ s, r.home t = '/' :: s ∧ ∀ c, (r.home t).getLast? = some c → Basic.isSpace c = false

/-- A run: where cackle is started, the value of `--path`, and the directory of the project. -/
structure Run (r : Rustup) where
  cwd : List Str
  path : Option (List Str)
  hasManifest : List Str → Bool
  root : List Str
  found : rootPath path (some cwd) hasManifest = some root

/-- All that is run by cackle is of the toolchain of which cargo is, which is run in the directory of the project (proxy.rs:123-129,
proxy/cargo.rs:34). -/
structure OneToolchain (r : Rustup) (run : Run r) : Prop where
  compiler : rustcPath (some (true, some (r.rustc (r.of run.cwd) ++ ['\n']))) (fun _ => true) = some (r.rustc (r.of run.root))
  library : Std.determineSysroot ⟨some 0, r.home (r.of run.root) ++ ['\n']⟩ = pathOf (r.home (r.of run.root))

/-- The English claim C171. -/
def C171_Claim : Prop := ∀ (r : Rustup) (run : Run r), r.Ok → OneToolchain r run

/-! ## C171 -/

theorem trim_home {r : Rustup} (h : r.Ok) (t : Str) : Basic.trim (r.home t ++ ['\n']) = r.home t := by
  obtain ⟨s, h1, h2⟩ := h t
  refine Std.trim_line ?_ h2
  intro c hc
  rw [h1] at hc
  cases hc
  decide

theorem trim_rustc {r : Rustup} (h : r.Ok) (t : Str) : Basic.trim (r.rustc t ++ ['\n']) = r.rustc t := by
  obtain ⟨s, h1, -⟩ := h t
  unfold Rustup.rustc
  refine Std.trim_line ?_ ?_
  · intro c hc
    rw [h1] at hc
    cases hc
    decide
  · intro c hc
    rw [List.getLast?_append] at hc
    cases hc
    decide

/-- What is run is the compiler of the directory in which cackle was started, and the standard library is that of the project. -/
theorem C171_compiler (r : Rustup) (run : Run r) (h : r.Ok) :
    (OneToolchain r run ↔ r.rustc (r.of run.cwd) = r.rustc (r.of run.root)) ∧
      Std.determineSysroot ⟨some 0, r.home (r.of run.root) ++ ['\n']⟩ = pathOf (r.home (r.of run.root)) := by
  have h2 : Std.determineSysroot ⟨some 0, r.home (r.of run.root) ++ ['\n']⟩ = pathOf (r.home (r.of run.root)) := by
    unfold Std.determineSysroot
    simp only [trim_home h]
  have h1 : rustcPath (some (true, some (r.rustc (r.of run.cwd) ++ ['\n']))) (fun _ => true) = some (r.rustc (r.of run.cwd)) := by
    simp only [rustcPath, rustupRustcPath, trim_rustc h, if_true]
  exact ⟨⟨fun ho => Option.some.inj (h1.symm.trans ho.compiler), fun he => ⟨by rw [h1, he], h2⟩⟩, h2⟩

theorem around_between {r : Rustup} {root : List Str} : ∀ (pre : List Str),
    (∀ d, Contains root d → Contains d (pre ++ root) → d ≠ root → r.choice d = none) →
    r.around (pre ++ root) = r.around root
  | [], _ => rfl
  | c :: pre, h => by
    have h1 : r.choice (c :: (pre ++ root)) = none := by
      refine h _ ⟨c :: pre, rfl⟩ (contains_refl _) fun e => ?_
      have := congrArg List.length e
      simp at this
      omega
    show (r.choice (c :: (pre ++ root))).or (r.around (pre ++ root)) = _
    rw [h1, Option.none_or]
    exact around_between pre fun d h2 ⟨q, h3⟩ h4 => h d h2 ⟨c :: q, by rw [List.cons_append, h3]; rfl⟩ h4

/-- **C171 (partial).** The claim if the toolchain is given by the environment (as it is for `cargo acl`), and also if cackle is
started inside of the project and no toolchain is chosen for a directory between. Missing: a project that is named by `--path`, and
chosen toolchains inside of the project, see `C171_path`. -/
theorem C171_toolchain_partial (r : Rustup) (run : Run r) (h : r.Ok)
    (hc : r.env.isSome = true ∨ run.path = none ∧
      ∀ d, Contains run.root d → Contains d run.cwd → d ≠ run.root → r.choice d = none) : OneToolchain r run := by
  refine (C171_compiler r run h).1.mpr ?_
  rcases hc with hc | ⟨hp, hc⟩
  · unfold Rustup.of
    cases he : r.env with
    | none => rw [he] at hc; cases hc
    | some t => rfl
  · have hf := run.found
    rw [hp] at hf
    obtain ⟨pre, e⟩ := ((C142_partial run.hasManifest run.cwd).1 run.root).mp hf |>.contains
    unfold Rustup.of
    rw [e] at hc ⊢
    rw [around_between pre hc]

/-- Without rustup, or if it does not know a compiler, the compiler is the `rustc` that the search path gives to the wrapper. -/
theorem C171_no_rustup (ex : Str → Bool) (out : Option Str) :
    rustcPath none ex = some (str! "rustc") ∧ rustcPath (some (false, out)) ex = some (str! "rustc") := ⟨rfl, rfl⟩

private def exRustup (env : Option Str) : Rustup where
  env := env
  choice := fun d => if d = [str! "old"] then some (str! "1.70") else none
  dflt := str! "stable"
  home := fun t => str! "/r/" ++ t ++ str! "-x"

theorem exRustup_ok (env : Option Str) : (exRustup env).Ok := by
  intro t
  refine ⟨_, rfl, fun c hc => ?_⟩
  have : (str! "/r/" ++ t ++ str! "-x").getLast? = some c := hc
  rw [List.getLast?_append] at this
  cases this
  decide

/-- **C171, disagreement.** The project `/old` has chosen an old toolchain, and cackle is started (not by cargo) in `/new` with
`--path /old`: the project is compiled by the default compiler, and cargo and the standard library that cackle expects are those of
the old toolchain. -/
theorem C171_path : ¬ C171_Claim := by
  intro h
  have := (h (exRustup none) ⟨[str! "new"], some [str! "old"], fun _ => true, [str! "old"], rfl⟩ (exRustup_ok none)).compiler
  revert this
  decide

/-! Non-vacuity: a start in `/old/src`. -/
example : (exRustup none).around [str! "src", str! "old"] = some (str! "1.70") := by decide
example : OneToolchain (exRustup none) ⟨[str! "src", str! "old"], none, fun d => d = [str! "old"], [str! "old"], by decide⟩ := by
  refine C171_toolchain_partial _ _ (exRustup_ok none) (.inr ⟨rfl, fun d _ _ hne => ?_⟩)
  simp only [exRustup]
  exact if_neg hne

end Cackle.Toolchain
