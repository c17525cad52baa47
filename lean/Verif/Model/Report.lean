import Verif.Model.Problem
import Verif.Model.Path
import Verif.Model.Json

/-!
# Model of the text of a problem: `Display` in `src/problem.rs`, `src/location.rs`, `src/crate_index.rs` and `src/names.rs`

Colours are left out. The demangled form of a symbol (crate `rustc_demangle`) and the captured output of a program
that failed are parameters (`Names`).
-/

namespace Cackle.Report
open Cackle Config Perm

/-- Lexicographic order on lists (`Ord` of slices), given the order on the elements. -/
def lexLt {α : Type} (lt : α → α → Bool) : List α → List α → Bool
  | _, [] => false
  | [], _ :: _ => true
  | a :: as, b :: bs => lt a b || (!lt b a && lexLt lt as bs)

/-- `Ord` of text. The order of the bytes of UTF-8 is the order of the code points. -/
def strLt : Str → Str → Bool := lexLt (fun a b => decide (a.toNat < b.toNat))

/-- The order of the kinds of path components (`std::path::Component`): root, `.`, `..`, others. -/
def rank (c : Str) : Nat := if c = ['/'] then 0 else if c = ['.'] then 1 else if c = ['.', '.'] then 2 else 3

/-- `Ord` of path components. -/
def compLt (a b : Str) : Bool := decide (rank a < rank b) || (decide (rank a = rank b) && strLt a b)

/-- `Ord` of paths: by components. -/
def pathLt (a b : Str) : Bool := lexLt compLt (pathOf a) (pathOf b)

/-- `Ord` of `SymbolOrDebugName` (derived, names.rs:19-41). -/
def symLt : SymOrDebug → SymOrDebug → Bool
  | .symbol a, .symbol b => strLt a b
  | .symbol _, .debugName _ _ => true
  | .debugName _ _, .symbol _ => false
  | .debugName n a, .debugName m b => lexLt strLt n m || (!lexLt strLt m n && strLt a b)

/-- `BTreeMap::entry(k).or_default().push(v)` (problem.rs:427-430, 436). An existing key is kept. -/
def push {K V : Type} (lt : K → K → Bool) (k : K) (v : V) : List (K × List V) → List (K × List V)
  | [] => [(k, [v])]
  | (k', vs) :: rest =>
    if lt k k' then (k, [v]) :: (k', vs) :: rest
    else if lt k' k then (k', vs) :: push lt k v rest
    else (k', vs ++ [v]) :: rest

/-- The loops that fill the maps in `display_usages` (problem.rs:425-431, 435-437). -/
def group {K V : Type} (lt : K → K → Bool) (key : V → K) (vs : List V) : List (K × List V) :=
  vs.foldl (fun m v => push lt (key v) v m) []

/-- What is not modelled of the text: `demangle` is `{:#}` of `rustc_demangle::demangle` (symbol.rs:89-98), `execDetails`
the captured output of a program and the sandbox it ran in (problem.rs:405-415). -/
structure Names where
  demangle : Str → Str
  execDetails : Str → Str

/-- `Display` for `SymbolOrDebugName`, `DebugName` and `Namespace` (names.rs:412-444). -/
def Names.sym (env : Names) : SymOrDebug → Str
  | .symbol s => env.demangle s
  | .debugName ns n => (if ns = [] then [] else joinWith (str! "::") ns ++ str! "::") ++ n

/-- `PermissionScope::config_selector` (permissions.rs:310-318). -/
def selector : Scope → Option Str
  | .all => none
  | .build => some (str! "build")
  | .test => some (str! "test")
  | .fromBuild => some (str! "from.build")
  | .fromTest => some (str! "from.test")

/-- `Display` for `PermSel` (permissions.rs:298-307). -/
def selText (s : PermSel) : Str :=
  match selector s.scope with
  | none => s.pkg
  | some k => s.pkg ++ '.' :: k

/-- The kind in `Display` for `CrateSel` (crate_index.rs:361-365). -/
def kindText : CrateKind → Str
  | .buildScript => str! ".build"
  | .primary => []
  | .test => str! ".test"

/-- `Display` for `CrateSel` (crate_index.rs:358-371). -/
def crateText (c : CrateSel) : Str :=
  c.pkgId.name ++ kindText c.kind ++ (if c.pkgId.nameIsUnique then [] else '[' :: c.pkgId.version ++ str! "]")

/-- `Display` for `PackageId` (crate_index.rs:373-377). -/
def pkgText (p : PkgId) : Str := crateText ⟨p, .primary⟩

/-- Line and column in brackets (location.rs:52-56, problem.rs:441-445). -/
def posText (l : SourceLoc) : Str :=
  '[' :: Wire.decimal l.line ++ (match l.column with
    | none => []
    | some c => ':' :: Wire.decimal c) ++ str! "]"

/-- `Display` for `SourceLocation` (location.rs:50-58). -/
def locText (l : SourceLoc) : Str := l.file ++ ' ' :: posText l

/-- A line written by `display_usages` (problem.rs:433, 439, 441-445), without the line break. -/
inductive Line where
  | file (name : Str)
  | from_ (name : Str)
  | use_ (to : Str) (pos : Str)
deriving DecidableEq

/-- The text of a line (problem.rs:433, 439, 441-445). -/
def Line.text : Line → Str
  | .file s => str! "  " ++ s
  | .from_ s => str! "    " ++ s
  | .use_ to pos => str! "      -> " ++ to ++ ' ' :: pos

/-- The inner loops of `display_usages` (problem.rs:438-446): what is written for one file. -/
def fromLines (env : Names) (us : List ApiUsage) : List Line :=
  (group symLt ApiUsage.from_ us).flatMap (fun g =>
    .from_ (env.sym g.1) :: g.2.map (fun u => .use_ (env.sym u.toSource) (posText u.loc)))

/-- `display_usages` (problem.rs:421-450). -/
def displayUsages (env : Names) (us : List ApiUsage) : List Line :=
  (group pathLt (fun u => u.loc.file) us).flatMap (fun g => .file g.1 :: fromLines env g.2)

/-- `writeln!` for each line. -/
def unlines (ls : List Str) : Str := ls.flatMap (fun l => l ++ ['\n'])

/-- Where a package uses an API (problem.rs:358-368). -/
def scopeText : Scope → Str
  | .all => []
  | .build => str! " in its build script"
  | .test => str! " in its test(s)"
  | .fromBuild => str! " in code included in a build script from another package"
  | .fromTest => str! " in code included in a test from another package"

/-- A quoted name. -/
def quote (s : Str) : Str := '`' :: s ++ ['`']

/-- The first line of `Display` for `BinExecutionFailed` (problem.rs:392-404). -/
def failedText (c : CrateSel) : Str :=
  match c.kind with
  | .primary => str! "Execution of binary for package " ++ quote (pkgText c.pkgId) ++ str! " failed"
  | .buildScript => str! "Build script for package " ++ quote (pkgText c.pkgId) ++ str! " failed"
  | .test => str! "Execution of test for package " ++ quote (pkgText c.pkgId) ++ str! " failed"

/-- `Display` for `Problem` without `#` (problem.rs:269-417). -/
def shortText : Problem → Str
  | .message t => t
  | .newConfigVersionAvailable v => str! "Newer config version " ++ Json.showInt v ++ str! " is available"
  | .disallowedUnsafe c _ => quote (crateText c) ++ str! " uses unsafe"
  | .disallowedExtern c _ => quote (crateText c) ++ str! " uses extern"
  | .usesBuildScript p => quote (pkgText p) ++ str! " has a build script"
  | .isProcMacro p => quote (pkgText p) ++ str! " is a proc macro"
  | .disallowedApiUsage u =>
    quote (pkgText u.pkg) ++ str! " uses the " ++ quote u.api ++ str! " API" ++ scopeText u.scope
  | .offTreeApiUsage u r =>
    quote (pkgText u.pkg) ++ str! " uses " ++ quote u.api ++ str! " API from non-dependency " ++ quote (pkgText r)
  | .executionFailed c _ => failedText c
  | .disallowedBuildInstruction p i => pkgText p ++ str! "'s build script emitted disallowed instruction " ++ quote i
  | .unusedPackageConfig s => str! "Config supplied for package " ++ quote (selText s) ++ str! " not in dependency tree"
  | .unusedAllowApi s _ => quote (str! "pkg." ++ selText s) ++ str! " allows APIs that aren't used"
  | .missingConfiguration p => str! "Config file " ++ quote p ++ str! " not found"
  | .selectSandbox => str! "Select sandbox kind"
  | .importStdApi a => str! "Optionally import std API " ++ quote a
  | .availableApi p a _ => str! "Package " ++ quote (pkgText p) ++ str! " exports API " ++ quote a
  | .possibleExportedApi p a _ => str! "Package " ++ quote (pkgText p) ++ str! " may provide API " ++ quote a
  | .unusedSandboxConfiguration s => str! "Having a sandbox configuration for " ++ quote (selText s) ++
      str! " doesn't make sense. Perhaps you meant to configure " ++ quote (selText s ++ str! ".build.sandbox")

/-- `Display` for `Problem` with `#` (problem.rs:269-417). -/
def longText (env : Names) : Problem → Str
  | .disallowedUnsafe c ls => shortText (.disallowedUnsafe c ls) ++ '\n' :: unlines (ls.map locText)
  | .disallowedExtern c ls => shortText (.disallowedExtern c ls) ++ '\n' :: unlines (ls.map locText)
  | .disallowedApiUsage u =>
    '\'' :: pkgText u.pkg ++ str! "' uses disallowed API " ++ quote u.api ++
      '\n' :: unlines ((displayUsages env u.usages).map Line.text)
  | .offTreeApiUsage u r =>
    shortText (.offTreeApiUsage u r) ++ '\n' :: unlines ((displayUsages env u.usages).map Line.text)
  | .executionFailed c o => failedText c ++ '\n' :: env.execDetails o
  | .unusedAllowApi s apis =>
    shortText (.unusedAllowApi s apis) ++ ':' :: '\n' :: unlines (apis.map (fun a => str! "    " ++ a))
  | .possibleExportedApi p a sym => str! "Package " ++ quote (pkgText p) ++ str! " provides symbol " ++
      quote (env.demangle sym) ++ str! ". A top-level module has the same name as the API " ++ quote a ++
      str! ". If this module is public (we can't tell), then consider adjusting the API includes."
  | p => shortText p

end Cackle.Report
