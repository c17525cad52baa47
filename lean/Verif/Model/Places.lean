import Verif.Model.UsageList
import Verif.Model.Report
import Verif.Model.Backtrace

/-!
# Model of the rows of the list of usages, the details of a package (`src/ui/full_term/problems_ui.rs`) and the frames of a backtrace

What is left of a path after stripping a prefix is shown here as its components with `/` between them; Rust shows the text of the
rest, which is the same unless the file name has superfluous separators. File names that are not UTF-8 are left out.
-/

namespace Cackle.Ui
open Cackle

/-- `filename.strip_prefix(pkg_dir)`, or the file name if that fails (problems_ui.rs:1035-1040, 1054-1059). -/
def shownFile (pkgDir : Option Str) (file : Str) : Str :=
  match pkgDir with
  | none => file
  | some d =>
    if (pathOf d).isPrefixOf (pathOf file) then joinWith (str! "/") ((pathOf file).drop (pathOf d).length) else file

/-- `DisplayUsage::list_display` (problems_ui.rs:1008-1010, 1030-1041, 1049-1060). -/
def Place.row (env : Report.Names) (pkgDir : Option Str) : Place → Str
  | .usage u => env.sym u.from_ ++ str! " -> " ++ env.sym u.toSource
  | .unsafeAt l => shownFile pkgDir l.file ++ ':' :: Wire.decimal l.line
  | .externAt l => shownFile pkgDir l.file ++ ':' :: Wire.decimal l.line

/-- `SourceLocation::with_sysroot` (location.rs:35-46); the file name of the result is given by its components. -/
def withSysroot (sysroot file : PathC) : PathC :=
  if (pathOf (str! "/rustc/")).isPrefixOf file then sysroot ++ pathOf (str! "lib/rustlib/src/rust") ++ file.drop 3 else file

/-- What `addr2line` says about a frame: the name of the function and the place. -/
abbrev RawFrame := Option Str × Option (PathC × Nat × Option Nat)

/-- `struct Frame` (backtrace.rs:21-26). -/
structure Frame where
  name : Str
  place : Option (PathC × Nat × Option Nat)
  inlined : Bool
deriving DecidableEq

/-- The frame that is pushed (backtrace.rs:75-84, 91-95). -/
def newFrame (env : Report.Names) (sysroot : PathC) (f : RawFrame) : Frame :=
  ⟨(f.1.map env.demangle).getD (str! "??"), f.2.map (fun l => (withSysroot sysroot l.1, l.2)), false⟩

/-- `backtrace.last_mut().unwrap().inlined = true` (backtrace.rs:89). -/
def markLast (fs : List Frame) : List Frame :=
  match fs.getLast? with
  | none => fs
  | some f => fs.dropLast ++ [{ f with inlined := true }]

/-- The loop over the frames at one address (backtrace.rs:72-96). -/
def addFrames (env : Report.Names) (sysroot : PathC) : Bool → List Frame → List RawFrame → List Frame
  | _, acc, [] => acc
  | true, acc, f :: fs => addFrames env sysroot false (acc ++ [newFrame env sysroot f]) fs
  | false, acc, f :: fs => addFrames env sysroot false (markLast acc ++ [newFrame env sysroot f]) fs

/-- The loop over the addresses (backtrace.rs:69-98). `find` is `ctx.find_frames`; that it fails is left out. -/
def frames (env : Report.Names) (sysroot : PathC) (find : Nat → List RawFrame) (addresses : List Nat) : List Frame :=
  addresses.foldl (fun acc a => addFrames env sysroot true acc (find a)) []

/-- `Display` for `Frame` (backtrace.rs:125-133). -/
def Frame.text (f : Frame) : Str := f.name ++ (if f.inlined then str! " (inlined)" else [])

/-- `Problem::pkg_id` (problem.rs:214-235). -/
def pkgOf : Problem → Option Perm.PkgId
  | .message _ => none
  | .missingConfiguration _ => none
  | .usesBuildScript p => some p
  | .disallowedUnsafe c _ => some c.pkgId
  | .disallowedExtern c _ => some c.pkgId
  | .isProcMacro p => some p
  | .disallowedApiUsage u => some u.pkg
  | .offTreeApiUsage u _ => some u.pkg
  | .executionFailed c _ => some c.pkgId
  | .disallowedBuildInstruction p _ => some p
  | .unusedPackageConfig _ => none
  | .unusedAllowApi _ _ => none
  | .selectSandbox => none
  | .importStdApi _ => none
  | .availableApi p _ _ => some p
  | .possibleExportedApi p _ _ => some p
  | .unusedSandboxConfiguration _ => none
  | .newConfigVersionAvailable _ => none

/-- `struct PackageInfo` (crate_index.rs:61-67), as far as it is shown. -/
structure PkgInfo where
  description : Option Str
  documentation : Option Str
  directory : Str

/-- `str::trim_end`, for the white space of ASCII. -/
def trimEnd (s : Str) : Str := (s.reverse.dropWhile (fun c => c = ' ' || c = '\n' || c = '\t' || c = '\r')).reverse

/-- The text of `render_package_details` (problems_ui.rs:621-631). -/
def packageText (info : Option PkgInfo) (p : Perm.PkgId) : Str :=
  match info with
  | none => []
  | some i =>
    (match i.description with
      | none => []
      | some d => str! "Description: " ++ trimEnd d ++ ['\n']) ++
    (str! "Version: " ++ p.version ++ ['\n']) ++
    (match i.documentation with
      | none => []
      | some d => str! "Documentation: " ++ d ++ ['\n']) ++
    (str! "Local path: " ++ i.directory ++ ['\n'])

/-- `render_package_details` (problems_ui.rs:615-637): the title and the text. `infos` is `CrateIndex::package_info`. -/
def State.packageDetails {F C : Type} (infos : Perm.PkgId → Option PkgInfo) (s : State F C) : Option (Str × Str) :=
  match s.selected with
  | none => none
  | some (_, p) =>
    match pkgOf p with
    | none => none
    | some q => some (str! "Details for package " ++ Report.pkgText q, packageText (infos q) q)

/-- The arguments of `cargo` in `package_tree_text` (problems_ui.rs:648-657); `none`: no package is selected. -/
def State.treeArgs {F C : Type} (manifest : Str) (s : State F C) : Option (List Str) :=
  match s.selected with
  | none => none
  | some (_, p) =>
    match pkgOf p with
    | none => none
    | some q => some [str! "tree", str! "--manifest-path", manifest, str! "-i", q.name ++ '@' :: q.version]

end Cackle.Ui
