import Verif.Model.BuildScript

/-!
# Model of `src/deps.rs`

The file system is a parameter: `read` gives the text of a file (`none`: the read fails) and `canon` is
`Path::canonicalize` (`none`: it fails, for example because the file does not exist).
-/

namespace Cackle.Deps
open Cackle BuildScript

/-- `unescape_makefile_path` (deps.rs:38-55). -/
def unescape : Str → Str
  | [] => []
  | ['\\'] => ['\\']
  | '\\' :: c :: rest => c :: unescape rest
  | c :: rest => c :: unescape rest

/-- `str::strip_suffix(':')`. -/
def stripColon (line : Str) : Option Str :=
  if line.getLast? = some ':' then some line.dropLast else none

/-- `parse_deps` (deps.rs:26-36). -/
def parseDeps (text : Str) : List Str :=
  (lines text).filterMap (fun line => (stripColon line).map unescape)

/-- The state of `deps_path_from_rustc_args` (deps.rs:58-61). -/
structure ArgState where
  crateName : Option Str := none
  extra : Str := []
  outDir : Option Str := none
  emit : Bool := false

/-- Whether `needle` occurs in a text (`str::contains`). -/
def contains (needle : Str) : Str → Bool
  | [] => needle.isEmpty
  | c :: rest => startsWith (c :: rest) needle || contains needle rest

/-- The loop of `deps_path_from_rustc_args` (deps.rs:62-83); `none` is the error for an option without
its argument. -/
def argLoop : List Str → ArgState → Option ArgState
  | [], s => some s
  | a :: rest, s =>
    if a = str! "-C" then
      match rest with
      | [] => none
      | v :: rest =>
        match stripPrefix (str! "extra-filename=") v with
        | some x => argLoop rest { s with extra := x }
        | none => argLoop rest s
    else if a = str! "--out-dir" then
      match rest with
      | [] => none
      | v :: rest => argLoop rest { s with outDir := some v }
    else if a = str! "--crate-name" then
      match rest with
      | [] => none
      | v :: rest => argLoop rest { s with crateName := some v }
    else if startsWith a (str! "--emit=") then argLoop rest { s with emit := contains (str! "dep-info") a }
    else argLoop rest s

/-- `deps_path_from_rustc_args` (deps.rs:57-92): `none` is an error, `some none` no dep-info. The path is
the directory and the file name. -/
def depsPath (args : List Str) : Option (Option (Str × Str)) :=
  match argLoop args {} with
  | none => none
  | some s =>
    if s.emit then
      match s.crateName, s.outDir with
      | some n, some d => some (some (d, n ++ s.extra ++ str! ".d"))
      | _, _ => none
    else some none

/-- `source_files_from_rustc_args` (deps.rs:12-24). -/
def sourceFiles (read : Str × Str → Option Str) (canon : Str → Option Str) (args : List Str) :
    Option (List Str) :=
  match depsPath args with
  | none => none
  | some none => some []
  | some (some p) => (read p).map (fun text => (parseDeps text).filterMap canon)

end Cackle.Deps
