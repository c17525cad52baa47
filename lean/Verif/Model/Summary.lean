import Verif.Model.Permissions

/-!
# Model of `src/summary.rs`

`PermMap` is `config.permissions.packages` after inheritance. The package identities are the keys of
`crate_index.package_infos` in the iteration order of that hash map, which is arbitrary. Printed text is a
list of lines; the JSON output is a map from the names of its sections to their values (the text that
`serde_json` makes of it is not modelled).
-/

namespace Cackle.Summary
open Cackle Perm Config

/-- `struct PackageSummary` (summary.rs:60-64). The selector is always that of the package itself, whose
text is the package's name (permissions.rs:298-307). -/
structure Entry where
  name : Str
  permissions : List Str
deriving DecidableEq

/-- Body of the inner loop of `Summary::new` (summary.rs:87-100). -/
def permTexts (m : PermMap) (sel : PermSel) (suffix : Str) : List Str :=
  match m.get? sel with
  | none => []
  | some c =>
    (if c.perms.allowProcMacro then [str! "proc_macro" ++ suffix] else []) ++
    ((if c.perms.allowUnsafe then [str! "unsafe" ++ suffix] else []) ++
    ((if c.perms.allowExtern then [str! "extern" ++ suffix] else []) ++
    c.perms.allowApis.map (fun a => a ++ suffix)))

/-- What is added to permissions of build scripts (summary.rs:86). -/
def buildSuffix : Str := str! "[build]"

/-- The entry of one package (summary.rs:82-106). -/
def entryFor (m : PermMap) (id : PkgId) : Entry :=
  ⟨id.name, permTexts m ⟨id.name, .all⟩ [] ++ permTexts m ⟨id.name, .build⟩ buildSuffix⟩

/-- Insertion into a list sorted by name. -/
def insertEntry (a : Entry) : List Entry → List Entry
  | [] => [a]
  | b :: bs => if strLe a.name b.name then a :: b :: bs else b :: insertEntry a bs

/-- `Summary::new` (summary.rs:77-111); `sort_by` is a stable sort. -/
def summarize (m : PermMap) (ids : List PkgId) : List Entry :=
  (ids.map (entryFor m)).foldr insertEntry []

/-- `str::starts_with`. -/
def startsWith : Str → Str → Bool
  | _, [] => true
  | [], _ :: _ => false
  | c :: s, p :: ps => c = p && startsWith s ps

/-- `str::ends_with`. -/
def endsWith (s suffix : Str) : Bool := startsWith s.reverse suffix.reverse

/-- `is_proc_macro_with_other_permissions` (summary.rs:67-73). -/
def Entry.impure (e : Entry) : Bool :=
  e.permissions.any (fun p => startsWith p (str! "proc_macro")) &&
    e.permissions.any (fun p => !startsWith p (str! "proc_macro") && !endsWith p buildSuffix)

/-- The numbers printed by `Display for Summary` (summary.rs:280-301). -/
structure Counts where
  packages : Nat
  noSpecial : Nat
  impure : Nat
deriving DecidableEq

/-- `Display for Summary` (summary.rs:280-301). -/
def counts (s : List Entry) : Counts :=
  ⟨s.length, (s.filter (fun e => e.permissions.isEmpty)).length, (s.filter Entry.impure).length⟩

/-- `enum OutputFormat` (summary.rs:19-25). -/
inductive Format where
  | human | json
deriving DecidableEq

/-- `struct SummaryOptions` (summary.rs:27-58). -/
structure Options where
  byPackage : Bool := false
  byPermission : Bool := false
  impureProcMacros : Bool := false
  counts : Bool := false
  full : Bool := false
  printHeaders : Bool := false
  format : Format := .human
deriving DecidableEq

/-- `num_selected` (summary.rs:259-277). -/
def Options.numSelected (o : Options) : Nat :=
  if o.full then 2
  else (if o.byPackage then 1 else 0) + (if o.counts then 1 else 0) +
    (if o.byPermission then 1 else 0) + (if o.impureProcMacros then 1 else 0)

/-- `with_defaults` (summary.rs:239-256). -/
def Options.withDefaults (o : Options) : Options :=
  let u := match o.numSelected with
    | 0 => { o with full := true, printHeaders := true }
    | 1 => o
    | _ => { o with printHeaders := true }
  if u.full then
    { u with byPackage := true, byPermission := true, impureProcMacros := true, counts := true }
  else u

/-- A line `name: a, b` (summary.rs:165, 183, 209). -/
def line (name : Str) (items : List Str) : Str := name ++ str! ": " ++ joinWith (str! ", ") items

/-- `by_permission.entry(perm).or_default().push(name)` (summary.rs:202-205). -/
def push (m : AMap Str (List Str)) (perm name : Str) : AMap Str (List Str) :=
  m.insert perm ((m.get? perm).getD [] ++ [name])

/-- The map built by `print_by_permission` and `json_print_by_permission` (summary.rs:199-207, 214-222);
in the code its keys are sorted. -/
def byPermission (s : List Entry) : AMap Str (List Str) :=
  s.foldl (fun m e => e.permissions.foldl (fun m p => push m p e.name) m) []

/-- `print_by_crate` (summary.rs:163-167). -/
def byPackageLines (s : List Entry) : List Str := s.map (fun e => line e.name e.permissions)

/-- `print_by_permission` (summary.rs:198-211). -/
def byPermissionLines (s : List Entry) : List Str :=
  (sortStr (byPermission s).keys).map (fun p => line p (((byPermission s).get? p).getD []))

/-- `print_impure_proc_macros` (summary.rs:180-186). -/
def impureLines (s : List Entry) : List Str :=
  (s.filter Entry.impure).map (fun e => line e.name e.permissions)

/-- The decimal digits of a number. -/
def showNat (n : Nat) : Str := Nat.toDigits 10 n

/-- `println!("{self}")` (summary.rs:152, 280-301): the text ends in a newline, so an empty line follows. -/
def countLines (s : List Entry) : List Str :=
  [str! "num_packages: " ++ showNat (counts s).packages,
    str! "no_special_permissions: " ++ showNat (counts s).noSpecial,
    str! "proc_macros_with_other_permissions: " ++ showNat (counts s).impure, []]

/-- A section for people: the header if wanted, then the lines (summary.rs:118-122 and likewise). -/
def humanSection (headers : Bool) (header : Str) (ls : List Str) : List Str :=
  (if headers then [header] else []) ++ ls

/-- `print` for people (summary.rs:113-161). -/
def printHuman (s : List Entry) (opts : Options) : List Str :=
  let o := opts.withDefaults
  (if o.byPackage then
    humanSection o.printHeaders (str! "=== Permissions by package ===") (byPackageLines s) else []) ++
  ((if o.byPermission then
    humanSection o.printHeaders (str! "=== Packages by permission ===") (byPermissionLines s) else []) ++
  ((if o.impureProcMacros then
    humanSection o.printHeaders (str! "=== Proc macros with other permissions ===") (impureLines s)
    else []) ++
  (if o.counts then
    humanSection o.printHeaders (str! "=== Permission counts ===") (countLines s) else [])))

/-- A section of the JSON output is an object whose values are lists of texts. -/
abbrev Json := AMap Str (List Str)

/-- The map from package names to permissions (summary.rs:170-173, 230-233). -/
def permissionMap (s : List Entry) : Json :=
  s.foldl (fun m e => m.insert e.name e.permissions) []

/-- The part of that map for proc macros with other permissions (summary.rs:189-194). -/
def impureMap (s : List Entry) : Json := permissionMap (s.filter Entry.impure)

def keyByPackage : Str := str! "permissions_by_package"
def keyImpure : Str := str! "impure_proc_macros"
def keyCount : Str := str! "permission_count"

/-- `json_print_by_crate` (summary.rs:169-178). -/
def jsonByPackage (s : List Entry) (out : AMap Str Json) : AMap Str Json :=
  out.insert keyByPackage (permissionMap s)

/-- `json_print_by_permission` (summary.rs:213-227). -/
def jsonByPermission (s : List Entry) (out : AMap Str Json) : AMap Str Json :=
  out.insert keyImpure (byPermission s)

/-- `json_print_impure_proc_macros` (summary.rs:188-196). -/
def jsonImpure (s : List Entry) (out : AMap Str Json) : AMap Str Json :=
  out.insert keyImpure (impureMap s)

/-- `json_print_count` (summary.rs:229-235). -/
def jsonCount (s : List Entry) (out : AMap Str Json) : AMap Str Json :=
  out.insert keyCount (permissionMap s)

/-- `print` in JSON (summary.rs:113-161). -/
def printJson (s : List Entry) (opts : Options) : AMap Str Json :=
  let o := opts.withDefaults
  let out : AMap Str Json := []
  let out := if o.byPackage then jsonByPackage s out else out
  let out := if o.byPermission then jsonByPermission s out else out
  let out := if o.impureProcMacros then jsonImpure s out else out
  if o.counts then jsonCount s out else out

/-- What is printed. -/
inductive Out where
  | lines (l : List Str)
  | json (m : AMap Str Json)

/-- `print` (summary.rs:113-161). -/
def print (s : List Entry) (opts : Options) : Out :=
  match opts.format with
  | .human => .lines (printHuman s opts)
  | .json => .json (printJson s opts)

end Cackle.Summary
