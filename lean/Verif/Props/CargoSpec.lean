import Verif.Model.Cargo

/-!
# Specification vocabulary for C105 to C108: what cargo does with a command
-/

namespace Cackle.Cargo
open Cackle Perm Identity

/-! ## Reading a command line -/

/-- Options of cargo that are followed by a value. -/
def valueOpts : List Str :=
  [str! "--config", str! "--profile", str! "--target", str! "--features", str! "-F", str! "-p", str! "--package",
   str! "--color", str! "--bin", str! "--test", str! "--example", str! "--bench", str! "-j", str! "--jobs", str! "--exclude",
   str! "--target-dir", str! "--manifest-path", str! "--message-format", str! "-Z", str! "-C"]

/-- What cargo makes of its arguments: options with a value, other arguments (among them the subcommand), and what comes
after `--`, which is for the program that is run. `lacks` is whether the last option lacks its value. -/
structure View where
  opts : List (Str × Str) := []
  others : List Str := []
  after : Option (List Str) := none
  lacks : Bool := false
deriving DecidableEq

/-- An option is added in front. -/
def View.opt (o v : Str) (w : View) : View := { w with opts := (o, v) :: w.opts }

/-- Another argument is added in front. -/
def View.other (a : Str) (w : View) : View := { w with others := a :: w.others }

/-- How cargo reads its arguments; short options with an attached value are left out. -/
def view : List Str → View
  | [] => {}
  | [a] =>
    if a = str! "--" then { after := some [] }
    else if a ∈ valueOpts then { lacks := true }
    else if '=' ∈ a ∧ a.takeWhile (· ≠ '=') ∈ valueOpts then
      View.opt (a.takeWhile (· ≠ '=')) ((a.dropWhile (· ≠ '=')).drop 1) {}
    else View.other a {}
  | a :: b :: rest =>
    if a = str! "--" then { after := some (b :: rest) }
    else if a ∈ valueOpts then View.opt a b (view rest)
    else if '=' ∈ a ∧ a.takeWhile (· ≠ '=') ∈ valueOpts then
      View.opt (a.takeWhile (· ≠ '=')) ((a.dropWhile (· ≠ '=')).drop 1) (view (b :: rest))
    else View.other a (view (b :: rest))

/-- The values of an option. -/
def View.values (w : View) (o : Str) : List Str := (w.opts.filter (fun x => x.1 = o)).map (·.2)

/-- Arguments after which cargo goes on reading options. -/
def Closed (xs : List Str) : Prop := (view xs).after = none ∧ (view xs).lacks = false

/-- The names in the value of `--features`. -/
def featureNames (v : Str) : List Str := (splitChar ',' v).filter (fun f => f ≠ [])

/-- The features that cargo enables. -/
def View.features (w : View) : List Str := (w.values (str! "--features")).flatMap featureNames

/-- What can be the name of a feature (blanks would separate features, too). -/
def FeatureName (f : Str) : Prop := f ≠ [] ∧ ',' ∉ f

/-! ## What the user asked for -/

/-- The profile: the command line, then the config file, then the default. -/
def WantsProfile (args : Args) (config : Common) (p : Str) : Prop :=
  args.profile = some p ∨ (args.profile = none ∧ config.profile = some p) ∨
    (args.profile = none ∧ config.profile = none ∧ p = str! "cackle")

/-- The features: the command line, otherwise the config file. -/
def WantsFeature (args : Args) (config : Common) (f : Str) : Prop :=
  (∃ v, args.features = some v ∧ f ∈ featureNames v) ∨ (args.features = none ∧ f ∈ config.features)

/-- What the user passes on to cargo: the flags of the config file or the arguments after the subcommand. -/
def passedOn (args : Args) (config : Common) : List Str :=
  match args.command, config.buildFlags with
  | some (.test r), _ => r
  | some (.run r), _ => r
  | some .summary, _ => []
  | none, some fl => fl
  | none, none => [str! "--all-targets"]

/-- The subcommand that the user wants. -/
def wantedSubcommand (args : Args) : Str :=
  match args.command with
  | some (.test _) => str! "test"
  | some (.run _) => str! "run"
  | _ => str! "build"

/-! ## Directories -/

/-- The directory of a profile. -/
def profileDir (p : Str) : Str :=
  if p = str! "dev" ∨ p = str! "test" then str! "debug"
  else if p = str! "bench" then str! "release"
  else p

/-- The directories in which cargo looks for what was built before: one for the host, and one for each target if there
are any. `cfgTargets` are the targets set in cargo's own config. -/
def buildDirs (targetDir : PathC) (cfgTargets : List Str) (w : View) : List PathC :=
  (w.values (str! "--profile")).flatMap (fun p =>
    (targetDir ++ [profileDir p]) ::
      (if w.values (str! "--target") = [] then cfgTargets else w.values (str! "--target")).map
        (fun t => targetDir ++ [t, profileDir p]))

/-- `cargo clean` with a profile: the directory of this profile is removed. Other subcommands remove nothing. -/
def cleaned (targetDir : PathC) (w : View) (files : List PathC) : List PathC :=
  if w.others = [str! "clean"] then
    files.filter (fun f => !(w.values (str! "--profile")).any (fun p => f.startsWith (targetDir ++ [profileDir p])))
  else files

/-! ## Profiles -/

/-- The text without double quotes. -/
def unquote (s : Str) : Str := s.filter (· ≠ '"')

/-- A `--config` argument as path and value. -/
def setting (s : Str) : List Str × Str :=
  (splitChar '.' (s.takeWhile (· ≠ '=')), unquote ((s.dropWhile (· ≠ '=')).drop 1))

/-- What else sets profiles: cargo's config files and variables, and `Cargo.toml`. Keys are paths. -/
structure World where
  config : AMap (List Str) Str := []
  manifest : AMap (List Str) Str := []

/-- A value: the command line (the last one), then cargo's config, then `Cargo.toml`. -/
def own (cli : List (List Str × Str)) (w : World) (path : List Str) : Option Str :=
  ((AMap.get? cli.reverse path).or (AMap.get? w.config path)).or (AMap.get? w.manifest path)

/-- A value in a profile or in the profiles from which it inherits. The number bounds the length of the chain. -/
def inherited (cli : List (List Str × Str)) (w : World) (tail : List Str) : Nat → Str → Option Str
  | 0, _ => none
  | n + 1, p =>
    (own cli w ([str! "profile", p] ++ tail)).or
      ((own cli w [str! "profile", p, str! "inherits"]).bind (inherited cli w tail n))

/-- The value that is in force for a package: what is set for this package comes first. -/
def inForce (cli : List (List Str × Str)) (w : World) (pkg key p : Str) : Option Str :=
  (inherited cli w [str! "package", pkg, key] 10 p).or (inherited cli w [key] 10 p)

/-- The settings on the command line. -/
def View.settings (w : View) : List (List Str × Str) := (w.values (str! "--config")).map setting

end Cackle.Cargo
