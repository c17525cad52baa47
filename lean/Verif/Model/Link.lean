import Verif.Model.Identity
import Verif.Model.Fs
import Verif.Model.Sandbox

/-!
# Model of `src/link_info.rs` and of the linker wrapper and the dispatch of wrappers in `src/proxy/subprocess.rs`

Arguments are texts (the code panics on arguments that are not UTF-8, except where it says `args_os`). An environment is an
association list. A disk has symbolic links from absolute paths to absolute paths without links. The first argument of a
process, its own name, is left out.
-/

namespace Cackle.Link
open Cackle Perm Identity

/-! ## Paths on a disk -/

/-- What `canonicalize` depends on: symbolic links, existing files and directories (by their path without links) and the
current directory (without links). -/
structure Disk where
  links : AMap PathC PathC := []
  files : List PathC := []
  cwd : PathC := [['/']]

/-- Going on from a directory: `..` is the parent, links are followed. -/
def resolveFrom (d : Disk) : PathC → List Str → PathC
  | acc, [] => acc
  | acc, c :: cs =>
    if c = str! "." then resolveFrom d acc cs
    else if c = str! ".." then resolveFrom d (if acc.length ≤ 1 then acc else acc.dropLast) cs
    else
      match AMap.get? d.links (acc ++ [c]) with
      | some t => resolveFrom d t cs
      | none => resolveFrom d (acc ++ [c]) cs

/-- Where a path leads. -/
def resolve (d : Disk) (p : PathC) : PathC :=
  match p with
  | ['/'] :: cs => resolveFrom d [['/']] cs
  | cs => resolveFrom d d.cwd cs

/-- `Path::canonicalize`; `none` is an error. -/
def canonicalize (d : Disk) (p : PathC) : Option PathC :=
  if resolve d p ∈ d.files then some (resolve d p) else none

/-- The target directory (main.rs:259-263): `CARGO_TARGET_DIR` or `target`, relative to the canonical directory of the
workspace. -/
def targetDir (root : PathC) (env : AMap Str Str) : PathC :=
  match pathOf ((AMap.get? env (str! "CARGO_TARGET_DIR")).getD (str! "target")) with
  | ['/'] :: cs => ['/'] :: cs
  | cs => root ++ cs.filter (fun c => c ≠ str! ".")

/-! ## Linker command lines -/

/-- `has_supported_extension` (link_info.rs:65-71). -/
def hasSupportedExtension (arg : Str) : Bool :=
  match (pathOf arg).getLast? with
  | none => false
  | some name =>
    if name = str! ".." ∨ name = str! "/" then false
    else Fs.extension name = some (str! "rlib") ∨ Fs.extension name = some (str! "o")

/-- `get_output_file` (link_info.rs:50-60). -/
def outputFile : List Str → Option Str
  | [] => none
  | [_] => none
  | a :: b :: rest => if a = str! "-o" then some b else outputFile (b :: rest)

/-- `struct LinkInfo` (link_info.rs:12-17). -/
structure LinkInfo where
  crate : CrateSel
  objects : List Str
  output : Str
  shared : Bool
deriving DecidableEq

/-- `LinkInfo::from_env` (link_info.rs:19-33) with `get_is_shared` (link_info.rs:62-64); `none` is an error. -/
def fromEnv (env : AMap Str Str) (args : List Str) : Option LinkInfo :=
  match crateFromEnv env, outputFile args with
  | some crate, some output => some ⟨crate, args.filter hasSupportedExtension, output, decide (str! "-shared" ∈ args)⟩
  | _, _ => none

/-- `object_paths_under` (link_info.rs:35-42). -/
def objectPathsUnder (d : Disk) (info : LinkInfo) (dir : PathC) : List PathC :=
  (info.objects.filterMap (fun o => canonicalize d (pathOf o))).filter (fun p => p.startsWith dir)

/-- The object files that are scanned (checker.rs:301-305). -/
def scanned (d : Disk) (root : PathC) (env : AMap Str Str) (info : LinkInfo) : List PathC :=
  objectPathsUnder d info (targetDir root env)

/-! ## Replacing a linked program by a script -/

/-- The part of a path before its file name. -/
def dirPart (p : Str) : Str := (p.reverse.dropWhile (· ≠ '/')).reverse

/-- The part of `orig_bin_path` (subprocess.rs:125-137) about the file name. -/
def origName (name : Str) : Str :=
  match Fs.extension name with
  | some ext => Fs.stem name ++ str! "." ++ (str! "orig." ++ ext)
  | none => Fs.stem name ++ str! ".orig"

/-- `orig_bin_path` (subprocess.rs:125-137) for a path that ends in a file name. -/
def origBinPath (p : Str) : Str := dirPart p ++ origName (Sandboxing.fileName p)

/-- `PROXY_BIN_ARG` (subprocess.rs:39). -/
def proxyBinArg : Str := str! "proxy-bin"

/-- The script that takes the place of a program (subprocess.rs:107-117). The backslash at the end of a line of the source
removes the white space at the start of the next line. -/
def script (exe token bin : Str) : Str :=
  str! "#!/bin/bash\n" ++
  (str! "if [ -x \"" ++ exe ++ str! "\" ]; then\n") ++
  (str! "\"" ++ exe ++ str! "\" " ++ proxyBinArg ++ str! " " ++ token ++ str! " \"" ++ bin ++ str! "\" \"$@\" \n") ++
  str! "else\n" ++
  (str! "\"" ++ bin ++ str! "\" \"$@\"\n") ++
  str! "fi\n"

/-- The result of the linker wrapper: the files, what was sent to the main process, and the exit status (`none`: an
error). -/
structure Linked where
  files : Str → Option Str
  request : Option LinkInfo
  exit : Option Int

/-- A file is written. -/
def put (files : Str → Option Str) (p content : Str) : Str → Option Str := fun q => if q = p then some content else files q

/-- `proxy_linker` (subprocess.rs:399-416) and `setup_bin_wrapper` (subprocess.rs:84-122). `status` is the exit status of the
real linker (`none`: it cannot be run), `files` are the files after it, `writable` is whether files can be written, `answered`
whether the main process answers; what it answers is ignored. -/
def proxyLinker (exe : Str) (info : LinkInfo) (status : Option Int) (files : Str → Option Str) (writable answered : Bool) :
    Linked :=
  match status with
  | none => ⟨files, none, none⟩
  | some code =>
    if code = 0 ∧ info.shared = false then
      match files info.output with
      | none => ⟨files, none, none⟩
      | some content =>
        if writable then
          ⟨put (put files (origBinPath info.output) content) info.output
              (script exe (toToken info.crate.kind) (origBinPath info.output)),
            some { info with output := origBinPath info.output }, if answered then some 0 else none⟩
        else ⟨files, none, none⟩
    else ⟨files, some info, if answered then some code else none⟩

/-! ## Which wrapper -/

/-- `SOCKET_ENV` (proxy.rs:52). -/
def envSocket : Str := str! "CACKLE_SOCKET_PATH"

/-- `is_path_to_rustc` (subprocess.rs:78-81). -/
def isPathToRustc (arg : Option Str) : Bool :=
  match arg with
  | none => false
  | some a => (pathOf a).getLast? = some (str! "rustc")

/-- What a process of cackle does. -/
inductive Role where
  /-- The program itself: the arguments are those of the user. -/
  | cackle (args : List Str)
  /-- `proxy_binary` for this program and these arguments. -/
  | bin (crate : CrateSel) (prog : Str) (args : List Str)
  /-- `invoke_wrapped_binary`: the program is run directly. -/
  | direct (prog : Str) (args : List Str)
  | rustc
  | linker (info : LinkInfo)
  | error
deriving DecidableEq

/-- `handle_wrapped_binaries` (subprocess.rs:45-76) if it does not return. -/
def wrapperRole (env : AMap Str Str) (args : List Str) : Role :=
  match args with
  | a :: rest =>
    if a = proxyBinArg then
      match rest with
      | token :: prog :: xs =>
        match (crateFromEnv env).bind (fun c => withToken c token) with
        | some crate => .bin crate prog xs
        | none => .error
      | _ => .error
    else if isPathToRustc (some a) then .rustc
    else
      match fromEnv env args with
      | some info => .linker info
      | none => .error
  | [] =>
    match fromEnv env args with
    | some info => .linker info
    | none => .error

/-- `main` (main.rs:199-213) with `invoke_wrapped_binary` (main.rs:610-620). -/
def role (env : AMap Str Str) (args : List Str) : Role :=
  if (AMap.get? env envSocket).getD [] ≠ [] then wrapperRole env args
  else if args.head? = some proxyBinArg then
    match args.drop 2 with
    | prog :: xs => .direct prog xs
    | [] => .error
  else .cackle args

end Cackle.Link
