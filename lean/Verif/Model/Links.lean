import Verif.Model.Fs

/-!
# Model of `write_atomic` (`src/fs.rs`) on a file system with links and access modes

`Model/Fs.lean` is about readers and crashes while a file is written. Here the whole function is run without errors, but
names can be symbolic links, several names can be hard links of one file, and files have a mode. The names of links are
absolute and lead to names without links in their directories.
-/

namespace Cackle.Links
open Cackle Fs

/-- A file: its contents and who can access it. -/
structure Inode where
  contents : Str
  mode : Nat
deriving DecidableEq

/-- What a name in a directory is. -/
inductive Entry where
  | file (i : Nat)
  | link (target : PathC)
deriving DecidableEq

/-- Not a symbolic link. -/
def Entry.isFile : Entry → Bool
  | .file _ => true
  | .link _ => false

/-- The file system. -/
structure State where
  names : PathC → Option Entry
  inodes : Nat → Inode
  next : Nat

/-- Following symbolic links. `none` is the error ELOOP of the operating system. -/
def follow : Nat → State → PathC → Option PathC
  | 0, _, _ => none
  | n + 1, s, p =>
    match s.names p with
    | some (.link t) => follow n s t
    | _ => some p

/-- The name that a name leads to, through at most 40 links. -/
def resolve (s : State) (p : PathC) : Option PathC := follow 41 s p

/-- The file that is opened by a name. -/
def ino (s : State) (p : PathC) : Option Nat :=
  (resolve s p).bind fun q =>
    match s.names q with
    | some (.file i) => some i
    | _ => none

/-- `std::fs::read_to_string`, and the mode. -/
def read (s : State) (p : PathC) : Option Inode := (ino s p).map s.inodes

/-- `std::fs::write` (fs.rs:10): opens with O_CREAT and O_TRUNC, which follows links, and writes. `mode` is the mode of new
files (the umask of the process). -/
def write (mode : Nat) (s : State) (p : PathC) (text : Str) : Option State :=
  (resolve s p).map fun q =>
    match s.names q with
    | some (.file i) => { s with inodes := fun j => if j = i then { s.inodes i with contents := text } else s.inodes j }
    | _ =>
      { names := fun r => if r = q then some (.file s.next) else s.names r
        inodes := fun j => if j = s.next then ⟨text, mode⟩ else s.inodes j
        next := s.next + 1 }

/-- `std::fs::rename` (fs.rs:12): does not follow links. If both names are the same file then nothing happens. -/
def rename (s : State) (src dst : PathC) : Option State :=
  match s.names src with
  | none => none
  | some e =>
    if src = dst then some s
    else if e.isFile ∧ s.names dst = some e then some s
    else some { s with names := fun q => if q = dst then some e else if q = src then none else s.names q }

/-- `write_atomic` (fs.rs:8-20). -/
def save (mode : Nat) (s : State) (path : PathC) (text : Str) : Option State :=
  (write mode s (withExtension path (str! "tmp")) text).bind fun s' => rename s' (withExtension path (str! "tmp")) path

end Cackle.Links
