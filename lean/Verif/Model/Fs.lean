import Verif.Model.Path

/-!
# Model of `src/fs.rs`

The file system maps names to inodes and inodes to contents, which is what matters for a reader that has a
file open while it is replaced. Symbolic links, permissions and disk errors are not modelled (an error
stops the sequence of operations, like a crash).
-/

namespace Cackle.Fs
open Cackle

/-- `Path::file_stem` of a file name: up to the last `.`, unless there is no other character before it. -/
def stem (name : Str) : Str :=
  match name.reverse.dropWhile (· ≠ '.') with
  | [] => name
  | _ :: before => if before = [] then name else before.reverse

/-- `Path::extension` of a file name. -/
def extension (name : Str) : Option Str :=
  if stem name = name then none else some (name.drop ((stem name).length + 1))

/-- `Path::with_extension` for a non-empty extension. A path ending in `..` (or the root, or nothing) has
no file name and is left unchanged. -/
def withExtension (p : PathC) (ext : Str) : PathC :=
  match p.getLast? with
  | none => p
  | some name =>
    if name = str! ".." ∨ name = str! "/" then p else p.dropLast ++ [stem name ++ str! "." ++ ext]

/-- The file system. -/
structure State where
  names : PathC → Option Nat
  files : Nat → List Char
  next : Nat

/-- A primitive operation. -/
inductive Op where
  /-- `open(O_CREAT|O_TRUNC)` -/
  | create (p : PathC)
  /-- `write` appends some of the contents -/
  | append (p : PathC) (s : List Char)
  /-- `rename` -/
  | rename (src dst : PathC)

/-- The effect of an operation. -/
def Op.apply (s : State) : Op → State
  | .create p =>
    match s.names p with
    | some i => { s with files := fun j => if j = i then [] else s.files j }
    | none =>
      { names := fun q => if q = p then some s.next else s.names q
        files := fun j => if j = s.next then [] else s.files j
        next := s.next + 1 }
  | .append p t =>
    match s.names p with
    | some i => { s with files := fun j => if j = i then s.files j ++ t else s.files j }
    | none => s
  | .rename src dst =>
    match s.names src with
    | some i => { s with names := fun q => if q = dst then some i else if q = src then none else s.names q }
    | none => s

/-- Executes operations. -/
def exec (s : State) (ops : List Op) : State := ops.foldl Op.apply s

/-- `write_atomic` (fs.rs:8-20) as a sequence of primitive operations; `chunks` is how the contents are
split into `write` calls by `std::fs::write`. -/
def writeAtomic (path : PathC) (chunks : List (List Char)) : List Op :=
  .create (withExtension path (str! "tmp")) ::
    chunks.map (.append (withExtension path (str! "tmp"))) ++
    [.rename (withExtension path (str! "tmp")) path]

/-- What a reader gets that opens `path` in one state and reads the whole file in another. -/
def readVia (opened now : State) (path : PathC) : Option (List Char) := (opened.names path).map now.files

end Cackle.Fs
