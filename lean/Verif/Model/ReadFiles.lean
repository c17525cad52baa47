import Verif.Model.Dwarf
import Verif.Model.Link

/-!
# Model of how binaries and object files are read (`src/symbol_graph.rs`)

What the libraries `object`, `ar`, `gimli` and `addr2line` make of bytes is input. The order of errors is not modelled: an
error in any file ends the scan, and nothing that was found before it is kept.
-/

namespace Cackle.Read
open Cackle Checker Graph

/-- The bytes of a section. -/
abbrev Bytes := List UInt8

/-- The binary that was linked, as `object` reads it. A section is `none` if its contents cannot be decompressed; symbols are
`none` if one of them has a name that cannot be read (symbol_graph.rs:681). -/
structure BinFile where
  symbols : Option (List (Str × Nat))
  sections : AMap Str (Option Bytes)

/-- `load_section` (symbol_graph.rs:807-819). -/
def loadSection (f : BinFile) (id : Str) : Bytes :=
  match f.sections.get? id with
  | none => []
  | some none => []
  | some (some data) => data

/-- The libraries that read debug information: `gimli` and `addr2line`. -/
structure Libs where
  units : (Str → Bytes) → Res (List Dwarf.DUnit)
  context : (Str → Bytes) → Res (Nat → Option (Option Str × Option SourceLoc))

/-- An entry of an archive as `ar` reads it: its name, `none` if it is not UTF-8; its contents, `none` if they cannot be
read; in them, an object file, `none` if `object` does not recognise one. -/
structure Entry where
  name : Option Str
  contents : Option (Option Obj)

/-- A file given to the linker. `entries` is what `next_entry` gives when the file is read as an archive: `none` is an error.
`object` is what `object` makes of the whole file. -/
structure InFile where
  entries : List (Option Entry)
  object : Option Obj

/-- `enum Filetype` (symbol_graph.rs:90-93). -/
inductive Filetype where
  | archive
  | other
deriving DecidableEq

/-- `Path::extension`. -/
def pathExtension (p : PathC) : Option Str :=
  match p.getLast? with
  | none => none
  | some name => if name = str! ".." ∨ name = str! "/" then none else Fs.extension name

/-- `Filetype::from_filename` (symbol_graph.rs:821-832). -/
def Filetype.fromFilename (p : PathC) : Filetype :=
  match pathExtension p with
  | none => .other
  | some e => if e = str! "rlib" ∨ e = str! ".a" then .archive else .other

/-- The loop over the entries of an archive (symbol_graph.rs:262-272) with `ObjectFilePath::in_archive`
(object_file_path.rs:23-36): the object files that are processed. -/
def entryObjects : List (Option Entry) → Res (List Obj)
  | [] => .ok []
  | none :: rest => entryObjects rest
  | some e :: rest =>
    (Res.ofOption e.contents).bind fun c =>
    (Res.ofOption e.name).bind fun _ =>
    (Res.ofOption c).bind fun o =>
    (entryObjects rest).bind fun os => .ok (o :: os)

/-- `process_file` (symbol_graph.rs:253-284) up to the processing of the object files. -/
def fileObjects (disk : PathC → Option InFile) (p : PathC) : Res (List Obj) :=
  (Res.ofOption (disk p)).bind fun f =>
  match Filetype.fromFilename p with
  | .archive => entryObjects f.entries
  | .other => (Res.ofOption f.object).bind fun o => .ok [o]

/-- All files (symbol_graph.rs:230-234). -/
def allObjects (disk : PathC → Option InFile) : List PathC → Res (List Obj)
  | [] => .ok []
  | p :: ps =>
    (fileObjects disk p).bind fun os =>
    (allObjects disk ps).bind fun rest => .ok (os ++ rest)

/-- Reading the binary (symbol_graph.rs:163-201). -/
def readBin (L : Libs) (isStd : Str → Bool) (path : Str) (crate : Perm.CrateSel) (f : BinFile) : Res Bin :=
  (L.units (loadSection f)).bind fun units =>
  (Dwarf.scan units isStd).bind fun st =>
  (L.context (loadSection f)).bind fun frame =>
  (Res.ofOption f.symbols).bind fun symbols =>
  .ok { path := path, crate := crate, symbols := symbols, debug := st.symbolDebugInfo, inlined := st.inlined, frame := frame }

/-- `scan_objects` (symbol_graph.rs:131-153): `bin` is `none` if the output of the linker cannot be read or is not
recognised. -/
def scanObjects (L : Libs) (isStd : Str → Bool) (c : State) (n : Nat)
    (order : AMap Key (List Single) → List (Key × List Single)) (li : LinkInfo) (bin : Option BinFile)
    (disk : PathC → Option InFile) (paths : List PathC) : Res ScanOut :=
  (Res.ofOption bin).bind fun f =>
  (readBin L isStd li.outputFile li.crate f).bind fun b =>
  (allObjects disk paths).bind fun objs =>
  scanBin c n order b objs

end Cackle.Read
