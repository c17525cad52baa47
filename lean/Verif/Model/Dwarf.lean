import Verif.Model.SymbolGraph

/-!
# Model of `src/symbol_graph/dwarf.rs`: names, namespaces and inlined functions in debug info

What `gimli` decodes is input: a unit is the sequence of its entries with their offsets, a null entry ending each list
of children. Attribute values are decoded (text, numbers, the file of an index in the line table); text that is not
UTF-8 is not modelled, nor are lines and columns that do not fit in 32 bits (`as u32`). Reading at an offset where no
entry begins is an error. Strings are looked up in the right unit (the code looks up strings of another unit in the
tables of the current one). `debug` collects the insertions into `symbol_debug_info` in order.
-/

namespace Cackle.Dwarf
open Cackle Graph

/-- The tags that matter. `enumeration` and `union` are not distinguished from others by the code. -/
inductive Tag where
  | namespace_ | structure_ | enumeration | union | subprogram | inlined | lexicalBlock | variable | other
deriving DecidableEq

/-- A reference to an entry: by its offset in the unit, or in the whole section. -/
inductive Ref where
  | unit (offset : Nat)
  | info (offset : Nat)
  | other
deriving DecidableEq

/-- Decoded attributes. For `callFile` and `declFile`: directory and name in the line table, `none` if the index is
invalid. For `ranges`: the beginning of the first range. -/
inductive Attr where
  | name (s : Str)
  | linkage (s : Str)
  | spec (r : Ref)
  | origin (r : Ref)
  | callFile (f : Option (Option Str × Str))
  | callLine (n : Option Nat)
  | callColumn (n : Option Nat)
  | lowPc (a : Option Nat)
  | ranges (a : Option Nat)
  | declFile (f : Option (Option Str × Str))
  | declLine (n : Option Nat)
  | declColumn (n : Option Nat)
  | other
deriving DecidableEq

/-- A debugging entry. -/
structure Entry where
  tag : Tag
  attrs : List Attr
  hasChildren : Bool
deriving DecidableEq

/-- A unit: where it begins in the section, its compilation directory, and its entries with their offsets in the unit;
`none` is a null entry. -/
structure DUnit where
  start : Nat
  compDir : Str
  items : List (Nat × Option Entry)

/-- `Namespace::plus` (names.rs:68-78). -/
def plus (ns : List Str) (name : Str) : List Str := ns ++ [name]

/-- Body of the loops that look for a name (dwarf.rs:214-217, 369-372). -/
def nameStep (n : Option Str) : Attr → Option Str
  | .name s => some s
  | _ => n

/-- The value of the last `DW_AT_name` (dwarf.rs:212-218, 367-373). -/
def nameAttr (attrs : List Attr) : Option Str := attrs.foldl nameStep none

/-- The namespace that an entry opens, if the innermost open one is `parent` (dwarf.rs:210-231, 374-384). -/
def opens (parent : Option (List Str)) (e : Entry) : Option (List Str) :=
  if e.tag = .namespace_ ∨ e.tag = .structure_ then
    (nameAttr e.attrs).map (fun n =>
      match parent with
      | some p => plus p n
      | none => plus [] n)
  else none

/-- The top of the stack: `stack.last().and_then(|e| e.as_ref())`. The stack has its top first. -/
def top (stack : List (Option (List Str))) : Option (List Str) := stack.head?.join

/-- Body of the loop of `get_subprogram_namespaces` (dwarf.rs:202-244). -/
def nsStep (st : AMap Nat (List Str) × List (Option (List Str))) (item : Nat × Option Entry) :
    AMap Nat (List Str) × List (Option (List Str)) :=
  match item.2 with
  | none => (st.1, st.2.tail)
  | some e =>
    let m :=
      if e.tag = .subprogram then
        match top st.2 with
        | some ns => st.1.insert item.1 ns
        | none => st.1
      else st.1
    (m, if e.hasChildren then opens (top st.2) e :: st.2 else st.2)

/-- `get_subprogram_namespaces` (dwarf.rs:195-246). -/
def namespaces (u : DUnit) : AMap Nat (List Str) := (u.items.foldl nsStep ([], [])).1

/-- `unit_containing` (dwarf.rs:174-187). The offsets of the units are increasing, so that the binary search gives the
number of smaller ones. -/
def unitContaining (units : List DUnit) (offset : Nat) : Option DUnit :=
  match (units.filter (fun u => u.start < offset)).length with
  | 0 => none
  | n + 1 => units[n]?

/-- The unit and the offset in it that a reference leads to (dwarf.rs:302-318). -/
def locate (units : List DUnit) (cur : DUnit) : Ref → Option (DUnit × Nat)
  | .unit o => some (cur, o)
  | .info o => (unitContaining units o).bind fun u => if u.start ≤ o then some (u, o - u.start) else none
  | .other => none

/-- `entries_raw(Some(offset))` and `read_abbreviation` (dwarf.rs:328-329). -/
def entryAt (u : DUnit) (offset : Nat) : Option (Option Entry) :=
  (u.items.find? (fun i => i.1 = offset)).map Prod.snd

/-- The first `DW_AT_specification`. -/
def specRef (attrs : List Attr) : Option Ref :=
  attrs.findSome? (fun | .spec r => some r | _ => none)

/-- Body of the loop over the attributes, except for specifications (dwarf.rs:331-354). -/
def ownStep (ns : List Str) (x : SymName) : Attr → SymName
  | .linkage s => { x with symbol := some s }
  | .name s => { x with debug := some ⟨ns, s⟩ }
  | _ => x

/-- The names given by an entry itself (dwarf.rs:327-357). -/
def ownNames (ns : List Str) (attrs : List Attr) : SymName := attrs.foldl (ownStep ns) ⟨none, none⟩

/-- `get_symbol_and_name` and `get_symbol_and_name_in_unit` (dwarf.rs:296-358). `m` is `subprogram_namespaces` of the
current unit; the number is `max_depth`. A specification ends the loop over the attributes. -/
def refNames (units : List DUnit) (cur : DUnit) (m : AMap Nat (List Str)) : Nat → Ref → Res SymName
  | depth, r =>
    match locate units cur r with
    | none => .err
    | some (u, o) =>
      match entryAt u o with
      | none => .err
      | some none => .ok ⟨none, none⟩
      | some (some e) =>
        match specRef e.attrs with
        | some r' =>
          match depth with
          | 0 => .err
          | d + 1 => refNames units cur m d r'
        | none => .ok (ownNames ((m.get? o).getD []) e.attrs)

/-- `struct CallLocation` (dwarf.rs:518-526), without the compilation directory. -/
structure Call where
  dir : Option Str := none
  file : Option Str := none
  line : Option Nat := none
  column : Option Nat := none
deriving DecidableEq

/-- `struct FrameState` (dwarf.rs:504-508). -/
structure Frame where
  names : SymName
  ns : Option (List Str)
  call : Call

/-- `struct InlinedFunctionScanner` (dwarf.rs:510-516). -/
structure Scanner where
  names : SymName := ⟨none, none⟩
  lowPc : Option Nat := none
  symbolStart : Option Nat := none
  call : Call := {}

/-- `UnitState::namespace` (dwarf.rs:387-395). The frames have the innermost first. -/
def currentNs (frames : List Frame) : List Str := (frames.head?.bind Frame.ns).getD []

/-- `InlinedFunctionScanner::handle_attribute` (dwarf.rs:529-583). -/
def Scanner.handle (units : List DUnit) (cur : DUnit) (m : AMap Nat (List Str)) (frames : List Frame) (s : Scanner) :
    Attr → Res Scanner
  | .linkage v => .ok { s with names := { s.names with symbol := some v } }
  | .name v => .ok { s with names := { s.names with debug := some ⟨currentNs frames, v⟩ } }
  | .origin r => (refNames units cur m 10 r).bind fun x => .ok { s with names := x }
  | .callFile none => .err
  | .callFile (some f) => .ok { s with call := { s.call with dir := f.1, file := some f.2 } }
  | .callLine n => .ok { s with call := { s.call with line := n } }
  | .callColumn n => .ok { s with call := { s.call with column := n } }
  | .lowPc a => .ok { s with lowPc := a, symbolStart := if s.symbolStart.isNone then a else s.symbolStart }
  | .ranges (some a) => .ok { s with lowPc := some a }
  | _ => .ok s

/-- `PathBuf::push`. -/
def pushPath (base p : Str) : Str :=
  if p.head? = some '/' then p
  else if base = [] ∨ base.getLast? = some '/' then base ++ p
  else base ++ '/' :: p

/-- `CallLocation::location` (dwarf.rs:50-64). -/
def Call.location (compDir : Str) (c : Call) : Option SourceLoc :=
  c.line.map fun line =>
    let p := match c.dir with | some d => pushPath compDir d | none => compDir
    let p := match c.file with | some f => pushPath p f | none => p
    ⟨p, line, c.column⟩

/-- The loop over the frames in `get_inlined_function` (dwarf.rs:598-621). -/
def caller (call : Call) : List Frame → Res (Option (SymName × Call))
  | [] => .ok none
  | f :: rest =>
    if f.names.symbol.isSome ∨ f.names.debug.isSome then
      match f.names.symbol with
      | some s => (isLookThrough s).bind fun b => if b then caller f.call rest else .ok (some (f.names, call))
      | none => .ok (some (f.names, call))
    else caller call rest

/-- `get_inlined_function` (dwarf.rs:585-622). -/
def Scanner.inlined (s : Scanner) (compDir : Str) (frames : List Frame) : Res (Option Inlined) :=
  if s.names.debug.isNone ∧ s.names.symbol.isNone then .ok none
  else
    match s.lowPc, s.symbolStart with
    | some pc, some start =>
      if pc = 0 ∨ pc = 1 then .ok none
      else
        (caller s.call frames).bind fun r =>
          .ok (r.map fun x => ⟨pc, start, x.1, s.names, x.2.location compDir⟩)
    | _, _ => .ok none

/-- `struct SymbolDebugInfoScanner` (dwarf.rs:416-423). -/
structure SymScanner where
  name : Option Str := none
  linkage : Option Str := none
  line : Option Nat := none
  column : Option Nat := none
  file : Option (Option (Option Str × Str)) := none

/-- `SymbolDebugInfoScanner::handle_attribute` (dwarf.rs:426-449). -/
def SymScanner.handle (s : SymScanner) : Attr → SymScanner
  | .name v => { s with name := some v }
  | .linkage v => { s with linkage := some v }
  | .declLine n => { s with line := n }
  | .declColumn n => { s with column := n }
  | .declFile f => { s with file := some f }
  | _ => s

/-- `get_debug_info` (dwarf.rs:451-493) with `source_location` (dwarf.rs:406-413). -/
def SymScanner.info (s : SymScanner) (compDir : Str) (frames : List Frame) : Res (Option (Str × DebugInfo)) :=
  match s.linkage.or s.name, s.line, s.file with
  | some symbol, some line, some file =>
    match file with
    | none => .err
    | some f =>
      let p := match f.1 with | some d => pushPath compDir d | none => compDir
      .ok (some (symbol, ⟨⟨pushPath p f.2, line, s.column⟩, s.name.map fun n => ⟨currentNs frames, n⟩⟩))
  | _, _, _ => .ok none

/-- The state of the scan. -/
structure Scan where
  frames : List Frame := []
  inlined : List Inlined := []
  debug : List (Str × DebugInfo) := []

/-- `symbol_debug_info`: of several insertions for a symbol the last one stays (dwarf.rs:155). -/
def Scan.symbolDebugInfo (st : Scan) : AMap Str DebugInfo := st.debug.foldl (fun m x => m.insert x.1 x.2) []

/-- Whether the attributes of an entry are looked at for inlined functions (dwarf.rs:133-136). -/
def scanned (t : Tag) : Bool := t = .subprogram || t = .inlined || t = .lexicalBlock || t = .variable

/-- Body of the loop over the entries for an entry that is not null (dwarf.rs:118-168). -/
def scanEntry (units : List DUnit) (cur : DUnit) (m : AMap Nat (List Str)) (st : Scan) (e : Entry) : Res Scan :=
  let push (st : Scan) (f : Frame) : Scan := if e.hasChildren then { st with frames := f :: st.frames } else st
  if scanned e.tag then
    (Res.loop (Scanner.handle units cur m st.frames) {} e.attrs).bind fun s =>
    (s.inlined cur.compDir st.frames).bind fun inl =>
    (if e.tag = .subprogram ∨ e.tag = .variable then (e.attrs.foldl SymScanner.handle {}).info cur.compDir st.frames
      else .ok none).bind fun info =>
    .ok (push { st with inlined := st.inlined ++ inl.toList, debug := st.debug ++ info.toList } ⟨s.names, none, s.call⟩)
  else
    .ok (push st ⟨⟨none, none⟩, opens (st.frames.head?.bind Frame.ns) e, {}⟩)

/-- Body of the loop over the entries (dwarf.rs:112-169). -/
def scanItem (units : List DUnit) (cur : DUnit) (m : AMap Nat (List Str)) (st : Scan) (i : Nat × Option Entry) :
    Res Scan :=
  match i.2 with
  | none => .ok { st with frames := st.frames.tail }
  | some e => scanEntry units cur m st e

/-- One unit (dwarf.rs:97-170). -/
def scanUnit (units : List DUnit) (isStd : Str → Bool) (st : Scan) (u : DUnit) : Res Scan :=
  if isStd u.compDir then .ok st
  else Res.loop (scanItem units u (namespaces u)) { st with frames := [] } u.items

/-- `DebugArtifacts::from_dwarf` (dwarf.rs:67-89, 92-172). -/
def scan (units : List DUnit) (isStd : Str → Bool) : Res Scan := Res.loop (scanUnit units isStd) {} units

end Cackle.Dwarf
