import Verif.Model.SymbolGraph

/-!
# Model of `symbol_graph/backtrace.rs`: the search for a call chain

Not modelled: turning the addresses into frames with `addr2line` (backtrace.rs:58-97).
-/

namespace Cackle.Backtrace
open Cackle Graph

/-- `struct BinLocation` (checker.rs:100-105). -/
structure BinLoc where
  address : Nat
  symbolStart : Nat
deriving DecidableEq, Repr

/-- `Backtracer::back_references` (backtrace.rs:12-14). -/
abbrev BackRefs := AMap Nat (List BinLoc)

/-- `Backtracer::add_reference` (backtrace.rs:37-43). -/
def addReference (m : BackRefs) (loc : BinLoc) (target : Nat) : BackRefs := m.insert target ((m.get? target).getD [] ++ [loc])

/-- The call of `add_reference` (symbol_graph.rs:371-376). The target of a reference from a relocation has a symbol. -/
def recordRef (addresses : AMap Str Nat) (m : BackRefs) (r : Ref) : BackRefs :=
  match r.target.symbol.bind (fun s => addresses.get? s) with
  | some target => addReference m ⟨r.address, r.symbolStart⟩ target
  | none => m

/-- All references that are recorded for a binary: those of `process_object_file_bytes` (symbol_graph.rs:288-391), not
those of inlined functions. -/
def backReferences (b : Bin) (objs : List Obj) : Res BackRefs :=
  (loadSymbols b.symbols).bind fun addresses =>
  (Res.loop (fun l o => (objectRefs b addresses o).bind fun l' => .ok (l ++ l')) [] objs).bind fun refs =>
  .ok (refs.foldl (recordRef addresses) [])

/-- The variables `out` and `visited` of the search. -/
structure Search where
  out : List Nat
  visited : List Nat
deriving DecidableEq, Repr

/-- `Backtracer::find_frames` (backtrace.rs:100-122). The first argument bounds the depth of the recursion; `stuck` if
it is used up. -/
def findFrames (m : BackRefs) : Nat → List Nat → BinLoc → Search → Res Search
  | 0, _, _, _ => .stuck
  | n + 1, candidate, loc, st =>
    if loc.address ∈ st.visited then .ok st
    else
      let candidate := candidate ++ [loc.address]
      let st : Search := { st with visited := loc.address :: st.visited }
      match m.get? loc.symbolStart with
      | some references => Res.loop (fun st r => findFrames m n candidate r st) st references
      | none => .ok (if candidate.length > st.out.length then { st with out := candidate } else st)

/-- The addresses of a backtrace (backtrace.rs:49-56). -/
def backtrace (m : BackRefs) (n : Nat) (loc : BinLoc) : Res (List Nat) :=
  (findFrames m n [] loc ⟨[], []⟩).bind fun st => .ok st.out

end Cackle.Backtrace
