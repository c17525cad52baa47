import Verif.Model.Basic

/-!
# Model of `ui/full_term/problems_ui/diff.rs`: the displayed diff of a configuration file

A displayed line is its text; colours are left out.
-/

namespace Cackle.Diff
open Cackle

/-- `diff::Result`, an entry of the result of `diff::lines` (crate `diff`). -/
inductive Item where
  | left (s : Str)
  | both (s : Str)
  | right (s : Str)
deriving DecidableEq, Repr

/-- `is_section_start` (diff.rs:10-12). -/
def isSectionStart (s : Str) : Bool := s.head? == some '['

/-- The variables of `diff_lines` (diff.rs:14-17). -/
structure St where
  lines : List Str := []
  common : List Str := []
  afterContext : Bool := false
deriving DecidableEq, Repr

/-- A changed line (diff.rs:35-43, 44-53). -/
def change (st : St) (line : Str) : St :=
  { lines := st.lines ++ st.common.map (' ' :: ·) ++ [line], common := [], afterContext := true }

/-- The loop body of `diff_lines` (diff.rs:18-54). -/
def step (st : St) : Item → St
  | .both s =>
    if st.afterContext then
      if isSectionStart s then { st with afterContext := false } else { st with lines := st.lines ++ [' ' :: s] }
    else { st with common := (if isSectionStart s then [] else st.common) ++ [s] }
  | .left s => change st ('-' :: s)
  | .right s => change st ('+' :: s)

/-- `diff_lines` (diff.rs:9-57), from the result of `diff::lines`. -/
def diffLines (items : List Item) : List Str := (items.foldl step {}).lines

/-- `struct ContextBlock` (diff.rs:61-65). -/
structure Block where
  start : Nat
  length : Nat
  toTake : Nat
deriving DecidableEq, Repr

/-- `is_context` (diff.rs:70-74). -/
def isContext (line : Str) : Bool := line.head? == some ' '

/-- The search for blocks (diff.rs:67-86); `current` is `current_block`. -/
def blocksFrom (offset : Nat) (current : Option Block) : List Str → List Block
  | [] => current.toList
  | line :: rest =>
    if isContext line then
      let b := current.getD ⟨offset, 0, 0⟩
      blocksFrom (offset + 1) (some { b with length := b.length + 1 }) rest
    else current.toList ++ blocksFrom (offset + 1) none rest

/-- `b.length - b.to_take`. -/
def Block.left (b : Block) : Nat := b.length - b.toTake

/-- The position of the result of `max_by_key` (diff.rs:91): the last one with the largest key. -/
def maxPos : List Block → Option (Nat × Block)
  | [] => none
  | b :: bs =>
    match maxPos bs with
    | some (i, c) => if b.left ≤ c.left then some (i + 1, c) else some (0, b)
    | none => some (0, b)

/-- The loop that decides what is removed (diff.rs:88-105). The first argument bounds the number of iterations; `none` if
it is used up. -/
def reclaim : Nat → Int → List Block → Option (List Block)
  | 0, _, _ => none
  | n + 1, toReclaim, blocks =>
    if toReclaim ≤ 0 then some blocks
    else
      match maxPos blocks with
      | none => some blocks
      | some (i, b) =>
        if b.left = 0 then some blocks
        else reclaim n (if b.toTake > 0 then toReclaim - 1 else toReclaim) (blocks.set i { b with toTake := b.toTake + 1 })

/-- The loop that builds the new lines (diff.rs:107-125). -/
def emit (offset : Nat) : List Block → List Str → List Str
  | _, [] => []
  | [], line :: rest => line :: emit (offset + 1) [] rest
  | b :: bs, line :: rest =>
    let skipStart := b.start + (b.length - b.toTake) / 2
    let skipEnd := skipStart + b.toTake
    if offset < skipStart then line :: emit (offset + 1) (b :: bs) rest
    else if skipEnd ≤ offset then str! "..." :: line :: emit (offset + 1) bs rest
    else emit (offset + 1) (b :: bs) rest

/-- `remove_excess_context` (diff.rs:60-126). `maxLines` is an integer because a large `usize` becomes negative; the
difference is not too large for an `isize`. -/
def removeExcessContext (n : Nat) (maxLines : Int) (lines : List Str) : Option (List Str) :=
  (reclaim n (lines.length - maxLines) (blocksFrom 0 none lines)).map fun blocks =>
    emit 0 (blocks.filter (fun b => b.toTake > 0)) lines

end Cackle.Diff
