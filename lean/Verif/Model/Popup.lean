import Verif.Model.Help

/-!
# Model of the pop-ups (`src/ui/full_term.rs`, `src/ui/full_term/problems_ui.rs`)

Crate `ratatui`: `Layout` with three `Length` constraints that fit into the available size gives the second part
exactly its length, behind the first one; a border takes one row or column on each side; a cell of a `Table` shows
the beginning of its text. Sizes are below 2¹⁶, except where they are computed from texts.
-/

namespace Cackle.Ui
open Cackle

/-- A part of the screen. -/
structure Area where
  x : Nat
  y : Nat
  width : Nat
  height : Nat
deriving DecidableEq, Repr

/-- `centre` (full_term.rs:216-224): the margin and the size. -/
def centre (target available : Nat) : Nat × Nat :=
  let actual := Nat.min target available
  ((available - actual) / 2, actual)

/-- `centre_area` (full_term.rs:203-214), for a terminal with `tw` columns and `th` rows. -/
def centreArea (tw th width height : Nat) : Area :=
  { x := (centre width tw).1, y := (centre height th).1, width := (centre width tw).2, height := (centre height th).2 }

/-- `str::len`. -/
def byteLen (s : Str) : Nat := (s.map Char.utf8Size).sum

/-- `iter().map(len).max().unwrap_or(0)`. -/
def maxLen (lines : List Str) : Nat := (lines.map byteLen).foldl Nat.max 0

/-- `render_message` (problems_ui.rs:887-903): the area of the pop-up. -/
def messageArea (tw th : Nat) (lines : List Str) : Area :=
  centreArea tw th (Nat.max ((maxLen lines + 2) % 65536) 20) (Nat.max ((lines.length + 2) % 65536) 5)

/-- `render_message` (problems_ui.rs:904-911): the lines of which something is visible. -/
def messageLines (rowsOf : Nat → Str → Nat) (tw th : Nat) (lines : List Str) : List Str :=
  visible (rowsOf ((messageArea tw th lines).width - 2)) ((messageArea tw th lines).height - 2) lines

/-- `render_auto_accept` (problems_ui.rs:873-885). -/
def autoAcceptText : List Str :=
  [str! "Auto-accept edits for all problems that only have a single edit?",
    [],
    str! "It's recommended that you look over the resulting cackle.toml afterwards to see if there are any crates with permissions that you don't think they should have.",
    [],
    str! "Press enter to accept, or escape to cancel."]

/-- `left_col_width` (problems_ui.rs:856). -/
def leftColumn : Nat := 5

/-- `render_help` (problems_ui.rs:856-864): the area of the help. -/
def helpArea (tw th : Nat) (keys : List (Str × Str)) : Area :=
  centreArea tw th (maxLen (keys.map Prod.snd) + leftColumn + 3) (keys.length + 2)

/-- `render_help` (problems_ui.rs:861-871): what is visible of the rows. The columns are one apart. -/
def helpRows (tw th : Nat) (keys : List (Str × Str)) : List (Str × Str) :=
  (keys.take ((helpArea tw th keys).height - 2)).map
    (fun k => (k.1.take leftColumn, k.2.take ((helpArea tw th keys).width - 2 - leftColumn - 1)))

/-- `render_comment_input` (problems_ui.rs:690-699): the area. -/
def commentArea (tw th : Nat) : Area := centreArea tw th 80 3

/-- What is visible of the text (there is no scrolling): nothing if there is no row between the borders. -/
def commentShown (tw th : Nat) (text : Str) : Str :=
  if (commentArea tw th).height - 2 = 0 then [] else text.take ((commentArea tw th).width - 2)

/-- The column of the cursor, which is behind `cursor` characters; characters are one column wide. -/
def commentCursor (tw th : Nat) (cursor : Nat) : Nat := (commentArea tw th).x + 1 + cursor

end Cackle.Ui
