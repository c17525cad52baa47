import Verif.Model.ProblemsUi
import Verif.Model.Diff
import Verif.Model.Wire

/-!
# Model of what `src/ui/full_term/problems_ui.rs` draws

The list of problems with the rows that are inserted into it and the highlighted row, the source code of a use, and the
details of an edit. Colours, borders and the sizes of the areas are left out: the height of the inner part of an area is a parameter. The
crate `ratatui` shows the lines of a paragraph one below the other, each on as many rows of the screen as it needs, and cuts off
what does not fit.
-/

namespace Cackle.Ui
open Cackle Store

variable {F E C : Type}

/-- A row of the list in the upper part of the screen: a problem, or an edit, a use or a frame of a backtrace of the selected
problem. -/
inductive Row where
  | problem (i : Nat)
  | edit (i : Nat)
  | usage (i : Nat)
  | frame (i : Nat)
deriving DecidableEq

/-- `is_edit_mode` (problems_ui.rs:375). -/
def editMode (ms : List Mode) : Bool := ms.any (fun m => m = .selectEdit)

/-- `is_usage_mode` (problems_ui.rs:376). -/
def usageMode (ms : List Mode) : Bool := ms.any (fun m => m = .selectUsage)

/-- `backtrace_frames` (problems_ui.rs:377-380). -/
def backtraceFrames : List Mode → Option Nat
  | .backtrace n :: _ => some n
  | _ => none

/-- The rows for one use (problems_ui.rs:395-404). -/
def usageRows (s : State F C) (j : Nat) : List Row :=
  .usage j :: match backtraceFrames s.modes with
    | none => []
    | some n => if j = s.usageIndex then (List.range n).map .frame else []

/-- The rows below the selected problem (problems_ui.rs:385-406). -/
def insertedRows (env : Env F E C) (s : State F C) : List Row :=
  if editMode s.modes then (List.range (s.edits env).length).map .edit
  else if usageMode s.modes then (List.range s.usages).flatMap (usageRows s)
  else []

/-- `items` in `render_problems` (problems_ui.rs:373-408). -/
def rows (env : Env F E C) (s : State F C) : List Row :=
  (List.range (live s.store).length).flatMap (fun i =>
    .problem i :: if i = s.problemIndex then insertedRows env s else [])

/-- `index` in `render_problems` (problems_ui.rs:409-424). -/
def rowIndex (s : State F C) : Nat :=
  if editMode s.modes then s.problemIndex + (s.editIndex + 1)
  else if usageMode s.modes then
    match backtraceFrames s.modes with
    | some _ => s.problemIndex + (s.usageIndex + 1) + (s.backtraceIndex + 1)
    | none => s.problemIndex + (s.usageIndex + 1)
  else s.problemIndex

/-- The highlighted row (full_term.rs:249-251). -/
def highlighted (env : Env F E C) (s : State F C) : Option Row := (rows env s)[rowIndex s]?

/-! ## Source code -/

/-- `start_line` (problems_ui.rs:761, 765-766). Line numbers are less than 2³¹. -/
def startLine (target maxLines : Nat) : Nat := Nat.max (target - maxLines / 2) 1

/-- `ilog10() + 1`: the number of digits of a positive number (problems_ui.rs:767). -/
def digits (n : Nat) : Nat := (Wire.decimal n).length

/-- The text in front of a line (problems_ui.rs:772-778). -/
def gutter (target maxLines n : Nat) : Str :=
  (if n = target then str! "> " else str! "  ") ++
    List.replicate (digits (startLine target maxLines + maxLines) - digits n) ' ' ++ Wire.decimal n ++ str! ": "

/-- The lines of `usage_source_lines` with their numbers (problems_ui.rs:768-785); `source` are the lines of the file. -/
def sourceLines (source : List Str) (target maxLines : Nat) : List (Nat × Str) :=
  ((source.drop (startLine target maxLines - 1)).take maxLines).zipIdx.map
    (fun x => (startLine target maxLines + x.2, gutter target maxLines (startLine target maxLines + x.2) ++ x.1))

/-- The tokens of a line (problems_ui.rs:790-811), each with whether it is highlighted; `line` are the bytes, `lens` the lengths of
the tokens (crate `ra_ap_rustc_lexer`), `column` is `column_offset`. -/
def formatLine {α : Type} (column : Option Nat) (offset : Nat) (line : List α) : List Nat → List (List α × Bool)
  | [] => []
  | len :: lens =>
    (line.take len, match column with
      | none => false
      | some c => decide (offset ≤ c ∧ c < offset + len)) :: formatLine column (offset + len) (line.drop len) lens

/-- `format_line` (problems_ui.rs:788-811). -/
def format {α : Type} (column : Option Nat) (line : List α) (lens : List Nat) : List (List α × Bool) :=
  formatLine (column.map (fun c => c - 1)) 0 line lens

/-! ## The details of an edit -/

/-- The lines above the diff (problems_ui.rs:738-750): the help, the error if the edit fails, and a title unless the diff is
empty. -/
def detailHead (help : Str) (error : Option Str) (diff : List Str) : List Str :=
  help :: (match error with
    | none => []
    | some e => [[], e]) ++ (if diff = [] then [] else [[], str! "=== Diff of cackle.toml ==="])

/-- `config_diff_lines` (problems_ui.rs:732-755) from the result of `diff::lines`. The subtraction is that of a release
build, which wraps around; a debug build panics when it is negative. The first argument bounds the iterations of
`remove_excess_context`. -/
def configDiffLines (fuel : Nat) (help : Str) (error : Option Str) (items : List Diff.Item) (maxLines : Nat) :
    Option (List Str) :=
  let diff := Diff.diffLines items
  (Diff.removeExcessContext fuel ((maxLines : Int) - (detailHead help error diff).length) diff).map
    (fun out => detailHead help error diff ++ out)

/-- `render_edit_help_and_diff` (problems_ui.rs:478-497): what is computed for an area with `height` rows. Two rows are taken by the
border, and two more are left. -/
def editDetails (fuel : Nat) (help : Str) (error : Option Str) (items : List Diff.Item) (height : Nat) : Option (List Str) :=
  configDiffLines fuel help error items (height - 4)

/-! ## Paragraphs -/

/-- The lines that are visible at least in part in a paragraph with `height` rows; `rowsOf` is the number of rows that a line
takes (at least one). Crate `ratatui`, `Paragraph` with `Wrap` and without scrolling. -/
def visible (rowsOf : Str → Nat) : Nat → List Str → List Str
  | _, [] => []
  | 0, _ => []
  | h + 1, l :: ls => l :: visible rowsOf (h + 1 - rowsOf l) ls

end Cackle.Ui
