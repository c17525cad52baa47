import Verif.Model.Diff
import Verif.Model.BasicTerm

/-!
# Model of `show_diff` in `src/ui/basic_term.rs` and of the question which sandbox is available (`src/sandbox.rs`)

Colours are left out. A printed line is its text without the newline.
-/

namespace Cackle.ShowDiff
open Cackle
open Cackle.Diff (Item)

/-- The variables of `show_diff` (basic_term.rs:263-265) with what has been printed. -/
structure St where
  out : List Str := []
  common : List Str := []
  afterContext : Nat := 0
deriving DecidableEq, Repr

/-- A changed line (basic_term.rs:278-287): `print_common` (basic_term.rs:257-261), the line, and `CONTEXT`
(basic_term.rs:263) lines to follow. -/
def change (st : St) (line : Str) : St :=
  { out := st.out ++ st.common.map (' ' :: ·) ++ [line], common := [], afterContext := 2 }

/-- The loop body of `show_diff` (basic_term.rs:266-289). -/
def step (st : St) : Item → St
  | .both s =>
    if st.afterContext > 0 then { st with afterContext := st.afterContext - 1, out := st.out ++ [' ' :: s] }
    else { st with common := if (st.common ++ [s]).length > 2 then (st.common ++ [s]).tail else st.common ++ [s] }
  | .left s => change st ('-' :: s)
  | .right s => change st ('+' :: s)

/-- `show_diff` (basic_term.rs:256-291), from the result of `diff::lines`: the printed lines. -/
def showDiff (items : List Item) : List Str := (items.foldl step {}).out

/-- What happens when `bwrap --version` is run: it cannot be started, or it ends with or without success. -/
inductive Bwrap where
  | notStarted
  | ended (success : Bool)
deriving DecidableEq, Repr

/-- `has_bwrap` (bubblewrap.rs:99-105). -/
def hasBwrap : Bwrap → Bool
  | .notStarted => false
  | .ended success => success

/-- `available_kind` (sandbox.rs:222-228). -/
def availableKind (b : Bwrap) : Config.SandboxKind := if hasBwrap b then .bubblewrap else .disabled

/-- `verify_kind` (sandbox.rs:230-242): whether it returns without an error. -/
def verifyKind (b : Bwrap) (k : Config.SandboxKind) : Bool := !(k == .bubblewrap && b == .notStarted)

/-- The beginning of `create_initial_config` (basic_term.rs:107-121): the document and whether it was printed that there is
no sandbox. `bwrap --version` is run twice, which gives `first` and `second`; `none` is an error. -/
def initialDoc (first second : Bwrap) : Option (Toml.Entries × Bool) :=
  if verifyKind second (availableKind first) then
    (Basic.setup (availableKind first == .bubblewrap)).start.map (fun e => (e, availableKind first == .disabled))
  else none

end Cackle.ShowDiff
