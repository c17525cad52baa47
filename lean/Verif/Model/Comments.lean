import Verif.Model.Editor

/-!
# Comments in the configuration file

`toml_edit` keeps the text between the values. The text in front of an element of an array, up to the `[` or the
comma before it, belongs to that element; the text from the element to the next comma is its suffix; what is between
the last comma and the `]` belongs to the array. The text above a key belongs to the key; the rest of the line
after the value belongs to the value. (This is how version 0.25 of that crate parses; the crate is not modelled further.)

Of the text only comments and ends of lines are kept. Indentation is left out.
-/

namespace Cackle.Comments
open Cackle Config

/-- What can be between values. A comment is without the leading `# `. -/
inductive Piece where
  | newline
  | comment (c : Str)
deriving DecidableEq

/-- What the file consists of, in the part that is looked at. `value` is an element of an array or a key with its value. -/
inductive Sym where
  | value (v : Str)
  | comma
  | piece (p : Piece)
deriving DecidableEq

/-- An element of an array with its `Decor`. The elements are strings; others are rejected when the file is read. -/
structure Elem where
  pre : List Piece := []
  val : Str
  suf : List Piece := []
deriving DecidableEq

/-- `toml_edit::Array`. -/
structure Arr where
  elems : List Elem
  trailing : List Piece := []
  trailingComma : Bool := false
deriving DecidableEq

/-- `Display` for an element. -/
def Elem.text (e : Elem) : List Sym := e.pre.map .piece ++ .value e.val :: e.suf.map .piece

/-- The elements with commas in between. -/
def elemsText (last : Bool) : List Elem → List Sym
  | [] => []
  | [e] => e.text ++ (if last then [.comma] else [])
  | e :: rest => e.text ++ .comma :: elemsText last rest

/-- The array as it is written between `[` and `]`. -/
def Arr.text (a : Arr) : List Sym := elemsText a.trailingComma a.elems ++ a.trailing.map .piece

/-- `create_string` (config_editor.rs:1003-1010). -/
def createString (value : Str) (comment : Option Str) : Elem :=
  match comment with
  | some c => { pre := [.newline, .comment c, .newline], val := value }
  | none => { pre := [.newline], val := value }

/-- One iteration of the loop of `add_to_array` (config_editor.rs:645-663). -/
def insertElem (value : Str) (comment : Option Str) : List Elem → List Elem
  | [] => [createString value comment]
  | e :: rest =>
    if strLe value e.val then (if e.val = value then e :: rest else createString value comment :: e :: rest)
    else e :: insertElem value comment rest

/-- `add_to_array` on an array that exists (config_editor.rs:635-666), with the last lines of `get_or_create_array`
(config_editor.rs:997-999). -/
def addValues (values : List Str) (comment : Option Str) (a : Arr) : Arr :=
  if values = [] then a
  else
    { a with
      elems := values.foldl (fun es v => insertElem v comment es) a.elems
      trailingComma := if a.elems.isEmpty then true else a.trailingComma }

/-- The loop body of `RemoveUnusedAllowApis::apply` (config_editor.rs:896-904). -/
def removeElem (value : Str) : List Elem → List Elem
  | [] => []
  | e :: rest => if e.val = value then rest else e :: removeElem value rest

/-- `RemoveUnusedAllowApis::apply` on the array (config_editor.rs:896-904). -/
def removeValues (values : List Str) (a : Arr) : Arr :=
  { a with elems := values.foldl (fun es v => removeElem v es) a.elems }

/-- A key of a table with its value, and the text that belongs to it. -/
structure Entry where
  pre : List Piece := []
  key : Str
  suf : Option Str := none
deriving DecidableEq

/-- `Display` for a key and its value, which end with the line. -/
def Entry.text (e : Entry) : List Sym :=
  e.pre.map .piece ++ .value e.key :: ((e.suf.map fun c => Sym.piece (.comment c)).toList ++ [.piece .newline])

/-- A table as it is written below its header. -/
def tableText (es : List Entry) : List Sym := es.flatMap Entry.text

/-- `set_table_value` (config_editor.rs:1166-1178). The new value has no text of its own; the text of the key is kept unless
there is a comment. -/
def setEntry (key : Str) (comment : Option Str) : List Entry → List Entry
  | [] => [{ pre := match comment with | some c => [.comment c, .newline] | none => [], key := key }]
  | e :: rest =>
    if e.key = key then
      { pre := match comment with | some c => [.comment c, .newline] | none => e.pre, key := key, suf := none } :: rest
    else e :: setEntry key comment rest

/-- Whether a comment is in the text: `editor.to_toml().contains(PLACEHOLDER_COMMENT)` (problems_ui.rs:613), for comments as a whole. -/
def hasComment (c : Str) (text : List Sym) : Bool := text.any fun s => s == .piece (.comment c)

/-- The comment that is tried (problems_ui.rs:605). -/
def placeholder : Str := str! "CACKLE PLACEHOLDER COMMENT"

/-- `current_edit_supports_comments` (problems_ui.rs:595-614) for an edit that adds values to an array. -/
def supportsAdd (values : List Str) (a : Arr) : Bool := hasComment placeholder (addValues values (some placeholder) a).text

end Cackle.Comments
