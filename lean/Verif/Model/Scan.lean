import Verif.Model.BuildScript

/-!
# Model of `src/unsafe_checker.rs` and `src/extern_checker.rs`

The tokeniser (crate `ra_ap_rustc_lexer`) is not part of the repository: the model starts from the list of
tokens, each with its text and whether it is white space or a comment. The two files differ only in
`check_tokens` and in the keyword that is looked for in the last token, which are parameters here.
Offsets are byte offsets; slicing at an offset that is not a character boundary is the panic `none`.
-/

namespace Cackle.Scan
open Cackle

/-- A token: `skip` is the `skip_condition` (unsafe_checker.rs:28-37) applied to its kind. -/
structure Tok where
  skip : Bool
  text : Str

/-- `str::len`: number of bytes. -/
def byteLen (s : Str) : Nat := (s.map Char.utf8Size).sum

/-- `&s[..n]` -/
def takeBytes : Nat → Str → Option Str
  | 0, _ => some []
  | _ + 1, [] => none
  | n + 1, c :: cs => if c.utf8Size ≤ n + 1 then (takeBytes (n + 1 - c.utf8Size) cs).map (c :: ·) else none

/-- `&s[n..]` -/
def dropBytes : Nat → Str → Option Str
  | 0, s => some s
  | _ + 1, [] => none
  | n + 1, c :: cs => if c.utf8Size ≤ n + 1 then dropBytes (n + 1 - c.utf8Size) cs else none

/-- `&s[a..b]` -/
def slice (s : Str) (a b : Nat) : Option Str := (dropBytes a s).bind (takeBytes (b - a))

/-- `next_token` (unsafe_checker.rs:103-120): the token with the number of bytes skipped, and the rest. -/
def nextToken : List Tok → Nat → Option (Tok × Nat × List Tok)
  | [], _ => none
  | t :: rest, n => if t.skip then nextToken rest (n + byteLen t.text) else some (t, n, rest)

/-- `add_location` (unsafe_checker.rs:122-135): line and column. -/
def location (source : Str) (endOff len : Nat) : Option (Nat × Nat) :=
  (slice source 0 endOff).map (fun pre =>
    (max 1 (BuildScript.lines pre).length,
     match (BuildScript.lines pre).getLast? with
     | some line => byteLen line - len + 1
     | none => 1))

/-- Adds a location if the condition holds. -/
def addIf (cond : Bool) (source : Str) (endOff len : Nat) (locs : List (Nat × Nat)) :
    Option (List (Nat × Nat)) :=
  if cond then (location source endOff len).map (fun l => locs ++ [l]) else some locs

/-- What the loop remembers about the previous token. -/
structure Prev where
  text : Str := []
  endOff : Nat := 0
  len : Nat := 0

/-- The loop of `scan_string` (unsafe_checker.rs:44-94): one iteration handles two tokens. -/
def scanLoop (kw : Str) (check : Str → Str → Bool) (source : Str) :
    Nat → List Tok → Nat → Prev → List (Nat × Nat) → Option (List (Nat × Nat))
  | 0, _, _, _, _ => none
  | n + 1, toks, start, prev, locs =>
    match nextToken toks 0 with
    | none => some locs
    | some (tok, skipped, rest) =>
      let start := start + skipped
      let endOff := start + byteLen tok.text
      match slice source start endOff with
      | none => none
      | some text =>
        match addIf (prev.text != [] && check prev.text text) source prev.endOff prev.len locs with
        | none => none
        | some locs =>
          match nextToken rest 0 with
          | some (next, skipped, rest) =>
            let start := start + byteLen tok.text + skipped
            let nextEnd := start + byteLen next.text
            match slice source start nextEnd with
            | none => none
            | some nextText =>
              match addIf (check text nextText) source endOff (byteLen tok.text) locs with
              | none => none
              | some locs =>
                scanLoop kw check source n rest nextEnd ⟨nextText, nextEnd, byteLen next.text⟩ locs
          | none =>
            match addIf (text == kw) source endOff (byteLen tok.text) locs with
            | none => none
            | some locs => scanLoop kw check source n [] endOff ⟨text, endOff, byteLen tok.text⟩ locs

/-- `scan_string` (unsafe_checker.rs:24-96, extern_checker.rs:24-96). -/
def scanString (kw : Str) (check : Str → Str → Bool) (source : Str) (toks : List Tok) :
    Option (List (Nat × Nat)) :=
  scanLoop kw check source (toks.length + 1) toks 0 {} []

/-- `check_tokens` (unsafe_checker.rs:98-100). -/
def checkUnsafe (first second : Str) : Bool := first == str! "unsafe" && second != str! "extern"

/-- `check_tokens` (extern_checker.rs:98-100). -/
def checkExtern (first second : Str) : Bool :=
  first == str! "extern" && !(second == str! "crate" || second == str! "]" || second == str! ")")

/-- `unsafe_checker::scan_string`. -/
def scanUnsafe (source : Str) (toks : List Tok) : Option (List (Nat × Nat)) :=
  scanString (str! "unsafe") checkUnsafe source toks

/-- `extern_checker::scan_string`. -/
def scanExtern (source : Str) (toks : List Tok) : Option (List (Nat × Nat)) :=
  scanString (str! "extern") checkExtern source toks

end Cackle.Scan
