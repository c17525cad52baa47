import Verif.Model.Scan

/-!
# A simplified model of the tokeniser (crate `ra_ap_rustc_lexer`, not part of the repository)

Used only for C55. White space, line comments, nested block comments, string literals and identifiers are
recognised; every other character is a token of its own. Raw strings, character literals, lifetimes,
numbers and doc comments are left out.
-/

namespace Cackle.Lexer
open Cackle Scan

/-- White space. -/
def isWs (c : Char) : Bool := c = ' ' || c = '\n' || c = '\t' || c = '\r'
/-- Identifier characters (digits included, which does not matter here). -/
def isIdent (c : Char) : Bool := c.isAlphanum || c = '_'

/-- Splits off a maximal run of characters satisfying `p`. -/
def run (p : Char → Bool) : Str → Str × Str
  | [] => ([], [])
  | c :: cs => if p c then ((c :: (run p cs).1), (run p cs).2) else ([], c :: cs)

/-- The rest of a block comment at nesting depth `d + 1`; unterminated comments extend to the end. -/
def block : Nat → Str → Str × Str
  | _, [] => ([], [])
  | d, '*' :: '/' :: cs =>
    match d with
    | 0 => (['*', '/'], cs)
    | d + 1 => ('*' :: '/' :: (block d cs).1, (block d cs).2)
  | d, '/' :: '*' :: cs => ('/' :: '*' :: (block (d + 1) cs).1, (block (d + 1) cs).2)
  | d, c :: cs => (c :: (block d cs).1, (block d cs).2)

/-- The rest of a string literal. -/
def strLit : Str → Str × Str
  | [] => ([], [])
  | '\\' :: c :: cs => ('\\' :: c :: (strLit cs).1, (strLit cs).2)
  | '"' :: cs => (['"'], cs)
  | c :: cs => (c :: (strLit cs).1, (strLit cs).2)

/-- The first token and the rest. -/
def first : Str → Option (Tok × Str)
  | [] => none
  | '/' :: '/' :: cs => some (⟨true, '/' :: '/' :: (run (· ≠ '\n') cs).1⟩, (run (· ≠ '\n') cs).2)
  | '/' :: '*' :: cs => some (⟨true, '/' :: '*' :: (block 0 cs).1⟩, (block 0 cs).2)
  | '"' :: cs => some (⟨false, '"' :: (strLit cs).1⟩, (strLit cs).2)
  | c :: cs =>
    if isWs c then some (⟨true, c :: (run isWs cs).1⟩, (run isWs cs).2)
    else if isIdent c then some (⟨false, c :: (run isIdent cs).1⟩, (run isIdent cs).2)
    else some (⟨false, [c]⟩, cs)

/-- `tokenize` with a bound on the number of tokens. -/
def lexN : Nat → Str → List Tok
  | 0, _ => []
  | n + 1, s =>
    match first s with
    | none => []
    | some (t, rest) => t :: lexN n rest

/-- `tokenize`: every token has at least one character. -/
def lex (s : Str) : List Tok := lexN s.length s

/-- `rustc_lexer::strip_shebang`, which the compiler applies to every source file before tokenising it: a
first line starting with `#!` is dropped unless the next token is `[`. -/
def stripShebang (s : Str) : Str :=
  match s with
  | '#' :: '!' :: tail =>
    match ((lex tail).filter (fun t => !t.skip)).head?.map Tok.text with
    | some ['['] => s
    | _ => (run (· ≠ '\n') tail).2
  | _ => s

end Cackle.Lexer
