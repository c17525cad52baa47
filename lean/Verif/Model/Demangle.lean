import Verif.Model.Basic

/-!
# Model of `src/demangle.rs`

Text is a list of characters; lengths and positions that the code counts in bytes are counted in bytes here too.
Splitting a text at a position inside a character is a panic. The iterators are modelled by their `next` functions.
Running out of stack by recursion over a very long symbol is not modelled.
-/

namespace Cackle.Demangle
open Cackle

/-- `enum DemangleToken` (demangle.rs:12-17). A text also carries its position in the demangled data, counted
in characters from the end: two texts are the same slice of the data if and only if text and position are equal
(names.rs compares the addresses of slices). The texts that are not slices (`"()"`, `"u"`, `"i"`) have position 0. -/
inductive Tok where
  | text (s : Str) (pos : Nat)
  | char (c : Char)
  | unsupported (s : Str)
deriving DecidableEq

/-- The result of a parsing function: no match, a panic, lack of fuel, or a result. -/
inductive P (α : Type) where
  | no
  | panic
  | stuck
  | ok (a : α)
deriving DecidableEq

/-- The result of `Iterator::next`, with the new state of the iterator. -/
inductive Next (σ : Type) where
  | done
  | panic
  | stuck
  | tok (t : Tok) (s : σ)

/-- `str::len`. -/
def byteLen : Str → Nat
  | [] => 0
  | c :: s => c.utf8Size + byteLen s

/-- `str::split_at`; `none` is the panic. -/
def splitBytes : Nat → Str → Option (Str × Str)
  | 0, s => some ([], s)
  | _ + 1, [] => none
  | n + 1, c :: s =>
    if c.utf8Size ≤ n + 1 then (splitBytes (n + 1 - c.utf8Size) s).map (fun r => (c :: r.1, r.2)) else none

/-- The part after the first occurrence of `c` and the part before it (`str::find`). -/
def findSplit (c : Char) : Str → Option (Str × Str)
  | [] => none
  | d :: s => if d = c then some ([], s) else (findSplit c s).map (fun r => (d :: r.1, r.2))

/-- `u8::is_ascii_digit`. -/
def isDigit (c : Char) : Bool := decide ('0'.toNat ≤ c.toNat) && decide (c.toNat ≤ '9'.toNat)

/-- The longest prefix of digits and the rest. -/
def digits : Str → Str × Str
  | [] => ([], [])
  | c :: s => if isDigit c then ((c :: (digits s).1), (digits s).2) else ([], c :: s)

/-- The value of a digit string. -/
def decimal (s : Str) : Nat := s.foldl (fun n c => 10 * n + (c.toNat - '0'.toNat)) 0

/-- The value of a hexadecimal digit (`char::to_digit(16)`). -/
def hexDigit (c : Char) : Option Nat :=
  if isDigit c then some (c.toNat - '0'.toNat)
  else if 'a'.toNat ≤ c.toNat ∧ c.toNat ≤ 'f'.toNat then some (c.toNat - 'a'.toNat + 10)
  else if 'A'.toNat ≤ c.toNat ∧ c.toNat ≤ 'F'.toNat then some (c.toNat - 'A'.toNat + 10)
  else none

/-- The value of a string of hexadecimal digits. -/
def hexValue : Nat → Str → Option Nat
  | n, [] => some n
  | n, c :: s => (hexDigit c).bind fun d => hexValue (16 * n + d) s

/-- `u32::from_str_radix(_, 16)`: a plus sign is accepted. -/
def parseHex (s : Str) : Option Nat :=
  let s := match s with
    | '+' :: r => r
    | s => s
  if s = [] then none else (hexValue 0 s).bind fun n => if n < 2 ^ 32 then some n else none

/-- `symbol` (demangle.rs:64-82). -/
def symbol (esc : Str) : Option Char :=
  if esc = str! "LT" then some '<'
  else if esc = str! "GT" then some '>'
  else if esc = str! "LP" then some '('
  else if esc = str! "RP" then some ')'
  else if esc = str! "C" then some ','
  else if esc = str! "BP" then some '*'
  else if esc = str! "RF" then some '&'
  else match esc with
    | 'u' :: hex => (parseHex hex).bind fun n => if n.isValidChar then some (Char.ofNat n) else none
    | _ => none

/-! ## Legacy mangling -/

/-- The state of `DemangleIterator::Legacy` (demangle.rs:24-27). -/
structure Legacy where
  outer : Str
  inner : Option Str := none

/-- Skipping the dots (demangle.rs:317-319). -/
def dropDots : Str → Str
  | '.' :: s => dropDots s
  | s => s

/-- The text up to the next dot or dollar sign (demangle.rs:329-333). -/
def chunk : Str → Str × Str
  | [] => ([], [])
  | c :: s => if c = '.' ∨ c = '$' then ([], c :: s) else ((c :: (chunk s).1), (chunk s).2)

/-- The token taken from a component with escapes, and what is left of the component (demangle.rs:317-335).
`after` is the number of characters that follow the component. -/
def innerNext (data : Str) (after : Nat) : Tok × Str :=
  let data := dropDots data
  let plain := (Tok.text (chunk data).1 (data.length + after), (chunk data).2)
  match data with
  | '$' :: rest =>
    match findSplit '$' rest with
    | some (esc, rest) =>
      (match symbol esc with
        | some ch => Tok.char ch
        | none => Tok.unsupported esc, rest)
    | none => plain
  | _ => plain

/-- The next component (demangle.rs:341-349): its text and the rest. -/
def component (outer : Str) : P (Str × Str) :=
  let d := digits outer
  if d.2 = [] then .no                    -- no non-digit, or empty
  else if d.1 = [] then .no               -- `"".parse()` fails
  else if 2 ^ 64 ≤ decimal d.1 then .no   -- overflow
  else if byteLen d.2 < decimal d.1 then .no
  else match splitBytes (decimal d.1) d.2 with
    | none => .panic
    | some r => .ok r

/-- `DemangleIterator::next` for legacy mangling (demangle.rs:311-360). The first argument bounds the recursion. -/
def legacyNext : Nat → Legacy → Next Legacy
  | 0, _ => .stuck
  | fuel + 1, st =>
    match (if st.inner = some [] then none else st.inner) with
    | some data =>
      let r := innerNext data st.outer.length
      .tok r.1 { outer := st.outer, inner := some r.2 }
    | none =>
      match component st.outer with
      | .no => .done
      | .panic => .panic
      | .stuck => .stuck
      | .ok (part, rest) =>
        match part with
        | '_' :: tail => legacyNext fuel { outer := rest, inner := some tail }
        | _ =>
          if '$' ∈ part then legacyNext fuel { outer := rest, inner := some part }
          else .tok (.text part (part.length + rest.length)) { outer := rest }

/-! ## V0 mangling -/

/-- `is_base62_digit` (demangle.rs:85-87). -/
def isBase62 (c : Char) : Bool :=
  isDigit c || (decide ('a'.toNat ≤ c.toNat) && decide (c.toNat ≤ 'z'.toNat)) ||
    (decide ('A'.toNat ≤ c.toNat) && decide (c.toNat ≤ 'Z'.toNat))

/-- `parse_decimal` (demangle.rs:89-105). -/
def parseDecimal (data : Str) : Option (Nat × Str) :=
  let d := digits data
  if 2 ^ 64 ≤ decimal d.1 then none else if d.1 = [] then none else some (decimal d.1, d.2)

/-- `parse_disambiguator` (demangle.rs:107-117). -/
def parseDisambiguator (data : Str) : Option Str :=
  match data with
  | 's' :: rest => (findSplit '_' rest).map (·.2)
  | data => some data

/-- `strip_prefix(c).unwrap_or(data)`. -/
def stripOne (c : Char) : Str → Str
  | d :: s => if d = c then s else d :: s
  | [] => []

/-- `parse_undisambiguated_identifier` (demangle.rs:119-135). -/
def parseUndisambiguated (data : Str) : P (Str × Str) :=
  match parseDecimal (stripOne 'u' data) with
  | none => .no
  | some (len, rest) =>
    let rest := stripOne '_' rest
    if len ≤ byteLen rest then
      match splitBytes len rest with
      | none => .panic
      | some r => .ok r
    else .no

/-- `parse_identifier` (demangle.rs:137-142). -/
def parseIdentifier (data : Str) : P (Str × Str) :=
  match parseDisambiguator data with
  | none => .no
  | some rest => parseUndisambiguated rest

mutual
/-- `skip_v0_type` (demangle.rs:366-440). The first argument bounds the recursion. -/
def skipType : Nat → Str → P Str
  | 0, _ => .stuck
  | fuel + 1, data =>
    match data with
    | [] => .no
    | tag :: rest =>
      if tag.utf8Size ≠ 1 then .panic
      else if tag = 'C' then
        match parseIdentifier rest with
        | .no => .no
        | .panic => .panic
        | .stuck => .stuck
        | .ok r => .ok r.2
      else if tag ∈ ['N', 'p', 'R', 'Q', 'A', 'S'] then skipType fuel rest
      else if tag = 'T' then skipArgs fuel rest
      else if tag = 'I' then
        match skipType fuel rest with
        | .ok current => skipArgs fuel current
        | r => r
      else if tag ∈ ['e', 'u', 'i', 'f', 'b', 'c', 'z', 'v'] then .ok rest
      else if isBase62 tag then
        match parseIdentifier data with
        | .no => .no
        | .panic => .panic
        | .stuck => .stuck
        | .ok r => .ok r.2
      else .ok rest

/-- The loops of `skip_v0_type` (demangle.rs:394-406, 411-423). -/
def skipArgs : Nat → Str → P Str
  | 0, _ => .stuck
  | fuel + 1, current =>
    match current with
    | [] => .no
    | c :: rest =>
      if c = 'E' then .ok rest
      else match skipType fuel (c :: rest) with
        | .ok new => skipArgs fuel new
        | r => r
end

/-- What `DemangleIterator::next` does for one tag: as `Next`, or it calls itself. -/
inductive V0Step where
  | done
  | panic
  | stuck
  | tok (t : Tok) (s : Str)
  | again (s : Str)

/-- The token for an identifier; `none_` says what happens if there is no identifier. -/
def identStep (data : Str) (none_ : V0Step) : V0Step :=
  match parseIdentifier data with
  | .no => none_
  | .panic => .panic
  | .stuck => .stuck
  | .ok r => .tok (.text r.1 (r.1.length + r.2.length)) r.2

/-- The case `N` (demangle.rs:158-190). -/
def nestedStep (rest : Str) : V0Step :=
  match rest with
  | [] => .again []
  | next :: rest' =>
    if next = 't' ∨ next = 'v' then .again rest'
    else if next = 'C' ∨ next = 'S' then .again rest
    else identStep rest (.again rest)

/-- The case `M` (demangle.rs:191-205). -/
def implStep (rest : Str) : V0Step :=
  match skipType (2 * rest.length + 1) rest with
  | .no => .again rest
  | .panic => .panic
  | .stuck => .stuck
  | .ok new => .again new

/-- One tag of a v0 symbol (demangle.rs:149-309). -/
def v0Step (tag : Char) (rest : Str) : V0Step :=
  if tag.utf8Size ≠ 1 then .panic
  else if tag = 'C' then identStep rest .done
  else if tag = 'N' then nestedStep rest
  else if tag ∈ ['v', 't', 'm'] then .again rest
  else if tag = 'M' then implStep rest
  else if tag = 'X' then .again ((parseDisambiguator rest).getD rest)
  else if tag = 'Y' then .again rest
  else if tag = 'B' then .again (((findSplit '_' rest).map (·.2)).getD rest)
  else if tag = 'I' then .tok (.char '<') rest
  else if tag = 'E' then .tok (.char '>') rest
  else if tag = 'p' then .tok (.char '*') rest
  else if tag ∈ ['R', 'Q'] then .tok (.char '&') rest
  else if tag = 'A' then .tok (.char '[') rest
  else if tag = 'S' then .again rest
  else if tag = 'T' then .tok (.char '(') rest
  else if tag = 'e' then .tok (.text (str! "()") 0) rest
  else if tag = 'u' then .tok (.text (str! "u") 0) rest
  else if tag = 'i' then .tok (.text (str! "i") 0) rest
  else if tag = '_' then .tok (.char ',') rest
  else if isBase62 tag then identStep (tag :: rest) .done
  else .again rest

/-- `DemangleIterator::next` for v0 mangling (demangle.rs:149-309). The first argument bounds the recursion. -/
def v0Next : Nat → Str → Next Str
  | 0, _ => .stuck
  | _ + 1, [] => .done
  | fuel + 1, tag :: rest =>
    match v0Step tag rest with
    | .done => .done
    | .panic => .panic
    | .stuck => .stuck
    | .tok t s => .tok t s
    | .again s => v0Next fuel s

/-! ## Both -/

/-- `enum DemangleIterator` (demangle.rs:19-29). -/
inductive Iter where
  | v0 (remaining : Str)
  | legacy (st : Legacy)
  | empty

/-- `str::strip_prefix` with a text. -/
def stripText : Str → Str → Option Str
  | [], s => some s
  | _ :: _, [] => none
  | p :: ps, c :: s => if p = c then stripText ps s else none

/-- `str::strip_suffix` with a character. -/
def stripLast (c : Char) (s : Str) : Option Str :=
  if s.getLast? = some c then some s.dropLast else none

/-- `DemangleIterator::new` (demangle.rs:38-54). -/
def Iter.new (data : Str) : Iter :=
  match stripText (str! "_R") data with
  | some rest => .v0 rest
  | none =>
    match (stripText (str! "_ZN") data).bind (stripLast 'E') with
    | some rest => .legacy { outer := rest }
    | none => .empty

/-- Changes the state in the result. -/
def Next.map {σ τ : Type} (f : σ → τ) : Next σ → Next τ
  | .done => .done
  | .panic => .panic
  | .stuck => .stuck
  | .tok t s => .tok t (f s)

/-- `DemangleIterator::next` (demangle.rs:147-362), with enough fuel for every recursion (`Lemmas/Demangle.lean`
proves that it never runs out). -/
def Iter.next : Iter → Next Iter
  | .v0 remaining => (v0Next (remaining.length + 1) remaining).map .v0
  | .legacy st => (legacyNext (st.outer.length + 2) st).map .legacy
  | .empty => .done

/-! ## Names that are not mangled -/

/-- `struct NonMangledIterator` (demangle.rs:31-35). -/
structure Plain where
  namespace_ : List Str
  data : Str

/-- `IS_PART_SEPARATOR`, and characters outside of ASCII (demangle.rs:442-461, 478-488). -/
def isSeparator (c : Char) : Bool :=
  decide (128 ≤ c.toNat) ||
    c ∈ ['<', '>', '[', ']', '(', ')', '{', '}', ';', '&', '*', ':', ',', ' ']

/-- Skipping colons (demangle.rs:472-474). -/
def dropColons : Str → Str
  | ':' :: s => dropColons s
  | s => s

/-- The text up to the next separator. -/
def word : Str → Str × Str
  | [] => ([], [])
  | c :: s => if isSeparator c then ([], c :: s) else ((c :: (word s).1), (word s).2)

/-- `NonMangledIterator::next` (demangle.rs:463-498). -/
def Plain.next (it : Plain) : Next Plain :=
  match it.namespace_ with
  | n :: rest => .tok (.text n (it.data.length + rest.length + 1)) { it with namespace_ := rest }
  | [] =>
    match dropColons it.data with
    | [] => .done
    | c :: s =>
      if isSeparator c then .tok (.char c) { it with data := s }
      else .tok (.text (word (c :: s)).1 (s.length + 1)) { it with data := (word (c :: s)).2 }

/-! ## Iterating -/

/-- How an iteration ends; `more` says that it was not followed to its end. -/
inductive End where
  | fin
  | panic
  | stuck
  | more
deriving DecidableEq

/-- The tokens that at most `n` calls of `next` give, and what happens then. -/
def toks {σ : Type} (next : σ → Next σ) : Nat → σ → List Tok × End
  | 0, _ => ([], .more)
  | n + 1, s =>
    match next s with
    | .done => ([], .fin)
    | .panic => ([], .panic)
    | .stuck => ([], .stuck)
    | .tok t s' => let r := toks next n s'; (t :: r.1, r.2)

end Cackle.Demangle
