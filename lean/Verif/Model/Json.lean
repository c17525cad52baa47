import Verif.Model.Wire

/-!
# JSON as written and read by `serde_json` (version 1)

Requests (`src/proxy/rpc.rs`) and the configuration for sub-processes (`src/proxy/subprocess.rs`) are written
with `serde_json::to_string` and read with `serde_json::from_str`. This is a model of that library, as far as
it is used; its source is not part of the repository.

Simplifications: reading first makes a value and then decodes it, whereas `serde_json` does both at the same
time. Numbers with a fraction or an exponent, and integers outside of the range of `i64` and `u64`, which
`serde_json` reads as floating point numbers, are rejected, since no type that is read has such a field.
-/

namespace Cackle.Json
open Cackle

/-- A JSON value. The fields of an object are kept in order, with duplicates. -/
inductive Json where
  | null
  | bool (b : Bool)
  | num (n : Int)
  | str (s : Str)
  | arr (l : List Json)
  | obj (l : List (Str × Json))

/-! ## Writing -/

/-- A hexadecimal digit, lower case. -/
def hexDigit (n : Nat) : Char := if n < 10 then Char.ofNat (48 + n) else Char.ofNat (87 + n)

/-- The text for a character in a string: quotes, backslashes and control characters are escaped. -/
def escChar (c : Char) : Str :=
  if c = '"' then ['\\', '"']
  else if c = '\\' then ['\\', '\\']
  else if c = '\n' then ['\\', 'n']
  else if c = '\r' then ['\\', 'r']
  else if c = '\t' then ['\\', 't']
  else if c.toNat = 8 then ['\\', 'b']
  else if c.toNat = 12 then ['\\', 'f']
  else if c.toNat < 32 then ['\\', 'u', '0', '0', hexDigit (c.toNat / 16), hexDigit (c.toNat % 16)]
  else [c]

/-- A string. -/
def showStr (s : Str) : Str := '"' :: (s.flatMap escChar ++ ['"'])

/-- An integer. -/
def showInt (n : Int) : Str := if n < 0 then '-' :: Wire.decimal n.natAbs else Wire.decimal n.natAbs

mutual
/-- `serde_json::to_string`: no white space. -/
def text : Json → Str
  | .null => str! "null"
  | .bool true => str! "true"
  | .bool false => str! "false"
  | .num n => showInt n
  | .str s => showStr s
  | .arr l => '[' :: textElems l
  | .obj l => '{' :: textFields l
/-- The elements of an array, and its end. -/
def textElems : List Json → Str
  | [] => [']']
  | j :: l => text j ++ textElemsMore l
/-- Further elements of an array, and its end. -/
def textElemsMore : List Json → Str
  | [] => [']']
  | j :: l => ',' :: (text j ++ textElemsMore l)
/-- The fields of an object, and its end. -/
def textFields : List (Str × Json) → Str
  | [] => ['}']
  | (k, j) :: l => showStr k ++ ':' :: (text j ++ textFieldsMore l)
/-- Further fields of an object, and its end. -/
def textFieldsMore : List (Str × Json) → Str
  | [] => ['}']
  | (k, j) :: l => ',' :: (showStr k ++ ':' :: (text j ++ textFieldsMore l))
end

/-! ## Reading -/

/-- White space. -/
def isWs (c : Char) : Bool := c = ' ' || c = '\n' || c = '\t' || c = '\r'

/-- Skips white space. -/
def skipWs : Str → Str
  | [] => []
  | c :: r => if isWs c then skipWs r else c :: r

/-- The value of a hexadecimal digit. -/
def hexVal (c : Char) : Option Nat :=
  if 48 ≤ c.toNat ∧ c.toNat ≤ 57 then some (c.toNat - 48)
  else if 97 ≤ c.toNat ∧ c.toNat ≤ 102 then some (c.toNat - 87)
  else if 65 ≤ c.toNat ∧ c.toNat ≤ 70 then some (c.toNat - 55)
  else none

/-- Four hexadecimal digits. -/
def hex4 (a b c d : Char) : Option Nat :=
  match hexVal a, hexVal b, hexVal c, hexVal d with
  | some a, some b, some c, some d => some (a * 4096 + b * 256 + c * 16 + d)
  | _, _, _, _ => none

/-- The character for an escape of one letter. -/
def unescape (c : Char) : Option Char :=
  if c = '"' then some '"'
  else if c = '\\' then some '\\'
  else if c = '/' then some '/'
  else if c = 'b' then some (Char.ofNat 8)
  else if c = 'f' then some (Char.ofNat 12)
  else if c = 'n' then some '\n'
  else if c = 'r' then some '\r'
  else if c = 't' then some '\t'
  else none

/-- Puts a character in front of what was read. -/
def push (c : Char) (r : Option (Str × Str)) : Option (Str × Str) := r.map (fun p => (c :: p.1, p.2))

/-- The rest of a string after the opening quote: its characters and what follows the closing quote. -/
def readStr : Str → Option (Str × Str)
  | [] => none
  | c :: r =>
    if c = '"' then some ([], r)
    else if c.toNat < 32 then none
    else if c ≠ '\\' then push c (readStr r)
    else
      match r with
      | [] => none
      | e :: r =>
        if e ≠ 'u' then
          match unescape e with
          | none => none
          | some x => push x (readStr r)
        else
          match r with
          | h1 :: h2 :: h3 :: h4 :: r =>
            match hex4 h1 h2 h3 h4 with
            | none => none
            | some n =>
              if 0xDC00 ≤ n ∧ n ≤ 0xDFFF then none
              else if 0xD800 ≤ n ∧ n ≤ 0xDBFF then
                match r with
                | b :: u :: l1 :: l2 :: l3 :: l4 :: r =>
                  if b = '\\' ∧ u = 'u' then
                    match hex4 l1 l2 l3 l4 with
                    | none => none
                    | some m =>
                      if 0xDC00 ≤ m ∧ m ≤ 0xDFFF then
                        push (Char.ofNat (0x10000 + (n - 0xD800) * 0x400 + (m - 0xDC00))) (readStr r)
                      else none
                  else none
                | _ => none
              else push (Char.ofNat n) (readStr r)
          | _ => none

/-- A decimal digit. -/
def isDigit (c : Char) : Bool := decide (48 ≤ c.toNat ∧ c.toNat ≤ 57)

/-- Digits, starting from a value: the value and the rest. -/
def readDigits : Nat → Str → Nat × Str
  | n, [] => (n, [])
  | n, c :: r => if isDigit c then readDigits (n * 10 + (c.toNat - 48)) r else (n, c :: r)

/-- What follows makes the number a floating point number. -/
def isFloat : Str → Bool
  | [] => false
  | c :: _ => c = '.' || c = 'e' || c = 'E'

/-- A digit comes next. -/
def digitNext : Str → Bool
  | [] => false
  | d :: _ => isDigit d

/-- The digits of an integer: no leading zero, no fraction, no exponent. -/
def readNat : Str → Option (Nat × Str)
  | [] => none
  | c :: r =>
    if !isDigit c then none
    else if c = '0' && digitNext r then none
    else
      let p := readDigits 0 (c :: r)
      if isFloat p.2 then none else some p

/-- A word. -/
def readWord (w : Str) (j : Json) (s : Str) : Option (Json × Str) := if w.isPrefixOf s then some (j, s.drop w.length) else none

/-- The elements of an array, if it has any; `p` reads a value. That `p` consumes something is only needed to
see that the loop ends. -/
def readElems (p : Str → Option (Json × Str)) (s : Str) : Option (List Json × Str) :=
  match p s with
  | none => none
  | some (j, r) =>
    match skipWs r with
    | [] => none
    | c :: r =>
      if c = ']' then some ([j], r)
      else if c = ',' then
        if _h : r.length < s.length then (readElems p r).map (fun x => (j :: x.1, x.2)) else none
      else none
termination_by s.length

/-- The fields of an object, if it has any. -/
def readFields (p : Str → Option (Json × Str)) (s : Str) : Option (List (Str × Json) × Str) :=
  match skipWs s with
  | [] => none
  | q :: r =>
    if q ≠ '"' then none
    else
      match readStr r with
      | none => none
      | some (k, r) =>
        match skipWs r with
        | [] => none
        | c :: r =>
          if c ≠ ':' then none
          else
            match p r with
            | none => none
            | some (j, r) =>
              match skipWs r with
              | [] => none
              | c :: r =>
                if c = '}' then some ([(k, j)], r)
                else if c = ',' then
                  if _h : r.length < s.length then (readFields p r).map (fun x => ((k, j) :: x.1, x.2)) else none
                else none
termination_by s.length

/-- Reads a value and returns what follows. The number is `remaining_depth` of `serde_json`: an array or
object that would make it zero is an error. -/
def readValue : Nat → Str → Option (Json × Str)
  | 0, _ => none
  | depth + 1, s =>
    match skipWs s with
    | [] => none
    | c :: r =>
      if c = 'n' then readWord (str! "null") .null (c :: r)
      else if c = 't' then readWord (str! "true") (.bool true) (c :: r)
      else if c = 'f' then readWord (str! "false") (.bool false) (c :: r)
      else if c = '-' then
        match readNat r with
        | some (n, r) => if n = 0 ∨ 2 ^ 63 < n then none else some (.num (-(n : Int)), r)
        | none => none
      else if isDigit c then
        match readNat (c :: r) with
        | some (n, r) => if 2 ^ 64 ≤ n then none else some (.num n, r)
        | none => none
      else if c = '"' then (readStr r).map (fun x => (.str x.1, x.2))
      else if c = '[' then
        if depth = 0 then none
        else
          match skipWs r with
          | [] => none
          | d :: t => if d = ']' then some (.arr [], t) else (readElems (readValue depth) r).map (fun x => (.arr x.1, x.2))
      else if c = '{' then
        if depth = 0 then none
        else
          match skipWs r with
          | [] => none
          | d :: t => if d = '}' then some (.obj [], t) else (readFields (readValue depth) r).map (fun x => (.obj x.1, x.2))
      else none

/-- `serde_json::from_str`, as far as it does not depend on the type: a value, and only white space after it. -/
def parse (s : Str) : Option Json :=
  match readValue 128 s with
  | none => none
  | some (j, r) => if skipWs r = [] then some j else none

end Cackle.Json
