import Verif.Model.Demangle

/-!
# Model of `src/names.rs`: splitting a name into names

The iterator over tokens that the code clones for looking ahead is represented by the list of its tokens together
with the way it ends. Depths are unbounded integers.
-/

namespace Cackle.Names
open Cackle Demangle

/-- `enum NamesIteratorState` (names.rs:343-360). -/
inductive State where
  | inactive
  | outputting
  | asPrefix
  | asSkip (gtDepth : Int) (returnPoint : List Tok)

/-- `struct NamesIteratorPos` (names.rs:110-117) without `ended`. -/
structure Pos where
  it : List Tok
  state : State := .inactive
  braceDepth : Int := 0
  asFinal : Option (Str × Nat) := none

/-- `enum NameToken` (names.rs:214-218). -/
inductive NameTok where
  | part (s : Str)
  | endName
  | error
deriving DecidableEq

/-- `text.parse::<i64>().is_ok()`. -/
def isI64 (s : Str) : Bool :=
  let r : Bool × Str := match s with
    | '+' :: t => (false, t)
    | '-' :: t => (true, t)
    | t => (false, t)
  !r.2.isEmpty && r.2.all isDigit && decide (decimal r.2 < 2 ^ 63 + if r.1 then 1 else 0)

/-- The form of the hash at the end of a legacy symbol (names.rs:255-257). -/
def isHash (s : Str) : Bool :=
  decide (byteLen s = 17) && s.head? == some 'h' && s.tail.all (fun c => (hexDigit c).isSome)

/-- One iteration of the loop in `NamesIteratorPos::next`: goes on, gives a token, ends, or panics. -/
inductive Iteration where
  | cont (p : Pos)
  | emit (t : NameTok) (p : Pos)
  | stop
  | panic
  | unknown

/-- One iteration for a text (names.rs:227-273). -/
def onText (p : Pos) (s : Str) (pos : Nat) (rest : List Tok) : Iteration :=
  let p := { p with it := rest }
  if s = str! "mut" then .cont p
  else if 0 < p.braceDepth then .cont p
  else if isI64 s then .cont p
  else if s = str! "as" ∧ rest.head? = some (.char ' ') then
    .cont { p with it := rest.tail, state := .asPrefix }
  else if p.asFinal = some (s, pos) then .cont p
  else if isHash s ∧ rest = [] then .cont p
  else match p.state with
    | .inactive => .emit (.part s) { p with state := .outputting }
    | .asSkip _ _ => .cont p
    | _ => .emit (.part s) p

/-- The change of the nesting depth of braces (names.rs:282-283). -/
def braceChange (c : Char) : Int := if c = '{' then 1 else if c = '}' then -1 else 0

/-- The change of the nesting depth of angle brackets (names.rs:284-293). -/
def gtChange (c : Char) : Int := if c = '<' then 1 else if c = '>' then -1 else 0

/-- The state after a character (names.rs:275-296). -/
def charState (c : Char) (rest : List Tok) : State → State
  | .asPrefix => .asSkip (1 + gtChange c) rest
  | .asSkip d r => .asSkip (d + gtChange c) r
  | s => s

/-- One iteration for a character (names.rs:274-319). -/
def onChar (e : End) (p : Pos) (c : Char) (rest : List Tok) : Iteration :=
  let p := { p with it := rest, state := charState c rest p.state, braceDepth := p.braceDepth + braceChange c }
  match p.state with
  | .outputting => .emit .endName { p with state := .inactive }
  | .asSkip d r =>
    if d = 0 then
      match rest with
      | .text s pos :: _ => .emit (.part s) { p with it := r, asFinal := some (s, pos), state := .outputting }
      | [] => if e = .fin then .emit .endName { p with it := r, asFinal := none, state := .inactive }
        else if e = .panic then .panic else .unknown
      | _ => .emit .endName { p with it := r, asFinal := none, state := .inactive }
    else .cont p
  | _ => .cont p

/-- One iteration of the loop, including the part after it (names.rs:224-332). Looking ahead past the last token
is only modelled where it can change the result (a panic then occurs either way). -/
def iterate (e : End) (p : Pos) : Iteration :=
  match p.it with
  | .text s pos :: rest => onText p s pos rest
  | .char c :: rest => onChar e p c rest
  | .unsupported _ :: rest => .emit .error { p with it := rest }
  | [] =>
    match e with
    | .fin =>
      match p.state with
      | .outputting => .emit .endName { p with state := .inactive }
      | _ => .stop
    | .panic => .panic
    | _ => .unknown

/-- The result of going through all names: the parts of each name (`next_name` together with
`NamePartsIterator`, names.rs:138-211), an error, or a panic. -/
inductive Result where
  | names (l : List (List Str))
  | error
  | panic
deriving DecidableEq

/-- Dropping the iterator over the parts of a name after an error (names.rs:182-211): goes on up to the next end of
a name or error. `none` says that `n` iterations are not enough. -/
def drain (e : End) : Nat → Pos → Option Result
  | 0, _ => none
  | n + 1, p =>
    match iterate e p with
    | .cont p => drain e n p
    | .emit (.part _) p => drain e n p
    | .emit _ _ => some .error
    | .stop => some .error
    | .panic => some .panic
    | .unknown => none

/-- `names.next_name()` until there are no more names, reading all parts. `current` has the parts of the name that
is being read and `done` the names before it. `none` says that `n` iterations are not enough. -/
def collect (e : End) : Nat → Pos → List Str → List (List Str) → Option Result
  | 0, _, _, _ => none
  | n + 1, p, current, done =>
    match iterate e p with
    | .cont p => collect e n p current done
    | .emit (.part s) p => collect e n p (current ++ [s]) done
    | .emit .endName p => collect e n p [] (done ++ [current])
    | .emit .error p => drain e n p
    | .stop => some (.names (done ++ [current]))
    | .panic => some .panic
    | .unknown => none

/-- All names that an iterator over tokens gives, if `n` calls of `next` and `n` iterations are enough. -/
def namesOf {σ : Type} (next : σ → Next σ) (n : Nat) (s : σ) : Option Result :=
  collect (toks next n s).2 n { it := (toks next n s).1 } [] []

/-- The names of a symbol (symbol.rs:42-45). -/
def symbolNames (n : Nat) (symbol : Str) : Option Result := namesOf Iter.next n (Iter.new symbol)

/-- The names of a debug name (names.rs:82-89). -/
def debugNames (n : Nat) (namespace_ : List Str) (name : Str) : Option Result :=
  namesOf Plain.next n { namespace_ := namespace_, data := name }

end Cackle.Names
