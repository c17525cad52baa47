import Verif.Model.Basic

/-!
# Model of the message framing (`src/proxy/rpc.rs`) and of saved requests (`src/main.rs`)

JSON serialisation (`serde_json`) is a parameter `ser`/`de`; `Model/Messages.lean` has the real one. `usize` has 8 bytes. A
connection is the sequence of bytes that arrive before it is closed; how they are split into packets does
not matter to `read_exact` and is not modelled.
-/

namespace Cackle.Wire
open Cackle

abbrev Byte := Fin 256

/-- `usize::to_le_bytes`, for `k` bytes. -/
def leBytes : Nat → Nat → List Byte
  | 0, _ => []
  | k + 1, n => ⟨n % 256, Nat.mod_lt _ (by decide)⟩ :: leBytes k (n / 256)

/-- `usize::from_le_bytes`. -/
def fromLe : List Byte → Nat
  | [] => 0
  | b :: bs => b.val + 256 * fromLe bs

/-- `Read::read_exact`: the bytes and the rest of the stream, or an error at the end of the stream. -/
def readExact (n : Nat) (s : List Byte) : Option (List Byte × List Byte) :=
  if n ≤ s.length then some (s.take n, s.drop n) else none

/-- `write_to_stream` (rpc.rs:142-147): the bytes written. -/
def writeMsg {T : Type} (ser : T → List Byte) (v : T) : List Byte :=
  leBytes 8 (ser v).length ++ ser v

/-- `read_from_stream` (rpc.rs:150-158): the message and the rest of the stream, or an error. -/
def readMsg {T : Type} (de : List Byte → Option T) (s : List Byte) : Option (T × List Byte) :=
  match readExact 8 s with
  | none => none
  | some (lenBytes, s) =>
    match readExact (fromLe lenBytes) s with
    | none => none
    | some (buf, s) => (de buf).map (·, s)

/-- Reads messages until there is an error; `fuel` bounds the number of messages. -/
def readAll {T : Type} (de : List Byte → Option T) : Nat → List Byte → List T
  | 0, _ => []
  | n + 1, s =>
    match readMsg de s with
    | none => []
    | some (v, rest) => v :: readAll de n rest

/-! ## Saved requests -/

/-- The decimal digits of a number. -/
def decimal (n : Nat) : Str :=
  if n < 10 then [Char.ofNat (48 + n)] else decimal (n / 10) ++ [Char.ofNat (48 + n % 10)]

/-- `format!("{n:03}")`: padded with zeros to at least three characters. -/
def pad3 (n : Nat) : Str := List.replicate (3 - (decimal n).length) '0' ++ decimal n

/-- The name of the file for a request (main.rs:525). -/
def savedName (n : Nat) : Str := pad3 n ++ str! ".cackle-rpc"

/-- `save_request` (main.rs:518-529): the directory is a map from file names to contents. -/
def save {T : Type} (dir : AMap Str T) (request : T) : AMap Str T :=
  dir.insert (savedName dir.length) request

/-- Comparison of file names, byte by byte. (All names in the directory have the same parent, and for
ASCII characters the bytes are the characters.) -/
def nameLt : Str → Str → Bool
  | [], [] => false
  | [], _ :: _ => true
  | _ :: _, [] => false
  | a :: as, b :: bs => if a = b then nameLt as bs else decide (a.toNat < b.toNat)

/-- Insertion into a sorted list. -/
def insertSorted {T : Type} (e : Str × T) : List (Str × T) → List (Str × T)
  | [] => [e]
  | x :: xs => if nameLt e.1 x.1 then e :: x :: xs else x :: insertSorted e xs

/-- `Vec::sort` of the paths (names are distinct, so the result does not depend on the algorithm). -/
def sortByName {T : Type} : List (Str × T) → List (Str × T)
  | [] => []
  | x :: xs => insertSorted x (sortByName xs)

/-- The requests in the order in which `replay_requests` (main.rs:490-509) replays them. `listing` is the
order in which the directory is read. -/
def replay {T : Type} (listing : List (Str × T)) : List T := (sortByName listing).map Prod.snd

end Cackle.Wire
