import Verif.Model.Messages
import Verif.Model.Rustc

/-!
# Model of `src/proxy/errors.rs`: finding lint errors in the messages of rustc

Messages are read by the model of `serde_json` (`Model/Json.lean`), which does not read floating point numbers and limits
the nesting of values that are skipped as well; rustc writes no floating point numbers.
-/

namespace Cackle.RustcErrors
open Cackle Json Messages BuildScript Rustc

/-- `struct SpannedMessage` (proxy/errors.rs:88-93). -/
structure Span where
  fileName : Str
  line : Nat
  column : Nat
deriving DecidableEq

/-- `struct Message` and `struct Code` (proxy/errors.rs:75-86). -/
structure Message where
  message : Str
  code : Str
  level : Str
  spans : List Span

/-- The fields of a structure without attributes for `serde`: an object, unknown fields are ignored; or an array with the
fields in order. -/
def structOf (known : List Str) : Json → Option (AMap Str Json)
  | .arr l => if l.length = known.length then some (known.zip l) else none
  | j => fieldsOf known false j

/-- `Deserialize for SpannedMessage` (proxy/errors.rs:88-93). -/
def decSpan (j : Json) : Option Span :=
  (structOf [str! "file_name", str! "line_start", str! "column_start"] j).bind (fun l =>
  (req l (str! "file_name") decStr).bind (fun fileName =>
  (req l (str! "line_start") (decNat u32)).bind (fun line =>
  (req l (str! "column_start") (decNat u32)).bind (fun column => some ⟨fileName, line, column⟩))))

/-- `Deserialize for Code` (proxy/errors.rs:83-86). -/
def decCode (j : Json) : Option Str := (structOf [str! "code"] j).bind (fun l => req l (str! "code") decStr)

/-- `Deserialize for Message` (proxy/errors.rs:75-81). -/
def decMessage (j : Json) : Option Message :=
  (structOf [str! "message", str! "code", str! "level", str! "spans"] j).bind (fun l =>
  (req l (str! "message") decStr).bind (fun message =>
  (req l (str! "code") decCode).bind (fun code =>
  (req l (str! "level") decStr).bind (fun level =>
  (req l (str! "spans") (decList decSpan)).bind (fun spans => some ⟨message, code, level, spans⟩)))))

/-- The body of the loops (proxy/errors.rs:33-48, 57-72). -/
def placeOf (code : Str) (canon : Str → Option Str) (line : Str) : Option Rustc.Loc :=
  match (parse line).bind decMessage with
  | none => none
  | some m =>
    if m.level = str! "error" ∧ m.code = code then
      m.spans.head?.map (fun s => ((canon s.fileName).getD s.fileName, s.line, s.column))
    else none

/-- `get_disallowed_unsafe_locations_str` and `get_disallowed_extern_locations_str` (proxy/errors.rs:30-74), which differ in
the code of the lint. -/
def places (code : Str) (canon : Str → Option Str) (output : Str) : List Rustc.Loc := (lines output).filterMap (placeOf code canon)

/-- The lint against unsafe code (proxy/errors.rs:38). -/
def unsafeLint : Str := str! "unsafe_code"

/-- The lint against `extern` without `unsafe` (proxy/errors.rs:62). -/
def externLint : Str := str! "missing_unsafe_on_extern"

/-- What the wrapper takes from a run of rustc: `get_disallowed_unsafe_locations` and `get_disallowed_extern_locations`
(proxy/errors.rs:10-28) applied to the standard error output; `none` if it is not UTF-8. -/
def outputOf (canon : Str → Option Str) (code : Option Int) (stderr : List Wire.Byte) : Output :=
  { code := code
    unsafeErrors := (fromBytes stderr).map (places unsafeLint canon)
    externErrors := (fromBytes stderr).map (places externLint canon) }

end Cackle.RustcErrors
