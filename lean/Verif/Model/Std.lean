import Verif.Model.Dwarf
import Verif.Model.Checker
import Verif.Model.BasicTerm

/-!
# Model of how cackle finds out where the Rust distribution is (`src/main.rs`, `src/checker.rs`)
-/

namespace Cackle.Std
open Cackle

/-- What running `rustc --print sysroot` gives: its exit status and its standard output. -/
structure Output where
  status : Option Int
  stdout : Str

/-- `determine_sysroot` (main.rs:552-562), when rustc could be started and its output is UTF-8. The exit status is not
looked at. -/
def determineSysroot (o : Output) : PathC := pathOf (Basic.trim o.stdout)

/-- Whether a unit of the debug information is passed over (dwarf.rs:98-101). -/
def skipUnit (o : Output) (compDir : Str) : Bool := Checker.isInRustStd (determineSysroot o) (pathOf compDir)

/-- The scan of the debug information with this exemption (dwarf.rs:92-172). -/
def scan (o : Output) (units : List Dwarf.DUnit) : Graph.Res Dwarf.Scan := Dwarf.scan units (skipUnit o)

end Cackle.Std
