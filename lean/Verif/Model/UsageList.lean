import Verif.Model.ProblemsUi

/-!
# Model of the list of usages of a problem (`src/ui/full_term/problems_ui.rs`)

`Model/ProblemsUi.lean` has only the length of this list.
-/

namespace Cackle.Ui
open Cackle

/-- `dyn DisplayUsage`: a usage of an API, or a location with unsafe code or an extern block (problems_ui.rs:966-995). -/
inductive Place where
  | usage (u : ApiUsage)
  | unsafeAt (l : SourceLoc)
  | externAt (l : SourceLoc)
deriving DecidableEq

/-- `DisplayUsage::source_location` (problems_ui.rs:998-1000, 1026-1028, 1045-1047). -/
def Place.location : Place → SourceLoc
  | .usage u => u.loc
  | .unsafeAt l => l
  | .externAt l => l

/-- The list before sorting (problems_ui.rs:930-961). -/
def unsortedPlaces : Problem → List Place
  | .disallowedApiUsage u => u.usages.map .usage
  | .offTreeApiUsage u _ => u.usages.map .usage
  | .disallowedUnsafe _ ls => ls.map .unsafeAt
  | .disallowedExtern _ ls => ls.map .externAt
  | _ => []

/-- `usages_for_problem` (problems_ui.rs:925-964). `le` is the order of locations. -/
def usageList (le : SourceLoc → SourceLoc → Bool) (p : Problem) : List Place :=
  (unsortedPlaces p).mergeSort (fun a b => le a.location b.location)

/-- The usage whose source code is shown (`usages().get(usage_index)`, problems_ui.rs:499-510, 526-530, 554-558, 674-678). -/
def State.place {F C : Type} (le : SourceLoc → SourceLoc → Bool) (s : State F C) : Option Place :=
  match s.selected with
  | none => none
  | some (_, p) => (usageList le p)[s.usageIndex]?

end Cackle.Ui
