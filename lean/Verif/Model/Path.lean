import Verif.Model.Basic

/-!
# Model of `std::path::Path` on Unix

A path is compared, hashed and looked up by its components, so it is represented by the list of
components; the root directory is the component `/`.
-/

namespace Cackle

/-- A parsed path (`Path::components`). -/
abbrev PathC := List Str

/-- `Path::components` on Unix: a leading `/` is the root component, empty components are dropped, and
so is `.` except at the start of a relative path. -/
def pathOf (s : Str) : PathC :=
  let parts := (splitChar '/' s).filter (fun c => c ≠ [])
  match s with
  | '/' :: _ => ['/'] :: parts.filter (fun c => c ≠ ['.'])
  | _ =>
    match parts with
    | [] => []
    | p :: rest => p :: rest.filter (fun c => c ≠ ['.'])

/-- `Path::starts_with`: comparison by whole components. -/
def PathC.startsWith (p base : PathC) : Bool := base.isPrefixOf p

end Cackle
