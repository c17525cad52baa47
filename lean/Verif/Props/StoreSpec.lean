import Verif.Model.Store

/-!
# Specification vocabulary for C10, C11, C12

What a user of the problem store can observe: which IDs are live, which were resolved, and which
problems a waiter is still waiting for.
-/

namespace Cackle

/-- The API usages shown by a problem. -/
def Problem.apiUsages : Problem → List ApiUsage
  | .disallowedApiUsage u => u.usages
  | .offTreeApiUsage u _ => u.usages
  | _ => []

/-- Two reports are about the same problem: they are equal except for the list of API usages of a
disallowed API, or for the example symbol of a possible exported API. -/
def Problem.Same : Problem → Problem → Prop
  | .disallowedApiUsage a, .disallowedApiUsage b => a.pkg = b.pkg ∧ a.scope = b.scope ∧ a.api = b.api
  | .possibleExportedApi p a _, .possibleExportedApi p' a' _ => p = p' ∧ a = a'
  | a, b => a = b

namespace Store

/-- `id` denotes an unresolved problem. -/
def Live (s : State) (id : Nat) : Prop := ∃ p, s.problems[id]? = some (some p)
/-- `id` has been resolved. -/
def Dead (s : State) (id : Nat) : Prop := s.problems[id]? = some none

/-- `q` is the same problem as `p`, with possibly more usages. -/
def Grown (p q : Problem) : Prop := p.Same q ∧ ∀ u ∈ p.apiUsages, u ∈ q.apiUsages

/-- Outstanding obligations of a waiter: the problems it reported and, transitively, everything that
replaced one of these. -/
inductive Owes (tr : List Ev) (w : Nat) : Nat → Prop where
  | reported {ids : List Nat} {id : Nat} : Ev.added w ids ∈ tr → id ∈ ids → Owes tr w id
  | replaced {id id' : Nat} {ids : List Nat} :
      Owes tr w id → Ev.replaced id ids ∈ tr → id' ∈ ids → Owes tr w id'

end Store

end Cackle
