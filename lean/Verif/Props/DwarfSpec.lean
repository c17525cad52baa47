import Verif.Model.Dwarf

/-!
# Specification for C44, C82, C83: debug information as trees

A unit is a forest of entries; the code sees it flattened. Scopes, references and callers are defined on the forest.
-/

namespace Cackle.Dwarf
open Cackle Graph

/-- A list of trees: the first tree's root (with its offset), its children, the offset of the null entry that ends
them, and the other trees. -/
inductive Forest where
  | nil
  | node (offset : Nat) (e : Entry) (children : Forest) (close : Nat) (rest : Forest)

/-- How a forest is written down. -/
def Forest.flatten : Forest → List (Nat × Option Entry)
  | .nil => []
  | .node o e c z r => (o, some e) :: ((if e.hasChildren then c.flatten ++ [(z, none)] else []) ++ r.flatten)

/-- Only entries that may have children have them. -/
def Forest.Ok : Forest → Prop
  | .nil => True
  | .node _ e c _ r => (e.hasChildren = false → c = .nil) ∧ c.Ok ∧ r.Ok

/-- `Inside anc f anc' o e`: in the forest `f`, which is enclosed by `anc` (innermost first), there is at offset `o` the
entry `e`, enclosed by `anc'`. -/
inductive Inside : List Entry → Forest → List Entry → Nat → Entry → Prop where
  | here {anc o e c z r} : Inside anc (.node o e c z r) anc o e
  | child {anc o e c z r anc' o' e'} : Inside (e :: anc) c anc' o' e' → Inside anc (.node o e c z r) anc' o' e'
  | next {anc o e c z r anc' o' e'} : Inside anc r anc' o' e' → Inside anc (.node o e c z r) anc' o' e'

/-- A unit holds a forest, perhaps followed by null entries for padding. -/
structure Encodes (u : DUnit) (f : Forest) : Prop where
  items : ∃ padding : List Nat, u.items = f.flatten ++ padding.map (fun o => (o, none))
  ok : f.Ok
  offsets : (u.items.map Prod.fst).Nodup

/-- `n` is the name of the entry. -/
def HasName (e : Entry) (n : Str) : Prop := ∃ a b, e.attrs = a ++ .name n :: b ∧ ∀ m, .name m ∉ b

/-- The entry has no name. -/
def NoName (e : Entry) : Prop := ∀ m, .name m ∉ e.attrs

/-- `s` is the linkage name of the entry. -/
def HasLinkage (e : Entry) (s : Str) : Prop := ∃ a b, e.attrs = a ++ .linkage s :: b ∧ ∀ m, .linkage m ∉ b

/-- The entry has no linkage name. -/
def NoLinkage (e : Entry) : Prop := ∀ m, .linkage m ∉ e.attrs

/-- The entry is a namespace or a type. -/
def IsScope (e : Entry) : Prop :=
  e.tag = .namespace_ ∨ e.tag = .structure_ ∨ e.tag = .enumeration ∨ e.tag = .union

/-- The names of the consecutive named namespaces and types that enclose a place, innermost last. -/
inductive Scopes : List Entry → List Str → Prop where
  | top : Scopes [] []
  | scope {e anc n ns} : IsScope e → HasName e n → Scopes anc ns → Scopes (e :: anc) (ns ++ [n])
  | stop {e anc} : ¬ IsScope e ∨ NoName e → Scopes (e :: anc) []

/-- What an entry that is enclosed by `anc` says itself about its names. -/
structure Own (anc : List Entry) (e : Entry) (x : SymName) : Prop where
  symbol : (∃ s, HasLinkage e s ∧ x.symbol = some s) ∨ (NoLinkage e ∧ x.symbol = none)
  debug : (∃ n ns, HasName e n ∧ Scopes anc ns ∧ x.debug = some ⟨ns, n⟩) ∨ (NoName e ∧ x.debug = none)

/-- The units of a program with what they hold. -/
abbrev World := List (DUnit × Forest)

/-- The units come one after the other: what lies in a unit lies before the beginning of the later ones. -/
def World.Ordered : World → Prop
  | [] => True
  | p :: w => (∀ q ∈ w, ∀ i ∈ p.1.items, p.1.start + i.1 < q.1.start) ∧ (∀ i ∈ p.1.items, 0 < i.1) ∧
      (∀ q ∈ w, p.1.start < q.1.start) ∧ World.Ordered w

/-- The units hold their forests. -/
def World.Ok (w : World) : Prop := (∀ p ∈ w, Encodes p.1 p.2) ∧ w.Ordered

/-- Which entry a reference in unit `p` leads to: one of the same unit, or one of another unit. -/
inductive Refers (w : World) (p : DUnit × Forest) : Ref → DUnit × Forest → Nat → Prop where
  | unit {o} : Refers w p (.unit o) p o
  | info {q o} : q ∈ w → Refers w p (.info (q.1.start + o)) q o

/-- `Resolves w n p r x`: the reference `r` in unit `p` leads to a function with the names `x`, directly or by up to
`n` specifications, each of which is read in the unit it is found in. -/
inductive Resolves (w : World) : Nat → DUnit × Forest → Ref → SymName → Prop where
  | own {n p r q anc o e x} : Refers w p r q o → Inside [] q.2 anc o e → e.tag = .subprogram →
      (∀ r, .spec r ∉ e.attrs) → Own anc e x → Resolves w n p r x
  | spec {n p r q anc o e a b r' x} : Refers w p r q o → Inside [] q.2 anc o e → e.attrs = a ++ .spec r' :: b →
      (∀ r, .spec r ∉ a) → Resolves w n q r' x → Resolves w (n + 1) p r x

/-- Whether an entry can be a function, a piece of code or a variable. -/
def IsCode (e : Entry) : Prop :=
  e.tag = .subprogram ∨ e.tag = .inlined ∨ e.tag = .lexicalBlock ∨ e.tag = .variable

/-- The names of an entry: those it says itself, or those of the entry it is an instance or the definition of. -/
inductive EntryNames (w : World) (p : DUnit × Forest) (anc : List Entry) (e : Entry) : SymName → Prop where
  | own {x} : IsCode e → (∀ r, .origin r ∉ e.attrs) → (∀ r, .spec r ∉ e.attrs) → Own anc e x → EntryNames w p anc e x
  | origin {r x} : IsCode e → .origin r ∈ e.attrs → Resolves w 10 p r x → EntryNames w p anc e x
  | spec {r x} : IsCode e → .spec r ∈ e.attrs → Resolves w 10 p r x → EntryNames w p anc e x
  | none : ¬ IsCode e → EntryNames w p anc e ⟨Option.none, Option.none⟩

/-- There is a name. -/
def Named (x : SymName) : Prop := x.symbol.isSome = true ∨ x.debug.isSome = true

/-- The symbol is one of those that calls are looked through (`core::ops::function`). -/
def LookThrough (x : SymName) : Prop := ∃ s, x.symbol = some s ∧ isLookThrough s = .ok true

/-- The symbol is not one of those. -/
def NotLookThrough (x : SymName) : Prop := ∀ s, x.symbol = some s → isLookThrough s = .ok false

/-- `CalledBy w p e anc y c`: code of the entry `e`, which is enclosed by `anc`, belongs to the function named `y`: the
nearest enclosing one that has a name and is not looked through. `c` is the entry that says where the call is: `e`, or
the outermost of the functions looked through. -/
inductive CalledBy (w : World) (p : DUnit × Forest) : Entry → List Entry → SymName → Entry → Prop where
  | found {e a anc y} : EntryNames w p anc a y → Named y → NotLookThrough y → CalledBy w p e (a :: anc) y e
  | block {e a anc z y c} : EntryNames w p anc a z → ¬ Named z → CalledBy w p e anc y c → CalledBy w p e (a :: anc) y c
  | through {e a anc z y c} : EntryNames w p anc a z → LookThrough z → CalledBy w p a anc y c →
      CalledBy w p e (a :: anc) y c

/-- `x` is the value of the last attribute of the kind that `f` reads; it may be one that is not understood. -/
def LastOf {α : Type} (f : Attr → Option (Option α)) (attrs : List Attr) (x : Option α) : Prop :=
  (x = none ∧ ∀ a ∈ attrs, f a = none) ∨ ∃ a b c, attrs = a ++ b :: c ∧ f b = some x ∧ ∀ d ∈ c, f d = none

/-- The address of the code: the low end, or the beginning of the first range. -/
def address : Attr → Option (Option Nat)
  | .lowPc a => some a
  | .ranges (some a) => some (some a)
  | _ => none

/-- The file of a call. -/
def callFile : Attr → Option (Option (Option Str × Str))
  | .callFile f => some f
  | _ => none

/-- The line of a call. -/
def callLine : Attr → Option (Option Nat)
  | .callLine n => some n
  | _ => none

/-- The column of a call. -/
def callColumn : Attr → Option (Option Nat)
  | .callColumn n => some n
  | _ => none

/-- The path `p` taken relative to `base`: absolute paths stand for themselves; otherwise there is one slash between
the two, unless there already is one or `base` is empty. -/
def under (base p : Str) : Str :=
  match p, base.reverse with
  | '/' :: _, _ => p
  | _, [] => p
  | _, '/' :: _ => base ++ p
  | _, _ => base ++ (str! "/") ++ p

/-- The place of the call that an entry says, in a unit compiled in `dir`. Without a line there is none. -/
def CallPlace (dir : Str) (e : Entry) (loc : Option SourceLoc) : Prop :=
  ∃ file line column, LastOf callFile e.attrs file ∧ LastOf callLine e.attrs line ∧ LastOf callColumn e.attrs column ∧
    loc = line.map fun l => ⟨match file with
      | none => dir
      | some (none, n) => under dir n
      | some (some d, n) => under (under dir d) n, l, column⟩

/-- The declared file. -/
def declFile : Attr → Option (Option (Option (Option Str × Str)))
  | .declFile f => some (some f)
  | _ => none

/-- The declared line. -/
def declLine : Attr → Option (Option Nat)
  | .declLine n => some n
  | _ => none

/-- The declared column. -/
def declColumn : Attr → Option (Option Nat)
  | .declColumn n => some n
  | _ => none

/-- The entry `e`, a function or variable enclosed by `anc`, in a unit compiled in `dir`, is a declaration of `symbol`:
the linkage name, or if there is none, the name. It says the name and where the declaration is. -/
def Declares (dir : Str) (anc : List Entry) (e : Entry) (symbol : Str) (info : DebugInfo) : Prop :=
  (e.tag = .subprogram ∨ e.tag = .variable) ∧ (HasLinkage e symbol ∨ (NoLinkage e ∧ HasName e symbol)) ∧
    (∃ d n line column, LastOf declFile e.attrs (some (some (d, n))) ∧ LastOf declLine e.attrs (some line) ∧
      LastOf declColumn e.attrs column ∧
      info.loc = ⟨under (match d with | none => dir | some d => under dir d) n, line, column⟩) ∧
    ((∃ n ns, HasName e n ∧ Scopes anc ns ∧ info.name = some ⟨ns, n⟩) ∨ (NoName e ∧ info.name = none))

/-- An entry whose names are said in one way: it has a name and a linkage name of its own, or it is an instance of
one other entry; it is not the definition of something declared elsewhere. -/
def Clean (e : Entry) : Prop :=
  (∀ r, .spec r ∉ e.attrs) ∧ ((∀ r, .origin r ∉ e.attrs) ∨ (NoName e ∧ NoLinkage e ∧
    ∃ a r b, e.attrs = a ++ .origin r :: b ∧ (∀ r, .origin r ∉ a) ∧ ∀ r, .origin r ∉ b))

/-- No enumeration or union type encloses the place. -/
def Plain (anc : List Entry) : Prop := ∀ a ∈ anc, a.tag ≠ .enumeration ∧ a.tag ≠ .union

/-- A unit without references to other units, and without functions in enumeration or union types. -/
def SelfContained (f : Forest) : Prop :=
  (∀ anc o e r, Inside [] f anc o e → .spec r ∈ e.attrs ∨ .origin r ∈ e.attrs → ∃ o', r = .unit o') ∧
    ∀ anc o e, Inside [] f anc o e → IsCode e → Plain anc

end Cackle.Dwarf
