import Verif.Model.Checker
import Verif.Model.Names
import Verif.Model.ApiMap

/-!
# Model of `src/symbol_graph.rs`: finding uses of APIs in a linked binary

What the crates `object`, `gimli` and `addr2line` read from files is input (`Obj`, `Bin`). Symbols are text; a symbol
that is not UTF-8 is not modelled. The names of a symbol are read completely before the first of them is looked at, so
if there are several failures, another one may be reported. Addresses are natural numbers; a difference that the code
would compute as a negative number is 0 here. Debug output and timings are left out.
-/

namespace Cackle.Graph
open Cackle Config Perm Checker
open Cackle.ApiMap (Api Trie ApiDef loadApis)
open Cackle.Names (symbolNames debugNames)

/-- A result, `Err`, a panic, or a computation that was not followed to its end. -/
inductive Res (α : Type) where
  | ok (a : α)
  | err
  | panic
  | stuck
deriving DecidableEq

/-- The `?` operator. -/
def Res.bind {α β : Type} : Res α → (α → Res β) → Res β
  | .ok a, f => f a
  | .err, _ => .err
  | .panic, _ => .panic
  | .stuck, _ => .stuck

/-- A loop whose body can fail. -/
def Res.loop {σ α : Type} (f : σ → α → Res σ) : σ → List α → Res σ
  | s, [] => .ok s
  | s, a :: l => (f s a).bind fun s => loop f s l

/-- `Option::ok_or`. -/
def Res.ofOption {α : Type} : Option α → Res α
  | some a => .ok a
  | none => .err

/-! ## Object files -/

/-- What is used of a symbol in an object file. A name that cannot be read is empty (`unwrap_or_default`). -/
structure ObjSym where
  name : Str
  section_ : Option Nat
  definition : Bool
  address : Nat

/-- `object::RelocationTarget`. -/
inductive Target where
  | symbol (index : Nat)
  | other

/-- An object file: symbols and sections by index. A section is the list of its relocations (offset and target). -/
structure Obj where
  symbols : AMap Nat ObjSym
  sections : AMap Nat (List (Nat × Target))

/-- `max_section_index` (symbol_graph.rs:574). -/
def maxIndex (o : Obj) : Nat := o.sections.foldl (fun m s => max m s.1) 0

/-- The loop body of `ObjectIndex::new` (symbol_graph.rs:576-596). A section's entry is the name and the address of
its first symbol. `none` is the panic for an index that is out of bounds. -/
def addFirst (o : Obj) (infos : AMap Nat (Str × Nat)) (s : ObjSym) : Option (AMap Nat (Str × Nat)) :=
  if s.name = [] ∨ s.definition = false then some infos
  else
    match s.section_ with
    | none => some infos
    | some k =>
      if maxIndex o < k then none
      else
        match infos.get? k with
        | some e => if s.address < e.2 then some (infos.insert k (s.name, s.address)) else some infos
        | none => some (infos.insert k (s.name, s.address))

/-- The loop of `ObjectIndex::new` (symbol_graph.rs:576-597). -/
def addFirsts (o : Obj) : AMap Nat (Str × Nat) → AMap Nat ObjSym → Option (AMap Nat (Str × Nat))
  | infos, [] => some infos
  | infos, s :: l => (addFirst o infos s.2).bind fun infos => addFirsts o infos l

/-- `ObjectIndex::new` (symbol_graph.rs:573-598). -/
def sectionInfos (o : Obj) : Option (AMap Nat (Str × Nat)) := addFirsts o [] o.symbols

/-- `enum SymbolOrSection` (symbol_graph.rs:673-676). -/
inductive SymOrSect where
  | symbol (s : Str)
  | sect (k : Nat)

/-- `get_symbol_or_section` (symbol_graph.rs:630-663). -/
def symOrSect (o : Obj) (infos : AMap Nat (Str × Nat)) (bin : AMap Str Nat) : Target → Res SymOrSect
  | .other => .err
  | .symbol i =>
    match o.symbols.get? i with
    | none => .err
    | some s =>
      if s.name ≠ [] ∧ ((bin.get? s.name).isSome ∨ s.section_ = none) then .ok (.symbol s.name)
      else
        match s.section_ with
        | none => .err
        | some k =>
          if maxIndex o < k then .err
          else
            match infos.get? k with
            | some e => if (bin.get? e.1).isSome then .ok (.symbol e.1) else .ok (.sect k)
            | none => .ok (.sect k)

/-- `add_target_symbols` (symbol_graph.rs:603-626); the number bounds the depth of the recursion. -/
def addTargets (o : Obj) (infos : AMap Nat (Str × Nat)) (bin : AMap Str Nat) :
    Nat → List Str × List Nat → Target → Res (List Str × List Nat)
  | 0, _, _ => .stuck
  | n + 1, st, t =>
    (symOrSect o infos bin t).bind fun
      | .symbol s => .ok (st.1 ++ [s], st.2)
      | .sect k =>
        if k ∈ st.2 then .ok st
        else
          match o.sections.get? k with
          | none => .err
          | some relocs => Res.loop (fun st (r : Nat × Target) => addTargets o infos bin n st r.2) (st.1, k :: st.2) relocs

/-- The symbols that a relocation refers to (symbol_graph.rs:330-337). Each level of the recursion visits another
section, so this depth is enough (`Props/Relocations.lean`). -/
def targets (o : Obj) (infos : AMap Nat (Str × Nat)) (bin : AMap Str Nat) (t : Target) : Res (List Str) :=
  (addTargets o infos bin (o.sections.length + 1) ([], []) t).bind fun st => .ok st.1

/-! ## Names -/

/-- `struct DebugName` (names.rs:19-24). -/
structure Dbg where
  namespace_ : List Str
  name : Str
deriving DecidableEq

/-- `struct SymbolAndName` (names.rs:31-35). -/
structure SymName where
  symbol : Option Str
  debug : Option Dbg
deriving DecidableEq

/-- `SymbolAndName::symbol_or_debug_name` (names.rs:377-385). -/
def SymName.or (x : SymName) : Res SymOrDebug :=
  match x.debug with
  | some d => .ok (.debugName d.namespace_ d.name)
  | none =>
    match x.symbol with
    | some s => .ok (.symbol s)
    | none => .err

/-- The arguments of one call of the callback of `names_and_apis_do`. -/
structure Hit where
  name : List Str
  source : SymOrDebug
  apis : List Api
deriving DecidableEq

/-- The calls of the callback for the names of one symbol or debug name (symbol_graph.rs:741-754, 758-768). -/
def hitsOf (t : Trie) (source : SymOrDebug) (names : List (List Str)) : List Hit :=
  (names.filter (fun n => t.get n ≠ [])).map (fun n => ⟨n, source, t.get n⟩)

/-- Reading all names. -/
def readNames : Option Names.Result → Res (List (List Str))
  | some (.names l) => .ok l
  | some .error => .err
  | some .panic => .panic
  | none => .stuck

/-- The calls of the callback for the debug name (symbol_graph.rs:739-755). -/
def debugHits (t : Trie) (n : Nat) : Option Dbg → Res (List Hit)
  | none => .ok []
  | some d => (readNames (debugNames n d.namespace_ d.name)).bind fun l =>
      .ok (hitsOf t (.debugName d.namespace_ d.name) l)

/-- The calls of the callback for the symbol (symbol_graph.rs:757-768). -/
def symbolHits (t : Trie) (n : Nat) : Option Str → Res (List Hit)
  | none => .ok []
  | some s => (readNames (symbolNames n s)).bind fun l => .ok (hitsOf t (.symbol s) l)

/-- The calls of the callback of `names_and_apis_do` if nothing is skipped (symbol_graph.rs:738-769). -/
def allHits (t : Trie) (n : Nat) (x : SymName) : Res (List Hit) :=
  (debugHits t n x.debug).bind fun hits => if hits = [] then symbolHits t n x.symbol else .ok hits

/-- `symbol_has_no_apis.get(symbol)` (symbol_graph.rs:729-735). -/
def known (cache : AMap Str Bool) (x : SymName) : Bool :=
  match x.symbol with
  | some s => (cache.get? s).getD false
  | none => false

/-- Remembering that a symbol has no APIs (symbol_graph.rs:770-779); only keys that exist are changed. -/
def remember (cache : AMap Str Bool) (x : SymName) (hits : List Hit) : AMap Str Bool :=
  match x.symbol with
  | some s => if hits = [] ∧ (cache.get? s).isSome then cache.insert s true else cache
  | none => cache

/-- `names_and_apis_do` (symbol_graph.rs:721-781): the calls of the callback and the new state of the cache. -/
def namesAndApis (t : Trie) (n : Nat) (cache : AMap Str Bool) (x : SymName) : Res (List Hit × AMap Str Bool) :=
  if known cache x then .ok ([], cache)
  else (allHits t n x).bind fun hits => .ok (hits, remember cache x hits)

/-! ## Collecting usages -/

/-- `struct SingleApiUsage` (symbol_graph.rs:75-80). -/
structure Single where
  pkg : PkgId
  scope : Scope
  api : Api
  usage : ApiUsage
deriving DecidableEq

/-- `struct ApiUsageGroupKey` (symbol_graph.rs:841-848). File names are compared as paths. -/
structure Key where
  pkg : PkgId
  scope : Scope
  api : Api
  from_ : SymOrDebug
  file : PathC
  line : Nat
  column : Option Nat
deriving DecidableEq

/-- `SingleApiUsage::group_key` (symbol_graph.rs:850-860). -/
def Single.key (s : Single) : Key :=
  ⟨s.pkg, s.scope, s.api, s.usage.from_, pathOf s.usage.loc.file, s.usage.loc.line, s.usage.loc.column⟩

/-- `struct Node` (symbol_graph.rs:542-545) with the result of `location_fetcher.location()` (symbol_graph.rs:557-569);
`none` is an error. -/
structure Node where
  names : SymName
  loc : Option SourceLoc
deriving DecidableEq

/-- What changes while the references are processed. -/
structure Coll where
  cache : AMap Str Bool
  groups : AMap Key (List Single)

/-- `new_api_usages.entry(key).or_default().push(usage)` (symbol_graph.rs:459-462). -/
def push (groups : AMap Key (List Single)) (s : Single) : AMap Key (List Single) :=
  groups.insert s.key ((groups.get? s.key).getD [] ++ [s])

/-- A reference in the binary, the arguments of `process_reference` (symbol_graph.rs:393-401). -/
structure Ref where
  address : Nat
  symbolStart : Nat
  outer : Option Node
  from_ : Node
  target : SymName
deriving DecidableEq

/-- `non_inlined_from.map(|n| n.location_fetcher.location()).transpose()?` (symbol_graph.rs:439-441). -/
def outerLoc : Option Node → Res (Option SourceLoc)
  | none => .ok none
  | some n => (Res.ofOption n.loc).bind fun l => .ok (some l)

/-- The body of the loop over the APIs (symbol_graph.rs:439-462). -/
def addUsage (binPath : Str) (crate : CrateSel) (r : Ref) (loc : SourceLoc) (h : Hit) (pkg : PkgId)
    (groups : AMap Key (List Single)) (api : Api) : Res (AMap Key (List Single)) :=
  (outerLoc r.outer).bind fun outer =>
  r.from_.names.or.bind fun from_ =>
  r.target.or.bind fun to =>
  .ok (push groups {
    pkg := pkg, scope := determine pkg crate, api := api,
    usage := { address := r.address, symbolStart := r.symbolStart, binPath := binPath, scope := determine pkg crate,
               loc := loc, outer := outer, from_ := from_, to := to, toName := h.name, toSource := h.source } })

/-- The APIs of a hit that are not APIs of the origin (symbol_graph.rs:435-438). -/
def newApis (fromApis : List Api) (h : Hit) : List Api := h.apis.filter (fun a => a ∉ fromApis)

/-- The packages of a location that a hit is attributed to (symbol_graph.rs:427-434). -/
def usersOf (ids : List PkgId) (h : Hit) : List PkgId := ids.filter (fun p => h.name.head? ≠ some p.name)

/-- The callback for the target's names (symbol_graph.rs:415-466). -/
def onHit (c : State) (binPath : Str) (crate : CrateSel) (r : Ref) (fromApis : List Api)
    (groups : AMap Key (List Single)) (h : Hit) : Res (AMap Key (List Single)) :=
  (Res.ofOption r.from_.loc).bind fun loc =>
  (Res.ofOption (pkgIdsFromPath c (pathOf loc.file))).bind fun ids =>
  Res.loop (fun groups pkg => Res.loop (addUsage binPath crate r loc h pkg) groups (newApis fromApis h))
    groups (usersOf ids h)

/-- `process_reference` (symbol_graph.rs:393-468). -/
def processReference (c : State) (t : Trie) (n : Nat) (binPath : Str) (crate : CrateSel) (st : Coll) (r : Ref) :
    Res Coll :=
  (namesAndApis t n st.cache r.from_.names).bind fun fromHits =>
  (namesAndApis t n fromHits.2 r.target).bind fun hits =>
  (Res.loop (onHit c binPath crate r (fromHits.1.flatMap Hit.apis)) st.groups hits.1).bind fun groups =>
  .ok { cache := hits.2, groups := groups }

/-! ## The references of a binary -/

/-- `struct SymbolDebugInfo` (dwarf.rs:30-40) with the result of `source_location` (dwarf.rs:401-411). -/
structure DebugInfo where
  loc : SourceLoc
  name : Option Dbg

/-- `struct InlinedFunction` (dwarf.rs:43-48) with the result of `CallLocation::location` (dwarf.rs:50-64). -/
structure Inlined where
  address : Nat
  symbolStart : Nat
  from_ : SymName
  to : SymName
  loc : Option SourceLoc

/-- A linked binary: what is read from its symbol table and from its debug info. `frame` is the first frame that
`addr2line` gives for an address: its function and its location; `none` is an error, no frame is `some (none, none)`. -/
structure Bin where
  path : Str
  crate : CrateSel
  symbols : List (Str × Nat)
  debug : AMap Str DebugInfo
  inlined : List Inlined
  frame : Nat → Option (Option Str × Option SourceLoc)

/-- Whether the next tokens are exactly these texts (`tokens.next() == Some(DemangleToken::Text(p))` for each). -/
def startsWithTexts : List Str → Demangle.Iter → Res Bool
  | [], _ => .ok true
  | p :: ps, it =>
    match it.next with
    | .panic => .panic
    | .stuck => .stuck
    | .tok (.text s _) it => if s = p then startsWithTexts ps it else .ok false
    | _ => .ok false

/-- `Symbol::is_look_through` (symbol.rs:78-86). -/
def isLookThrough (s : Str) : Res Bool :=
  startsWithTexts [str! "core", str! "ops", str! "function"] (Demangle.Iter.new s)

/-- The loop body of `load_symbols` (symbol_graph.rs:680-686). -/
def loadSymbol (m : AMap Str Nat) (s : Str × Nat) : Res (AMap Str Nat) :=
  (isLookThrough s.1).bind fun b => .ok (if b then m else m.insert s.1 s.2)

/-- `load_symbols` (symbol_graph.rs:679-688). -/
def loadSymbols (symbols : List (Str × Nat)) : Res (AMap Str Nat) := Res.loop loadSymbol [] symbols

/-- `get_symbol_and_name` (symbol_graph.rs:690-699). -/
def Bin.symName (b : Bin) (s : Str) : SymName := ⟨some s, (b.debug.get? s).bind DebugInfo.name⟩

/-- The reference for an inlined function (symbol_graph.rs:204-225). -/
def inlinedRef (f : Inlined) : Ref :=
  { address := f.address, symbolStart := f.symbolStart, outer := none, from_ := ⟨f.from_, f.loc⟩, target := f.to }

/-- The references for one relocation (symbol_graph.rs:329-387). `first` is the first symbol of the section with its
address in the object file, `start` its address in the binary and `fallback` its location. -/
def relocRefs (b : Bin) (o : Obj) (infos : AMap Nat (Str × Nat)) (addresses : AMap Str Nat) (first : Str × Nat)
    (start : Nat) (fallback : SourceLoc) (r : Nat × Target) : Res (List Ref) :=
  (targets o infos addresses r.2).bind fun ts =>
  let address := start + r.1 - first.2
  (Res.ofOption (b.frame address)).bind fun frame =>
  let from_ : Node := ⟨b.symName (frame.1.getD first.1), some (frame.2.getD fallback)⟩
  let outer : Option Node := if frame.1 ≠ some first.1 then some ⟨b.symName first.1, some fallback⟩ else none
  .ok (ts.map (fun s =>
    { address := address, symbolStart := start, outer := outer, from_ := from_, target := b.symName s }))

/-- All references of a section in order (symbol_graph.rs:299-389). -/
def sectionRefs (b : Bin) (o : Obj) (infos : AMap Nat (Str × Nat)) (addresses : AMap Str Nat)
    (s : Nat × List (Nat × Target)) : Res (List Ref) :=
  match infos.get? s.1 with
  | none => .ok []
  | some first =>
    match addresses.get? first.1, b.debug.get? first.1 with
    | some start, some info =>
      Res.loop (fun l r => (relocRefs b o infos addresses first start info.loc r).bind fun l' => .ok (l ++ l')) [] s.2
    | _, _ => .ok []

/-- All references of an object file (`process_object_file_bytes`, symbol_graph.rs:288-391). In the code a reference is
processed as soon as it is found; it does not depend on the ones before it. -/
def objectRefs (b : Bin) (addresses : AMap Str Nat) (o : Obj) : Res (List Ref) :=
  match sectionInfos o with
  | none => .panic
  | some infos =>
    Res.loop (fun l s => (sectionRefs b o infos addresses s).bind fun l' => .ok (l ++ l')) [] o.sections

/-- All references that are processed for a binary (symbol_graph.rs:202-235). The members of the archives are listed in
`objs`. The backtracer is in `Model/Backtrace.lean`. -/
def allRefs (b : Bin) (objs : List Obj) : Res (List Ref) :=
  (loadSymbols b.symbols).bind fun addresses =>
  Res.loop (fun l o => (objectRefs b addresses o).bind fun l' => .ok (l ++ l')) (b.inlined.map inlinedRef) objs

/-! ## Results -/

/-- The length that decides which usage is kept (symbol_graph.rs:477-480), in bytes. -/
def targetLen (s : Single) : Nat :=
  match s.usage.toSource with
  | .symbol s => Demangle.byteLen s
  | .debugName _ n => Demangle.byteLen n

/-- `Iterator::min_by_key`: the first of the smallest. -/
def shortest : List Single → Option Single
  | [] => none
  | s :: l =>
    match shortest l with
    | none => some s
    | some m => if targetLen m < targetLen s then some m else some s

/-- The loop body of `emit_shortest_api_usages` (symbol_graph.rs:473-497). -/
def emit1 (out : AMap (PkgId × Api) ApiUsages) (g : Key × List Single) : AMap (PkgId × Api) ApiUsages :=
  match shortest g.2 with
  | none => out
  | some s =>
    let e := (out.get? (s.pkg, s.api)).getD { pkg := s.pkg, scope := s.scope, api := s.api, usages := [] }
    out.insert (s.pkg, s.api) { e with usages := e.usages ++ [s.usage] }

/-- `emit_shortest_api_usages` (symbol_graph.rs:470-498). `groups` lists the map in the order of its iteration. -/
def emitShortest (groups : List (Key × List Single)) : AMap (PkgId × Api) ApiUsages := groups.foldl emit1 []

/-- `Symbol::crate_name` (symbol.rs:61-70). -/
def symCrate (s : Str) : Res (Option Str) :=
  match (Demangle.Iter.new s).next with
  | .panic => .panic
  | .stuck => .stuck
  | .tok (.text t _) _ => .ok (some t)
  | _ => .ok none

/-- `Symbol::module_name` (symbol.rs:51-60): both tokens are read before they are looked at. If there is no first token,
the second call of `next` has no influence on the result and is left out. -/
def symModule (s : Str) : Res (Option Str) :=
  match (Demangle.Iter.new s).next with
  | .panic => .panic
  | .stuck => .stuck
  | .done => .ok none
  | .tok a it =>
    match it.next with
    | .panic => .panic
    | .stuck => .stuck
    | .tok (.text t _) _ => match a with
      | .text _ _ => .ok (some t)
      | _ => .ok none
    | _ => .ok none

/-- The state of `find_possible_exports`: pairs that were looked at, and the results. -/
abbrev ExportState := List (PkgId × Api) × List (PkgId × Api × Str)

/-- The loop over the packages of a symbol (symbol_graph.rs:517-537). -/
def exportIds (crate : Option Str) (symbol : Str) (api : Api) : ExportState → List PkgId → ExportState
  | st, [] => st
  | st, p :: ps =>
    if (p, api) ∈ st.1 then exportIds crate symbol api st ps
    else if crate ≠ some (crateName p) then exportIds crate symbol api ((p, api) :: st.1, st.2) ps
    else exportIds crate symbol api ((p, api) :: st.1, st.2 ++ [(p, api, symbol)]) ps

/-- The loop body of `find_possible_exports` (symbol_graph.rs:509-538). -/
def exportStep (c : State) (st : ExportState) (e : Str × DebugInfo) : Res ExportState :=
  (symModule e.1).bind fun
    | none => .ok st
    | some m =>
      if (c.cfg.apis.get? m).isSome then
        (symCrate e.1).bind fun crate =>
        .ok (exportIds crate e.1 m st ((pkgIdsFromPath c (pathOf e.2.loc.file)).getD []))
      else .ok st

/-- `find_possible_exports` (symbol_graph.rs:500-539). `debug` lists the map in the order of its iteration. -/
def possibleExports (c : State) (debug : List (Str × DebugInfo)) : Res (List (PkgId × Api × Str)) :=
  (Res.loop (exportStep c) ([], []) debug).bind fun st => .ok st.2

/-- The API tree of the current configuration (checker.rs:167-194). -/
def trieOf (apis : AMap Api ApiCfg) : Option Trie :=
  loadApis (apis.map (fun e => (e.1, { incl := e.2.incl, excl := e.2.excl }))) .empty

/-- The initial cache: no symbol with debug info is known to have no APIs (symbol_graph.rs:184-188). -/
def initialCache (debug : AMap Str DebugInfo) : AMap Str Bool := debug.map (fun e => (e.1, false))

/-- Processing all references. -/
def collect (c : State) (t : Trie) (n : Nat) (b : Bin) (cache : AMap Str Bool) (refs : List Ref) : Res Coll :=
  Res.loop (processReference c t n b.path b.crate) ⟨cache, []⟩ refs

/-- `scan_object_with_bin_bytes` (symbol_graph.rs:155-239). `order` is the order in which the map of groups is iterated
over. Possible exports are searched in the order of `b.debug`; they do not depend on the references. -/
def scanBin (c : State) (n : Nat) (order : AMap Key (List Single) → List (Key × List Single)) (b : Bin)
    (objs : List Obj) : Res ScanOut :=
  match trieOf c.cfg.apis with
  | none => .panic
  | some t =>
    (allRefs b objs).bind fun refs =>
    (possibleExports c b.debug).bind fun exports =>
    (collect c t n b (initialCache b.debug) refs).bind fun st =>
    .ok { usages := (emitShortest (order st.groups)).map Prod.snd, exports := exports, apis := c.cfg.apis }

end Cackle.Graph
