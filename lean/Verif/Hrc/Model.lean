import Verif.Hrc.Grammar
/-!
# Model of the loading of type definitions

Models, from parsers/HrcLibraryImpl.cpp of /repo/src/colorer: `loadFileType` (75-104), `parseHRC` (176-209), `addType` (358-395), `parseTypeBlock`
(397-416), `addTypeRegion` (418-443), `addTypeEntity` (445-459), `addTypeImport` (461-469), `addScheme` (471-500), `parseSchemeBlock` (502-527),
`addSchemeInherit` (529-558), `addSchemeRegexp` (560-594), `addSchemeBlock` (596-678), `parseSchemeKeywords` (680-720), `loopSchemeKeywords`
(722-733), `addSchemeKeyword` (735-766), `getSchemeKeywordsCount` (768-780), `loadRegexpRegions` (782-798), `loadRegions` (800-828),
`loadBlockRegions` (830-844), `updateSchemeLink` (846-866), `updateLinks` (868-900), `qualifyOwnName` (902-917), `checkNameExist` (919-941),
`qualifyForeignName` (943-996), `useEntities` (998-1043), `getNCRegion` (1045-1080), `getRegion` (159-173).

Loading is re-entrant: resolving a name loads the type it may come from, in the middle of another type's loading. The
recursive call is the parameter `loadF`, closed by `load` with a fuel; `none` means the fuel ran out, `fileTypeHash.find(tname)->second` was used on
a missing type, or a keyword was written outside its array.

Simplifications: names are lists of character codes (58 = ':'); the source of a type is what XML reading delivers: the types
contained in it, each a list of items; a source that cannot be read throws (`none`). Prototypes inside type sources,
annotations and logging are not modelled. Expressions and character classes are compiled by the models of Verif.RegExp. A pointer to a scheme is its
qualified name. The fuel of `links` is an artefact: it is computed so that it is enough (C44).
-/
namespace Verif.Hrc
open Verif.RegExp (Expr Ctx Cls)
open Verif.Keywords (KW KWList)

/-- the kinds of `QualifyNameType` -/
inductive Kind where
  | region | entity | scheme
deriving DecidableEq, Repr

/-- children of `<type>` (parseTypeBlock, 397-416) -/
inductive Item where
  | region (name : Name) (parent : Option Name)
  | entity (name value : Name)
  | import_ (type : Name)
  | scheme (el : Elem)

/-- a `<type>` element -/
structure TypeDecl where
  name  : Name
  items : List Item

/-- what the loader does not decide: the contents of the sources, the characters (ICU), the values of the parameters of a type
(`getParamValue`), the order in which the hash table `schemeHash` is gone through (each entry once), the outcome of `qsort` (with or without
case; some rearrangement) -/
structure World where
  types : Name → Option (List TypeDecl)
  ctx   : Ctx
  param : Name → Name → Option Name
  order : List Name → List Name
  qsort : Bool → List KW → List KW
  order_perm : ∀ l, (order l).Perm l
  qsort_perm : ∀ b l, (qsort b l).Perm l

/-- `Region`: name, parent (number of the parent region) -/
structure RegionRec where
  name   : Name
  parent : Option Nat
deriving DecidableEq, Repr

/-- The library (HrcLibraryImpl.h): `protos` are the keys of `fileTypeHash`; `started`, `busy`, `broken` are the flags
`type_loading`, `input_source_loading`, `load_broken`; `regs` is `regionNamesVector` (with `regionNamesHash` its first-match
index), `ents` is `schemeEntitiesHash`, `schemes` `schemeHash`, `cur` `current_parse_type`; `done` are the types with `loadDone`; `updating` is
`updateStarted`, `changed` is `structureChanged`. -/
structure Lib where
  protos  : List Name
  started : List Name
  busy    : List Name
  broken  : List Name
  imports : Name → List Name
  regs    : List RegionRec
  ents    : List (Name × Name)
  schemes : List Sch
  cur     : Option Name
  done    : List Name
  updating : Bool
  changed : Bool

/-- a library in which only the prototypes are known -/
def Lib.init (protos : List Name) : Lib := ⟨protos, [], [], [], fun _ => [], [], [], [], none, [], false, false⟩

/-- `name.indexOf(':')` -/
def colon (n : Name) : Option Nat := n.idxOf? 58

/-- `qualifyOwnName` (902-917) for the current type `t` -/
def qualifyOwn (t n : Name) : Option Name := match colon n with
  | some k => if n.take k = t then some n else none
  | none => some (t ++ 58 :: n)

/-- `regionNamesHash.find(name)`: position in the vector -/
def Lib.findReg (L : Lib) (n : Name) : Option Nat := L.regs.findIdx? (·.name = n)

/-- `schemeEntitiesHash.find(name)` (emplace keeps the first) -/
def Lib.findEnt (L : Lib) (n : Name) : Option Name := (L.ents.find? (·.1 = n)).map (·.2)

/-- `checkNameExist` (919-941) -/
def Lib.has (L : Lib) (k : Kind) (n : Name) : Bool := match k with
  | .region => (L.findReg n).isSome
  | .entity => (L.findEnt n).isSome
  | .scheme => L.schemes.any (·.name = n)

/-- the loop over the current type and its imports (968-986). The vector `importVector` of the current type is read once:
it changes only through `addTypeImport` of that type, which cannot run while a name of the same type is being resolved. -/
def tryTypes (loadF : Lib → Name → Option Lib) (n : Name) (k : Kind) : List Name → Lib → Option (Option Name × Lib)
  | [], L => some (none, L)
  | t :: r, L =>
    if t ∉ L.protos then none                                                       -- find(tname)->second, missing
    else
      match (if t ∈ L.started then some L else loadF L t) with                      -- 977-979
      | none => none
      | some L1 => if L1.has k (t ++ 58 :: n) then some (some (t ++ 58 :: n), L1)   -- 981-985
        else tryTypes loadF n k r L1

/-- `qualifyForeignName` (943-996) for a non-null name -/
def qualifyForeign (loadF : Lib → Name → Option Lib) (n : Name) (k : Kind) (L : Lib) : Option (Option Name × Lib) :=
  match colon n with
  | some c =>
    if n.take c ∉ L.protos then some (none, L)                                      -- 951-963
    else
      match (if n.take c ∈ L.started then some L else loadF L (n.take c)) with      -- 964-966
      | none => none
      | some L1 =>
        if L1.cur = some (n.take c) ∨ n.take c ∈ L1.started then
          some (if L1.has k n then some n else none, L1)                            -- 967-969
        else some (none, L1)
  | none => match L.cur with
    | none => some (none, L)
    | some t => tryTypes loadF n k (t :: L.imports t) L                             -- 972-993

/-- the suffix ":default" -/
def defaultSuffix : Name := [58, 100, 101, 102, 97, 117, 108, 116]

/-- `indexOf(":default")`: first occurrence -/
def indexOfDefault : Name → Option Nat
  | [] => none
  | c :: r => if defaultSuffix.isPrefixOf (c :: r) then some 0 else (indexOfDefault r).map (· + 1)

/-- lines 1060-1069: regions whose name ends in ":default" are transparent -/
def isDefault (n : Name) : Bool := match indexOfDefault n with
  | some i => decide (i + 8 = n.length)
  | none => false

/-- `getNCRegion` (1045-1071): the number of the region, or null -/
def getNCRegion (loadF : Lib → Name → Option Lib) (n : Name) (L : Lib) : Option (Option Nat × Lib) :=
  if n = [] then some (none, L)
  else match qualifyForeign loadF n .region L with
    | none => none
    | some (none, L1) => some (none, L1)
    | some (some q, L1) => some ((L1.findReg q).bind fun i => if isDefault q then none else some i, L1)

/-! ## Entities -/

/-- `useEntities` (998-1043) on the text from position `epos` on; `done` is the text before `epos` (so that the previous
character can be looked at and `copypos` be respected): `out` is what was appended so far, `pend` the characters between
`copypos` and `epos`, `prev` the character before `epos`. `resolve` is the qualification and lookup of one entity name, with
a state. -/
def expandFrom {σ : Type} (resolve : Name → σ → Option (Option Name × σ)) :
    Nat → Option Nat → Name → Name → Name → σ → Option (Name × σ)
  | 0, _, _, _, _, _ => none
  | fuel + 1, prev, out, pend, rest, s =>
    match rest.idxOf? 37 with                                                       -- indexOf('%', epos)
    | none => some (out ++ pend ++ rest, s)                                         -- 1011-1014, 1038-1040
    | some k =>
      let before := rest.take k
      let prev' := if k = 0 then prev else before.getLast?
      let tail := rest.drop (k + 1)                                                 -- after the '%'
      if prev' = some 92 then expandFrom resolve fuel (some 37) out (pend ++ before ++ [37]) tail s   -- 1015-1018
      else match (37 :: tail).idxOf? 59 with                                        -- indexOf(';', epos)
        | none => some (out ++ pend ++ rest, s)                                     -- 1020-1023
        | some e =>
          match resolve (tail.take (e - 1)) s with                                  -- 1024-1030
          | none => none
          | some (none, s1) => expandFrom resolve fuel (some 37) out (pend ++ before ++ [37]) tail s1   -- 1031-1034
          | some (some v, s1) => expandFrom resolve fuel (some 59) (out ++ pend ++ before ++ v) [] (tail.drop e) s1

/-- `useEntities` of a text -/
def useEntities {σ : Type} (resolve : Name → σ → Option (Option Name × σ)) (text : Name) (s : σ) : Option (Name × σ) :=
  expandFrom resolve (text.length + 1) none [] [] text s

/-- the entity lookup used by `useEntities` (1026-1030) -/
def resolveEnt (loadF : Lib → Name → Option Lib) (n : Name) (L : Lib) : Option (Option Name × Lib) :=
  match qualifyForeign loadF n .entity L with
  | none => none
  | some (none, L1) => some (none, L1)
  | some (some q, L1) => some (L1.findEnt q, L1)

/-! ## Loading -/

/-! ### Scheme bodies -/

/-- steps of the loader: they may change the library -/
abbrev M := StateT Lib Option

/-- a loop that collects a value for each element -/
def each {α β : Type} (f : α → M β) : List α → M (List β)
  | [] => pure []
  | a :: r => do
    let b ← f a
    let bs ← each f r
    pure (b :: bs)

/-- `getNCRegion(name, logErrors)` as a step -/
def nameRegion (loadF : Lib → Name → Option Lib) (n : Name) : M (Option Nat) := fun L => getNCRegion loadF n L

/-- `getNCRegion(elem, tag)` (1073-1080) -/
def attrRegion (loadF : Lib → Name → Option Lib) (el : Elem) (tag : Name) : M (Option Nat) :=
  match el.attr? tag with
  | some v => nameRegion loadF v
  | none => pure none

/-- `REGIONS_NUM`, `NAMED_REGIONS_NUM` (SchemeNode.h 14-16, cregexp.h) -/
def SLOTS : Nat := 16

/-- '0'…'9', 'a'…'f' (791, 811, 839) -/
def hexDigit (i : Nat) : Nat := (if i < 10 then i else i + 39) + 48

/-- the regions of the named brackets (795-797, 820-827); `getBracketName` is null beyond the names -/
def namedRegions (loadF : Lib → Name → Option Lib) (names : List Name) : M (List (Option Nat)) :=
  each (fun i => match names[i]? with
    | some n => nameRegion loadF n
    | none => pure none) (List.range SLOTS)

/-- `region0` … `regionf` of an element (790-793, 810-818) -/
def slotRegions (loadF : Lib → Name → Option Lib) (el : Elem) : M (List (Option Nat)) :=
  each (fun i => attrRegion loadF el (lit "region" ++ [hexDigit i])) (List.range SLOTS)

/-- `region00` … `region0f`, `region10` … `region1f` of a block element (836-843) -/
def pairRegions (loadF : Lib → Name → Option Lib) (el : Elem) : M (List (Option Nat × Option Nat)) :=
  each (fun i => do
    let a ← attrRegion loadF el (lit "region0" ++ [hexDigit i])
    let b ← attrRegion loadF el (lit "region1" ++ [hexDigit i])
    pure (a, b)) (List.range SLOTS)

/-- `useEntities` as a step -/
def expandText (loadF : Lib → Name → Option Lib) (v : Name) : M Name := fun L => useEntities (resolveEnt loadF) v L

/-- `qualifyForeignName` as a step -/
def qualify (loadF : Lib → Name → Option Lib) (n : Name) (k : Kind) : M (Option Name) := fun L => qualifyForeign loadF n k L

/-- one `<virtual>` (545-555) -/
def virtualOf (el : Elem) : Option VEnt :=
  if el.tag = lit "virtual" then
    if el.attr (lit "scheme") = [] ∨ el.attr (lit "subst-scheme") = [] then none
    else some ⟨⟨some (el.attr (lit "scheme")), none⟩, ⟨some (el.attr (lit "subst-scheme")), none⟩⟩
  else none

/-- `addSchemeInherit` (529-558); `none`: the element is skipped -/
def inheritNode (loadF : Lib → Name → Option Lib) (el : Elem) : M (Option SNode) :=
  if el.attr (lit "scheme") = [] then pure none
  else do
    let q ← qualify loadF (el.attr (lit "scheme")) .scheme
    pure (some (.inherit (match q with
      | some q => ⟨some q, some q⟩
      | none => ⟨some (el.attr (lit "scheme")), none⟩) (el.kids.filterMap virtualOf)))

/-- the text of an expression element: the attribute `match`, or the text if that is empty (562-566) -/
def matchText (el : Elem) : Name := if el.attr (lit "match") = [] then el.text else el.attr (lit "match")

/-- `regions[0] = region` if there is one (589-591) -/
def withFirst (region : Option Nat) (regions : List (Option Nat)) : List (Option Nat) :=
  if region.isSome then region :: regions.tail else regions

/-- `addSchemeRegexp` (560-594), `loadRegexpRegions` (782-798) -/
def regexpNode (W : World) (loadF : Lib → Name → Option Lib) (el : Elem) : M (Option SNode) :=
  if matchText el = [] then pure none
  else do
    let t ← expandText loadF (matchText el)
    match compile W.ctx t with
    | none => pure none
    | some e => do
      let region ← attrRegion loadF el (lit "region")
      let regions ← slotRegions loadF el
      let regionsn ← namedRegions loadF (bracketNames W.ctx t)
      pure (some (.regexp ⟨el.attr (lit "priority") = lit "low", e, region, withFirst region regions, regionsn⟩))

/-- the last child with the tag (605-623): `element_start`, `element_end` -/
def lastKid (el : Elem) (tag : Name) : Option Elem := (el.kids.filter (·.tag = tag)).getLast?

/-- the elements are looked at only if neither attribute is there (603) -/
def blockKid (el : Elem) (tag : Name) : Option Elem :=
  if el.attr (lit "start") = [] ∧ el.attr (lit "end") = [] then lastKid el tag else none

/-- the text of the start or end of a block (598-623): attribute, or `match` attribute or text of the child -/
def blockText (el : Elem) (tag : Name) : Name :=
  match blockKid el tag with
  | some k => match k.attr? (lit "match") with
    | some v => v
    | none => k.text
  | none => el.attr tag

/-- the block's region, taken from the start or end element if there is none yet (804-806) -/
def kidRegion (loadF : Lib → Name → Option Lib) (k : Elem) (region : Option Nat) : M (Option Nat) :=
  if region.isNone then attrRegion loadF k (lit "region") else pure region

/-- `loadRegions` (800-828), the part for the element: the block's region and the regions of the groups -/
def kidRegions (loadF : Lib → Name → Option Lib) (kid : Option Elem) (region : Option Nat) (regions : List (Option Nat)) :
    M (Option Nat × List (Option Nat)) :=
  match kid with
  | none => pure (region, regions)
  | some k => do
    let r ← kidRegion loadF k region
    let rs ← slotRegions loadF k
    pure (r, rs)

/-- the regions of a block: `loadBlockRegions` (830-844), then `loadRegions` for start and end (673-675) -/
def blockRegions (loadF : Lib → Name → Option Lib) (el : Elem) (names namesE : List Name) :
    M (Option Nat × List (Option Nat) × List (Option Nat) × List (Option Nat) × List (Option Nat)) := do
  let region ← attrRegion loadF el (lit "region")
  let prs ← pairRegions loadF el
  let (region, regions) ← kidRegions loadF (blockKid el (lit "start")) region (prs.map (·.1))
  let regionsn ← namedRegions loadF names
  let (region, regione) ← kidRegions loadF (blockKid el (lit "end")) region (prs.map (·.2))
  let regionen ← namedRegions loadF namesE
  pure (region, regions, regione, regionsn, regionen)

/-- `addSchemeBlock` (596-678). The end expression is compiled with the names of the start expression at hand (`setBackRE`). -/
def blockNode (W : World) (loadF : Lib → Name → Option Lib) (el : Elem) : M (Option SNode) :=
  if blockText el (lit "start") = [] ∨ blockText el (lit "end") = [] ∨ el.attr (lit "scheme") = [] then pure none
  else do
    let t ← expandText loadF (blockText el (lit "start"))
    match compile W.ctx t with
    | none => pure none
    | some e => do
      let u ← expandText loadF (blockText el (lit "end"))
      match compile { W.ctx with back := some (bracketNames W.ctx t) } u with
      | none => pure none
      | some e' => do
        let (region, regions, regione, regionsn, regionen) ← blockRegions loadF el (bracketNames W.ctx t)
          (bracketNames { W.ctx with back := some (bracketNames W.ctx t) } u)
        pure (some (.block ⟨el.attr (lit "inner-region") = lit "yes", el.attr (lit "priority") = lit "low",
          el.attr (lit "content-priority") = lit "low", ⟨some (el.attr (lit "scheme")), none⟩, e, e', region, regions, regione, regionsn, regionen⟩))

/-- the list being filled: the size of the array, what is in it, the first characters, the least length (KeywordList.h 26-40) -/
structure KwArr where
  num    : Nat
  kws    : List KW
  first  : Nat → Bool
  minLen : Nat

/-- is it a `<word>` or a `<symb>`? -/
def isWord (el : Elem) : Bool := el.tag = lit "word" || el.tag = lit "symb"

/-- `getSchemeKeywordsCount` (768-780) -/
def keywordCount (el : Elem) : Nat := (el.kids.filter fun k => isWord k && decide (k.attr (lit "name") ≠ [])).length

/-- the first characters of a keyword (755-761) -/
def addFirst (x : Ctx) (matchCase : Bool) (first : Nat → Bool) (c : Nat) : Nat → Bool := fun d =>
  first d || d = c || (!matchCase && (d = x.lower c || d = x.upper c || d = x.title c))

/-- the writing of a keyword (751-765); `none`: outside the array -/
def KwArr.add (x : Ctx) (matchCase : Bool) (A : KwArr) (k : KW) : Option KwArr :=
  if A.kws.length < A.num then
    some ⟨A.num, A.kws ++ [k], addFirst x matchCase A.first (k.word.headD 0), min A.minLen k.word.length⟩
  else none

/-- the region of a keyword (745-749): its own, or that of the list -/
def wordRegion (loadF : Lib → Name → Option Lib) (k : Elem) (region : Option Nat) : M (Option Nat) :=
  if k.attr (lit "region") = [] then pure region else attrRegion loadF k (lit "region")

/-- `addSchemeKeyword` (735-766), `loopSchemeKeywords` (722-733) -/
def addKeywords (W : World) (loadF : Lib → Name → Option Lib) (matchCase : Bool) (region : Option Nat) : List Elem → KwArr → M KwArr
  | [], A => pure A
  | k :: r, A =>
    if isWord k then
      if k.attr (lit "name") = [] then addKeywords W loadF matchCase region r A
      else do
        let rgn ← wordRegion loadF k region
        match A.add W.ctx matchCase ⟨k.attr (lit "name"), rgn, k.tag = lit "symb", none⟩ with
        | none => fun _ => none
        | some A => addKeywords W loadF matchCase region r A
    else addKeywords W loadF matchCase region r A

/-- `createCharClass(text, 0, nullptr, false)` (693, icu/UStr.cpp 56-60): `none` is null -/
def wordDiv (x : Ctx) (t : Name) : Option Cls := match t with
  | 91 :: _ => match RegExp.createCharClass x false t with
    | some (some (k, _)) => some k
    | _ => none
  | _ => none

/-- the separator class of a keyword list (690-703): a class that cannot be compiled is reported and left out -/
def readWordDiv (W : World) (loadF : Lib → Name → Option Lib) (el : Elem) : M (Option Cls) :=
  if el.attr (lit "worddiv") = [] then pure none
  else do
    let t ← expandText loadF (el.attr (lit "worddiv"))
    pure (wordDiv W.ctx t)

/-- `sortList`, `substrIndex` (716-717) -/
def finishList (W : World) (matchCase : Bool) (A : KwArr) : KWList :=
  ⟨Keywords.substrIndex (if A.kws.length < 2 then A.kws else W.qsort matchCase A.kws), A.first, A.minLen⟩

/-- `parseSchemeKeywords` (680-720) -/
def keywordsNode (W : World) (loadF : Lib → Name → Option Lib) (el : Elem) : M (Option SNode) := do
  let region ← attrRegion loadF el (lit "region")
  if region.isNone then pure none
  else do
    let div ← readWordDiv W loadF el
    let mc : Bool := el.attr (lit "ignorecase") ≠ lit "yes"
    let A ← addKeywords W loadF mc region el.kids ⟨keywordCount el, [], fun _ => false, 2147483647⟩
    pure (some (.keywords ⟨mc, finishList W mc A, div⟩))

/-- a child of `<scheme>` (504-526) -/
def nodeOf (W : World) (loadF : Lib → Name → Option Lib) (el : Elem) : M (Option SNode) :=
  if el.tag = lit "inherit" then inheritNode loadF el
  else if el.tag = lit "regexp" then regexpNode W loadF el
  else if el.tag = lit "block" then blockNode W loadF el
  else if el.tag = lit "keywords" then keywordsNode W loadF el
  else pure none

/-- `scheme->nodes.push_back` -/
def Lib.push (L : Lib) (q : Name) (nd : SNode) : Lib :=
  { L with schemes := L.schemes.map fun s => if s.name = q then { s with nodes := s.nodes ++ [nd] } else s }

/-- `parseSchemeBlock` (502-527) -/
def parseBody (W : World) (loadF : Lib → Name → Option Lib) (q : Name) : List Elem → Lib → Option Lib
  | [], L => some L
  | k :: r, L => match nodeOf W loadF k L with
    | none => none
    | some (none, L1) => parseBody W loadF q r L1
    | some (some nd, L1) => parseBody W loadF q r (L1.push q nd)

/-- `if` and `unless` (489-497): is the body left out? -/
def leftOut (W : World) (t : Name) (el : Elem) : Bool :=
  (el.attr (lit "if") ≠ [] && (match W.param t (el.attr (lit "if")) with | some v => v ≠ lit "true" | none => false)) ||
  (el.attr (lit "unless") ≠ [] && (match W.param t (el.attr (lit "unless")) with | some v => v = lit "true" | none => false))

/-- `addScheme` (471-500) -/
def addScheme (W : World) (loadF : Lib → Name → Option Lib) (t : Name) (el : Elem) (L : Lib) : Option Lib :=
  match qualifyOwn t (el.attr (lit "name")) with
  | none => some L
  | some q =>
    if L.has .scheme q then some L
    else
      let L1 : Lib := { L with schemes := L.schemes ++ [⟨q, t, []⟩] }
      if leftOut W t el then some L1 else parseBody W loadF q el.kids L1

/-! ### Links -/

/-- `updateSchemeLink` (846-866) -/
def updateLink (loadF : Lib → Name → Option Lib) (l : Link) : M Link :=
  match l.name, l.scheme with
  | some n, none => do
    let q ← qualify loadF n .scheme
    pure ⟨none, q⟩
  | some _, some _ => pure l
  | none, _ => pure l

/-- the links of one node (881-894) -/
def linkNode (loadF : Lib → Name → Option Lib) : SNode → M SNode
  | .block b => do
    let l ← updateLink loadF b.link
    pure (.block { b with link := l })
  | .inherit l virt => do
    let l ← updateLink loadF l
    let virt ← each (fun v => do
      let a ← updateLink loadF v.virt
      let b ← updateLink loadF v.subst
      pure (⟨a, b⟩ : VEnt)) virt
    pure (.inherit l virt)
  | .regexp n => pure (.regexp n)
  | .keywords n => pure (.keywords n)

/-- the changed nodes put back -/
def Lib.setNodes (L : Lib) (q : Name) (ns : List SNode) : Lib :=
  { L with schemes := L.schemes.map fun s => if s.name = q then { s with nodes := ns } else s }

/-- one round of the loop over `schemeHash` (872-898), in the order `qs`; it stops early when a type was loaded -/
def pass (loadF : Lib → Name → Option Lib) : List Name → Lib → Option Lib
  | [], L => some L
  | q :: r, L => match L.schemes.find? (·.name = q) with
    | none => none
    | some s =>
      if s.type ∉ L.done then pass loadF r L
      else match each (linkNode loadF) s.nodes { L with cur := some s.type } with
        | none => none
        | some (ns, L1) =>
          let L2 : Lib := { L1.setNodes q ns with cur := L.cur }
          if L2.changed then some L2 else pass loadF r L2

/-- `updateLinks` (868-900) -/
def links (W : World) (loadF : Lib → Name → Option Lib) : Nat → Lib → Option Lib
  | 0, L => if L.changed then none else some L
  | f + 1, L =>
    if L.changed then (pass loadF (W.order (L.schemes.map (·.name))) { L with changed := false }).bind (links W loadF f)
    else some L

/-- a bound for the links that loading an element makes -/
def Elem.linkBound (el : Elem) : Nat := (el.kids.map fun k => 1 + 2 * k.kids.length).sum
def Item.linkBound : Item → Nat
  | .scheme el => el.linkBound
  | .region _ _ => 0
  | .entity _ _ => 0
  | .import_ _ => 0
def TypeDecl.linkBound (d : TypeDecl) : Nat := (d.items.map Item.linkBound).sum
def World.linkBound (W : World) (protos : List Name) : Nat :=
  (protos.map fun t => match W.types t with
    | some ds => (ds.map TypeDecl.linkBound).sum
    | none => 0).sum

/-- unresolved links -/
def pendings (L : Lib) : Nat := (L.schemes.map fun s => ((s.nodes.flatMap SNode.links).filter Link.pending).length).sum

/-- a bound for the rounds of updateLinks: unresolved links, and those that types not yet loaded may bring -/
def rounds (W : World) (L : Lib) : Nat :=
  pendings L + (W.linkBound L.protos + 1) * (L.protos.filter fun t => decide (t ∉ L.started)).length

/-- the qualification of the `parent` attribute (434-438); an empty attribute is passed as null -/
def qualifyParent (loadF : Lib → Name → Option Lib) (p : Option Name) (L : Lib) : Option (Option Name × Lib) :=
  match p with
  | none => some (none, L)
  | some p => if p = [] then some (none, L) else qualifyForeign loadF p .region L

/-- one child of the type `t` (397-489) -/
def addItem (W : World) (loadF : Lib → Name → Option Lib) (t : Name) (L : Lib) : Item → Option Lib
  | .region n p =>                                                                  -- addTypeRegion 418-443
    if n = [] then some L
    else match qualifyOwn t n with
      | none => some L
      | some q =>
        if (L.findReg q).isSome then some L
        else
          match qualifyParent loadF p L with
          | none => none
          | some (none, L1) => some { L1 with regs := L1.regs ++ [⟨q, none⟩] }
          | some (some q2, L1) =>
            match getNCRegion loadF q2 L1 with
            | none => none
            | some (par, L2) => some { L2 with regs := L2.regs ++ [⟨q, par⟩] }
  | .entity n v =>                                                                  -- addTypeEntity 445-459
    if n = [] then some L
    else match useEntities (resolveEnt loadF) v L with
      | none => none
      | some (v', L1) => match qualifyOwn t n with
        | none => some L1
        | some q => some { L1 with ents := L1.ents ++ [(q, v')] }
  | .import_ ty =>                                                                  -- addTypeImport 461-469
    if ty = [] ∨ ty ∉ L.protos then some L
    else some { L with imports := fun x => if x = t then L.imports t ++ [ty] else L.imports x }
  | .scheme el => addScheme W loadF t el L

def addItems (W : World) (loadF : Lib → Name → Option Lib) (t : Name) (L : Lib) : List Item → Option Lib
  | [] => some L
  | i :: r => (addItem W loadF t L i).bind fun L => addItems W loadF t L r

/-- `addType` (358-395) -/
def addType (W : World) (loadF : Lib → Name → Option Lib) (L : Lib) (d : TypeDecl) : Option Lib :=
  if d.name = [] ∨ d.name ∉ L.protos ∨ d.name ∈ L.started then some L
  else (addItems W loadF d.name { L with started := d.name :: L.started, cur := some d.name } d.items).map
    fun L1 => { L1 with done := d.name :: L1.done, cur := L.cur }

def addTypes (W : World) (loadF : Lib → Name → Option Lib) (L : Lib) : List TypeDecl → Option Lib
  | [] => some L
  | d :: r => (addType W loadF L d).bind fun L => addTypes W loadF L r

/-- `parseHRC` (176-209) once the source is read: only the outermost call resolves the links -/
def parseHrc (W : World) (loadF : Lib → Name → Option Lib) (L : Lib) (ds : List TypeDecl) : Option Lib :=
  match addTypes W loadF { L with updating := true } ds with
  | none => none
  | some L1 =>
    let L2 : Lib := { L1 with changed := true }
    if L.updating then some L2
    else (links W loadF (rounds W L2 + 1) L2).map fun L3 => { L3 with updating := false }

/-- `loadFileType` (75-104); `src.types t` is what reading the type's source delivers (`none`: it throws). -/
def loadBody (src : World) (loadF : Lib → Name → Option Lib) (L : Lib) (t : Name) : Option Lib :=
  if t ∈ L.started ∨ t ∈ L.busy ∨ t ∈ L.broken then some L
  else match src.types t with
    | none => some { L with broken := t :: L.broken }
    | some ds => (parseHrc src loadF { L with busy := t :: L.busy } ds).map fun L1 => { L1 with busy := L1.busy.erase t }

/-- the recursion through nested loads -/
def load (src : World) : Nat → Lib → Name → Option Lib
  | 0, _, _ => none
  | fuel + 1, L, t => loadBody src (load src fuel) L t

/-- `getRegion(name)` (167-173): the public lookup -/
def getRegion (src : World) (fuel : Nat) (n : Name) (L : Lib) : Option (Option Nat × Lib) :=
  getNCRegion (load src fuel) n L

/-- What users of the library do: load types (`FileType::getBaseScheme`, `loadFileType`), look regions up. -/
inductive Act where
  | load (t : Name)
  | getRegion (n : Name)
deriving DecidableEq, Repr

def act (src : World) (fuel : Nat) (L : Lib) : Act → Option Lib
  | .load t => if t ∈ L.protos then load src fuel L t else some L
  | .getRegion n => (getRegion src fuel n L).map (·.2)

def acts (src : World) (fuel : Nat) (L : Lib) : List Act → Option Lib
  | [] => some L
  | a :: r => (act src fuel L a).bind fun L => acts src fuel L r

/-! ## hasParent -/

/-- `Region::hasParent` (Region.h:47-57): `fuel` steps along the parent pointers; `none` = the loop has not ended. -/
def hasParent (regs : List RegionRec) : Nat → Option Nat → Nat → Option Bool
  | _, none, _ => some false
  | 0, some _, _ => none
  | fuel + 1, some e, x => if x = e then some true else hasParent regs fuel ((regs[e]?).bind (·.parent)) x

end Verif.Hrc
