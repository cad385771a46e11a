import Verif.VTList.Spec
/-!
# Model of the text parser

Models `TextParser::Impl` (/repo/src/colorer/parsers/TextParserImpl.cpp, TextParserImpl.h): `parse` 33-117, the events 129-195,
`searchIN` 273-302, `searchRE` 304-326, `searchBL` 328-452, `searchMatch` 454-504, `colorize` 506-599, and the cache entries they build
(TextParserHelpers.h:47-100).

What is abstracted:
* Regular expressions are an oracle `rx`: any function of a query (expression, line, position, end, scheme start, back trace). It also
  gets the number of oracle calls so far, so that its answers may depend on the history in any way. The same for keyword lists (`kw`,
  modelled in Verif.Keywords) and for `breakParse` (`brk`, a flag another thread or a handler may set at any time).
* The list of virtual substitutions is passed down as the list of active levels (innermost first); Verif.VTList proves that the code's
  list behaves so (except when a block is substituted by its own scheme, `C10_violated_self_substitution`).
* The back trace of an end expression (`setBackTrace`, saved and restored by searchBL) is passed down with the expression.
* `baseScheme`, `matchend` and `len` are passed down: searchBL restores the first two (426-428) and colorize recomputes the third at
  the top of each round (it is -1 there: 508, 579, 595).
* The cache tree with the pointers `parent` and `forward` is a zipper: `frames` is the path from `parent` up to (not including) the
  root, each with its children so far; `forward` is the last child of the innermost one. The children after `forward` are cut off
  at once (in the code: when the loop of `parse` reaches the level, 82-92), and only when updating.
* `vcache` is recorded when the entry is made (in the code: when it is closed, 443, with the list back in the same state).
* `int`s are unbounded. A missing handler, line source or scheme (47-49) is not modelled.
-/
namespace Verif.TextParser
open Verif.VTList (VEntries resolve)

abbrev Text := List Nat

/-- `SMatches` (cregexp.h): the bounds of the match and of the other groups (numbered, then named; unset = -1) -/
structure Match where
  s    : Int
  e    : Int
  more : List (Int × Int)
deriving DecidableEq, Repr

/-- all groups, in the order of the loops over `cMatch` and `cnMatch` -/
def Match.groups (m : Match) : List (Int × Int) := (m.s, m.e) :: m.more

/-- `SchemeNodeBlock` (SchemeNode.h); `regs`, `rege` are the regions of the groups of start and end -/
structure Block where
  scheme : Option Nat
  start  : Nat
  stop   : Nat
  low    : Bool
  lowContent : Bool
  inner  : Bool
  region : Option Nat
  regs   : List (Option Nat)
  rege   : List (Option Nat)
deriving DecidableEq, Repr

/-- `SchemeNode` -/
inductive Node where
  | inherit (scheme : Option Nat) (virt : VEntries)
  | keywords (id : Nat)
  | re (start : Nat) (low : Bool) (regs : List (Option Nat))
  | block (b : Block)
deriving DecidableEq, Repr

/-- a call of `CRegExp::parse` -/
structure Query where
  re   : Nat
  text : Text
  pos  : Int
  len  : Int
  schemeStart : Int
  back : Option (Text × Match)
deriving DecidableEq, Repr

/-- everything the parser does not decide itself, and the parameters of a call of `parse` (`endL` = `end_line4parse`, `upd` =
`updateCache`); `maxBlock` = `maxBlockSize`, `limit` = `MAX_RECURSION_LEVEL` (100) -/
structure Env where
  nodes : Nat → List Node
  rx    : Nat → Query → Bool × Match
  kw    : Nat → Nat → Text → Int → Int → Option (Int × Option Nat)
  brk   : Nat → Bool
  line  : Int → Option Text
  maxBlock : Int
  limit : Nat
  upd   : Bool
  endL  : Int

/-- calls of the region handler. `pseudo l r s` is the call `enterScheme(l, line, 0, 0, r, s)` made by `fillInvisibleSchemes`. -/
inductive Ev where
  | start (l : Int)
  | clear (l : Int)
  | region (l sx ex : Int) (r : Nat)
  | enter (l sx ex : Int) (r : Option Nat) (scheme : Nat)
  | leave (l sx ex : Int) (r : Option Nat) (scheme : Nat)
  | pseudo (l : Int) (r : Option Nat) (scheme : Nat)
  | fin (l : Int)
deriving DecidableEq, Repr

/-- what a cache entry remembers (`ParseCache`): `sline`, `scheme`, `vcache`, `clender`, `matchstart`, `backLine` -/
structure Info where
  sline  : Int
  scheme : Nat
  levels : List VEntries
  block  : Block
  mat    : Match
  back   : Text
deriving DecidableEq, Repr

/-- a closed cache entry with its children -/
inductive Tree where
  | node (i : Info) (eline : Int) (kids : List Tree)

def Tree.info : Tree → Info | .node i _ _ => i
def Tree.eline : Tree → Int | .node _ e _ => e
def Tree.kids : Tree → List Tree | .node _ _ k => k

/-- an open cache entry -/
structure Frame where
  info : Info
  kids : List Tree

/-- the cache while parsing: open entries, innermost first, and the children of the root -/
structure Zip where
  frames : List Frame
  root   : List Tree

/-- appending a child to the innermost open entry (`forward->next = ...` / `parent->children = ...`) -/
def Zip.addKid (z : Zip) (t : Tree) : Zip :=
  match z.frames with
  | [] => { z with root := z.root ++ [t] }
  | f :: fs => { z with frames := { f with kids := f.kids ++ [t] } :: fs }

/-- searchBL 359-386 (new entry) -/
def Zip.push (z : Zip) (i : Info) : Zip := { z with frames := ⟨i, []⟩ :: z.frames }

/-- searchBL 431-440: a block that ended on its first line leaves no entry -/
def Zip.discard (z : Zip) : Zip := { z with frames := z.frames.tail }

/-- searchBL 441-446, parse 103-107: closing an entry -/
def Zip.close (z : Zip) (eline : Int) : Zip :=
  match z.frames with
  | [] => z
  | f :: fs => Zip.addKid ⟨fs, z.root⟩ (.node f.info eline f.kids)

/-- the members of `TextParser::Impl` that change during a parse; `tick` counts oracle calls, `hit` records that the recursion limit
was met, `evs` are the calls of the handler so far -/
structure St where
  gx     : Int
  line   : Int
  cleared : Int
  filled : Bool
  schemeStart : Int
  level  : Nat
  endLine : Int
  tick   : Nat
  hit    : Bool
  evs    : List Ev
  zip    : Zip

def St.emit (st : St) (es : List Ev) : St := { st with evs := st.evs ++ es }

/-- `str`: the line fetched last -/
def St.str (env : Env) (st : St) : Text := (env.line st.cleared).getD []

/-- `addRegion` (129-135) for a group -/
def regEv (l : Int) (g : Int × Int) (r : Option Nat) : List Ev :=
  match r with
  | none => []
  | some r => if g.1 = -1 then [] else [.region l g.1 g.2 r]

/-- the loops over the groups of a match (155-160, 172-177, 311-316) -/
def regEvs (l : Int) (m : Match) (regs : List (Option Nat)) : List Ev :=
  ((m.groups.zip regs).map fun x => regEv l x.1 x.2).flatten

/-- `enterScheme(lno, match, schemeNode)` (147-165) -/
def enterEvs (l : Int) (m : Match) (b : Block) (scheme : Nat) : List Ev :=
  if b.inner then regEvs l m b.regs ++ [.enter l m.e m.e b.region scheme]
  else .enter l m.s m.e b.region scheme :: regEvs l m b.regs

/-- `leaveScheme(lno, match, schemeNode)` (167-185) -/
def leaveEvs (l : Int) (m : Match) (b : Block) (scheme : Nat) : List Ev :=
  if b.inner then .leave l m.s m.s b.region scheme :: regEvs l m b.rege
  else regEvs l m b.rege ++ [.leave l m.s m.e b.region scheme]

/-- `fillInvisibleSchemes` (187-195): the open blocks, outermost first; the scheme is `baseScheme`, the same for all -/
def pseudos (l : Int) (frames : List Frame) (scheme : Nat) : List Ev :=
  frames.reverse.map fun f => .pseudo l f.info.block.region scheme

/-- arguments of `colorize` and the members it reads: the end expression with its back trace, `lowContentPriority`, `baseScheme`, the
active substitutions -/
structure Ctx where
  stop   : Option (Nat × Text × Match)
  low    : Bool
  scheme : Nat
  levels : List VEntries

/-- `MATCH_NOTHING`, `MATCH_RE`, `MATCH_SCHEME` -/
inductive MRes where
  | nothing | re | scheme
deriving DecidableEq, Repr

/-- why there is no result: fuel of the model used up; "null String passed into the parser"; a line the cache does not cover -/
inductive Stop where
  | fuel | null (l : Int) | line
deriving DecidableEq, Repr

abbrev R (α : Type) := Except Stop α

def R.andThen {α β : Type} (x : R α) (f : α → R β) : R β :=
  match x with
  | .error e => .error e
  | .ok a => f a

/-- the mutually recursive parts of the parser: `colorize`; its outer loop; its inner loop; `searchMatch` from a node on. `me` is
`matchend` at that moment, `len` and `plen` are `len` and `parent_len`. -/
inductive Call where
  | colorize (c : Ctx) (me : Match)
  | outer (c : Ctx) (me : Match)
  | cols (c : Ctx) (me : Match) (len plen : Int)
  | nodes (ns : List Node) (levels : List VEntries) (low hi : Int) (me : Match)

/-- results: `matchend` after `colorize`; `ret == LINE_REPARSE`; the result of searchMatch -/
structure Out where
  me  : Match := ⟨0, 0, []⟩
  rep : Bool := false
  res : MRes := .nothing
deriving DecidableEq, Repr

/-- colorize 520-528: fetch the line once and announce it -/
def openLine (env : Env) (st : St) : R St :=
  if st.cleared ≠ st.line then
    match env.line st.line with
    | none => .error (.null st.line)
    | some _ => .ok { st with cleared := st.line, evs := st.evs ++ [.clear st.line] }
  else .ok st

/-- colorize 531-534 -/
def fill (c : Ctx) (st : St) : St :=
  if st.filled then st
  else { st with filled := true, evs := st.evs ++ pseudos st.line st.zip.frames c.scheme }

/-- colorize 535-540: fetched line, pseudo schemes, `endLine` -/
def startLine (env : Env) (c : Ctx) (st : St) : R St :=
  (openLine env st).andThen fun st1 => .ok { fill c st1 with endLine := st1.line }

/-- colorize 542-549: the search for the end of the block. A failed search leaves some match (`rx` says which), its bounds are set. -/
def endSearch (env : Env) (c : Ctx) (me : Match) (st : St) : Bool × Match :=
  let len : Int := (st.str env).length
  let d := if st.gx + env.maxBlock > len then len else st.gx + env.maxBlock
  match c.stop with
  | none => (false, { me with s := d, e := d })
  | some (re, back, m) =>
    let a := env.rx st.tick ⟨re, st.str env, st.gx, len, st.schemeStart, some (back, m)⟩
    if a.1 then (true, a.2) else (false, { a.2 with s := d, e := d })

def St.tock (st : St) : St := { st with tick := st.tick + 1 }

/-- `min(a + maxBlockSize, len)` as written in 568-569 -/
def hiLen (env : Env) (s len : Int) : Int := if s + env.maxBlock > len then len else s + env.maxBlock

/-- searchBL 401-428 after the call of `colorize`: leave, restore, cache. `st0`: state before (at the start match), `st`: after. -/
def afterBlock (env : Env) (b : Block) (scheme : Nat) (st0 st : St) (me : Match) : St :=
  let es := if st.line < env.endL then leaveEvs st.line me b scheme else []
  let zip := if env.upd then (if st0.line = st.line then st.zip.discard else st.zip.close st.line) else st.zip
  { st with gx := me.e, schemeStart := st0.schemeStart, evs := st.evs ++ es, zip := zip }

/-- searchBL 341-400 before the call of `colorize` -/
def beforeBlock (env : Env) (b : Block) (scheme : Nat) (levels : List VEntries) (m : Match) (st : St) : St :=
  { st with
    gx := m.e
    schemeStart := m.e
    evs := st.evs ++ enterEvs st.line m b scheme
    zip := if env.upd then st.zip.push ⟨st.line + 1, scheme, levels, b, m, st.str env⟩ else st.zip }

/-- searchIN 282-300, searchBL 345-350: the scheme to search and the substitutions active below it. For an inherit its own virtual
entries become active if it is not itself replaced. -/
def target (scheme : Nat) (levels : List VEntries) (virt : VEntries) : Nat × List VEntries :=
  match resolve scheme levels with
  | some r => r
  | none => (scheme, if virt = [] then levels else virt :: levels)

/-- one level of the recursion; `rec` does the recursive calls -/
def body (env : Env) (rec : Call → St → R (Out × St)) : Call → St → R (Out × St)
  -- colorize 506-514, 597-598
  | .colorize c me, st =>
    if st.level > env.limit then .ok ({ me := me }, { st with hit := true })
    else (rec (.outer c me) { st with level := st.level + 1 }).andThen fun (o, st1) => .ok (o, { st1 with level := st1.level - 1 })
  -- colorize 516-596
  | .outer c me, st =>
    if st.line < env.endL then
      (startLine env c st).andThen fun st1 =>
        let a := endSearch env c me st1
        let len : Int := (st1.str env).length
        (rec (.cols c a.2 (if c.low then a.2.s else len) len) st1.tock).andThen fun (o, st2) =>
          if o.rep then rec (.outer c a.2) st2
          else if a.1 then .ok ({ me := a.2 }, { st2 with schemeStart := -1 })
          else rec (.outer c a.2) { st2 with schemeStart := -1, line := st2.line + 1, gx := 0 }
    else .ok ({ me := me }, st)
  -- colorize 560-586
  | .cols c me len plen, st =>
    if st.gx ≤ me.s then
      if env.brk st.tick then .ok ({}, { st with line := env.endL })
      else
        (rec (.nodes (env.nodes c.scheme) c.levels me.s (hiLen env me.s len) me) st.tock).andThen fun (o, st1) =>
          if (o.res = .scheme ∧ (st1.line ≠ st.line ∨ me.s < st1.gx)) ∨ (o.res = .re ∧ me.s < st1.gx) then .ok ({ rep := true }, st1)
          else rec (.cols c me (if st1.line = st.line then plen else len) plen)
            (if o.res = .nothing then { st1 with gx := st1.gx + 1 } else st1)
    else .ok ({}, st)
  -- searchMatch 466-503
  | .nodes [] _ _ _ _, st => .ok ({}, st)
  -- searchIN
  | .nodes (.inherit none _ :: ns) levels low hi me, st => rec (.nodes ns levels low hi me) st
  | .nodes (.inherit (some s) virt :: ns) levels low hi me, st =>
    (rec (.nodes (env.nodes (target s levels virt).1) (target s levels virt).2 low hi me) st).andThen fun (o, st1) =>
      if o.res ≠ .nothing then .ok ({ res := o.res }, st1) else rec (.nodes ns levels low hi me) st1
  -- searchKW 197-271 (the search itself: Verif.Keywords)
  | .nodes (.keywords id :: ns) levels low hi me, st =>
    match env.kw st.tick id (st.str env) st.gx low with
    | some (n, r) =>
      .ok ({ res := .re }, { st.tock with gx := st.gx + n, evs := st.evs ++ regEv st.line (st.gx, st.gx + n) r })
    | none => rec (.nodes ns levels low hi me) st.tock
  -- searchRE
  | .nodes (.re start lowP regs :: ns) levels low hi me, st =>
    let a := env.rx st.tick ⟨start, st.str env, st.gx, if lowP then low else hi, st.schemeStart, none⟩
    if a.1 then
      let st1 := st.tock.emit (regEvs st.line a.2 regs)
      if a.2.e = a.2.s then rec (.nodes ns levels low hi me) st1 else .ok ({ res := .re }, { st1 with gx := a.2.e })
    else rec (.nodes ns levels low hi me) st.tock
  -- searchBL
  | .nodes (.block b :: ns) levels low hi me, st =>
    match b.scheme with
    | none => rec (.nodes ns levels low hi me) st
    | some s =>
      let a := env.rx st.tick ⟨b.start, st.str env, st.gx, if b.low then low else hi, st.schemeStart, none⟩
      if a.1 then
        let t := target s levels []
        (rec (.colorize ⟨some (b.stop, st.str env, a.2), b.lowContent, t.1, t.2⟩ me) (beforeBlock env b t.1 t.2 a.2 st.tock)).andThen
          fun (o, st1) =>
            if a.2.s = o.me.e ∧ st.line = st1.line then rec (.nodes ns levels low hi me) (afterBlock env b t.1 st st1 o.me)
            else .ok ({ res := .scheme }, afterBlock env b t.1 st st1 o.me)
      else rec (.nodes ns levels low hi me) st.tock

/-- the recursion, `fuel` levels deep -/
def run (env : Env) : Nat → Call → St → R (Out × St)
  | 0 => fun _ _ => .error .fuel
  | fuel + 1 => body env (run env fuel)

/-! ## parse -/

mutual
/-- `ParseCache::searchLine` (TextParserHelpers.cpp:30-53) below an entry: the path to the innermost entry that covers the line,
innermost first. The children kept are those before the line (up to `forward`); see Verif.ParseCache for the lookup itself. -/
def locate (ln : Int) : Tree → List Frame
  | .node i _ kids =>
    match locateKids ln [] kids with
    | (some path, before) => path ++ [⟨i, before⟩]
    | (none, before) => [⟨i, before⟩]
/-- among children: the path into the child that covers the line, if any, and the children before it -/
def locateKids (ln : Int) (before : List Tree) : List Tree → Option (List Frame) × List Tree
  | [] => (none, before)
  | t :: ts =>
    if t.info.sline ≤ ln ∧ ln ≤ t.eline then (some (locate ln t), before)
    else if t.info.sline ≤ ln then locateKids ln (before ++ [t]) ts
    else locateRest ln before [t] ts
/-- as `locateKids`, after a child that starts after the line: it is kept only if a later one starts before the line -/
def locateRest (ln : Int) (before skipped : List Tree) : List Tree → Option (List Frame) × List Tree
  | [] => (none, before)
  | t :: ts =>
    if t.info.sline ≤ ln ∧ ln ≤ t.eline then (some (locate ln t), before ++ skipped)
    else if t.info.sline ≤ ln then locateKids ln (before ++ skipped ++ [t]) ts
    else locateRest ln before (skipped ++ [t]) ts
end

/-- `cache->searchLine(from, &forward)` on the root -/
def locateRoot (ln : Int) (root : List Tree) : Zip :=
  match locateKids ln [] root with
  | (some path, before) => ⟨path, before⟩
  | (none, before) => ⟨[], before⟩

/-- what a frame's `colorize` needs (parse 98-101) -/
def ctxOf (i : Info) : Ctx := ⟨some (i.block.stop, i.back, i.mat), i.block.lowContent, i.scheme, i.levels⟩

/-- parse 103-113 for an entry that is not the root -/
def afterFrame (env : Env) (i : Info) (st : St) (me : Match) : St :=
  let es := if st.line < env.endL then leaveEvs st.line me i.block i.scheme else []
  { st with gx := me.e, evs := st.evs ++ es, zip := if env.upd then st.zip.close st.line else st.zip.discard }

/-- the loop of `parse` (80-114) over the entries from the innermost one up, the root last -/
def climb (env : Env) (fuel : Nat) (base : Nat) : List Frame → Match → St → R (Match × St)
  | [], me, st => (run env fuel (.colorize ⟨none, false, base, []⟩ me) { st with level := 0 }).andThen fun (o, st1) =>
      .ok (o.me, { st1 with gx := o.me.e })
  | f :: fs, me, st => (run env fuel (.colorize (ctxOf f.info) me) { st with level := 0 }).andThen fun (o, st1) =>
      climb env fuel base fs o.me (afterFrame env f.info st1 o.me)

/-- what a parser keeps between calls: the children of the root of the cache, `baseScheme`, `endLine`, `matchend` -/
structure PState where
  cache : List Tree
  base  : Nat
  endLine : Int
  me    : Match

/-- state of the members at the start of `parse` (35-45, 61-78) -/
def startState (p : PState) (from' : Int) (zip : Zip) : St :=
  { gx := 0, line := from', cleared := -1, filled := false, schemeStart := -1, level := 0, endLine := p.endLine, tick := 0, hit := false
    evs := [.start from'], zip := zip }

/-- result of a call of `parse` -/
structure Result where
  after : PState
  evs   : List Ev
  ret   : Int
  hit   : Bool

/-- `TextParseMode` (TextParser.h:30-48) -/
inductive Mode where
  | off | read | update
deriving DecidableEq, Repr

/-- the entry to start with (61-75): the root when the cache is off, otherwise the innermost one covering the line. `none`: the line is
outside the root entry, which covers 0 … 0x7FFFFFF (initCache 119-124); the code then returns at once or dereferences null. -/
def entry (p : PState) (from' : Int) : Mode → Option Zip
  | .off => some ⟨[], p.cache⟩
  | _ => if 0 ≤ from' ∧ from' ≤ 0x7FFFFFF then some (locateRoot from' p.cache) else none

/-- `parse(from, num, mode)` (33-117) -/
def parse (env0 : Env) (fuel : Nat) (p : PState) (from' num : Int) (mode : Mode) : R Result :=
  match entry p from' mode with
  | none => .error .line
  | some z =>
    (climb { env0 with endL := from' + num, upd := decide (mode = .update) } fuel p.base z.frames p.me (startState p from' z)).andThen
      fun (me, st) =>
        .ok { after := { p with cache := if mode = .update then st.zip.root else p.cache, endLine := st.endLine, me := me }
              evs := st.evs ++ [.fin st.endLine], ret := st.endLine, hit := st.hit }

end Verif.TextParser
