/-!
# Model of the regular expression matcher

Models `CRegExp` (/repo/src/colorer/cregexp/cregexp.cpp, cregexp.h): `optimize` 140-171, `isWordBoundary`/`checkMetaSymbol` 671-793,
`check_stack` 795-814, `insert_stack` 816-851, `lowParse` 853-1372, `quickCheck` 1374-1422, `parseRE` 1424-1453, `parse` 1455-1480.
(COLORERMODE on, NAMED_MATCHES_IN_HASH off, as in cregexp.h:14-22.) The compiler (`setStructs`) is modelled in Verif.RegExp.Compile.

What is abstracted:
* A node with its `next` chain is a list of nodes; a pointer to a node is the chain from it on, followed by the chains from each
  of its ancestors on (`Cfg.pos`). `un.param` is the body list. An empty chain stands for a null `next`, from where the code goes to
  the parent at once (insert_stack 846-850, lowParse 1361-1364). `prev` is not modelled: lowParse only uses it to find the parent.
* The fields of a node that lowParse changes (`s` of brackets; `param0`, `param1`, `oldParse` of ranges) are kept in a memory, under
  the address of the node: the lengths of the chains in its pointer (different for different nodes of one tree).
* The static stack `RegExpStack` with `count_elem` is a list; the array itself is in Verif.RegExp.Shared.
* `int`s are unbounded. Character properties and case mappings are parameters. Reading outside a string is the outcome `oob`.
-/
namespace Verif.RegExp

abbrev Text := List Nat

/-- `EMetaSymbols` (cregexp.h:86-112); `bad` = `ReBadMeta` and `ReChrLast`, for which checkMetaSymbol fails -/
inductive Meta where
  | bad | any | sol | soScheme | eol | digit | ndigit | word | nword | space | nspace | upper | lower | wbound | nwbound | preNW
  | start | stop
deriving DecidableEq, Repr

/-- `SRegInfo` with its `op` (cregexp.h:54-84, 131-158). Brackets: `none` = no capture (`param0 == -1`). `ngRangeN` etc. are the lazy
ones. The operations ReMul … ReNGQuest are never generated. -/
inductive Node where
  | empty
  | msym (m : Meta)
  | symb (c : Nat)
  | word (w : Text)
  | enum (cls : Nat → Bool)
  | nenum (cls : Nat → Bool)
  | brackets (idx : Option Nat) (body : List Node)
  | named (idx : Option Nat) (body : List Node)
  | bkTrace (n : Nat)
  | bkTraceN (n : Nat)
  | bkTraceName (n : Nat)
  | bkTraceNName (n : Nat)
  | bkBrack (n : Nat)
  | bkBrackName (n : Nat)
  | ahead (body : List Node)
  | nahead (body : List Node)
  | behind (n : Nat) (body : List Node)
  | nbehind (n : Nat) (body : List Node)
  | or (body : List Node)
  | rangeN (s : Int) (body : List Node)
  | rangeNM (s e : Int) (body : List Node)
  | ngRangeN (s : Int) (body : List Node)
  | ngRangeNM (s e : Int) (body : List Node)

/-- `SMatches` (cregexp.h:117-126): all 16 entries, also those not in use -/
structure Matches where
  s  : Nat → Int
  e  : Nat → Int
  ns : Nat → Int
  ne : Nat → Int

/-- class `Character` and `UStr::caseCompare(..) == 0` -/
structure Chars where
  isDigit : Nat → Bool
  isLetter : Nat → Bool
  isLetterOrDigit : Nat → Bool
  isSpace : Nat → Bool
  isUpper : Nat → Bool
  isLower : Nat → Bool
  lower : Nat → Nat
  upper : Nat → Nat
  caseEq : Text → Text → Bool

/-- flags of the expression -/
structure Flags where
  ignoreCase : Bool
  singleLine : Bool
  multiLine  : Bool
deriving DecidableEq, Repr

/-- everything constant during a call of `lowParse`: `global_pattern`, `end`, `schemeStart`, `backStr` with `backTrace`, `cMatch`,
`cnMatch` -/
structure Env where
  text : Text
  stop : Int
  schemeStart : Int
  back : Option (Text × Matches)
  cMatch : Nat
  cnMatch : Nat
  flags : Flags
  chars : Chars

/-- the fields of a node that change -/
structure Vars where
  start : Int
  p0    : Int
  p1    : Int
  old   : Int
deriving DecidableEq, Repr

/-- the address of a node -/
abbrev Addr := List Nat

/-- everything that changes: the fields of the nodes, `*matches`, `startChange`, `endChange` -/
structure Mem where
  vars : Addr → Vars
  m    : Matches
  startChange : Bool
  endChange   : Bool

/-- `re`, `leftenter`, `toParse` -/
structure Cfg where
  pos  : List (List Node)
  left : Bool
  q    : Int

/-- the address of the node a pointer points to -/
def addr (pos : List (List Node)) : Addr := pos.map List.length

def Mem.set (m : Mem) (a : Addr) (v : Vars) : Mem := { m with vars := fun b => if b = a then v else m.vars b }

def upd (f : Nat → Int) (i : Nat) (v : Int) : Nat → Int := fun j => if j = i then v else f j

/-- `str[i]` -/
def rd (t : Text) (i : Int) : Option Nat := if 0 ≤ i then t[i.toNat]? else none

/-- result of a test: fails, holds (new `toParse`), reads outside a string -/
inductive Chk where
  | no | yes (q : Int) | oob
deriving DecidableEq, Repr

/-- test of the character at `q`, consuming it -/
def eat (env : Env) (q : Int) (f : Nat → Bool) : Chk :=
  if env.stop ≤ q then .no
  else match rd env.text q with
    | none => .oob
    | some c => if f c then .yes (q + 1) else .no

/-- the line ends of `.`, `^`, `$` -/
def isEol (c : Nat) : Bool := c = 0x0A || c = 0x0B || c = 0x0C || c = 0x0D || c = 0x85 || c = 0x2028 || c = 0x2029

def isWordChar (env : Env) (c : Nat) : Bool := env.chars.isLetterOrDigit c || c = 0x5F

/-- a test that consumes nothing -/
def hold (q : Int) (b : Bool) : Chk := if b then .yes q else .no

/-- a condition on the character at `i`, evaluated only if `g` (C++ `g && f(pattern[i])`) -/
def andAt (env : Env) (g : Bool) (i : Int) (f : Nat → Bool) : Option Bool :=
  if g then (rd env.text i).map f else some false

def holdO (q : Int) : Option Bool → Chk
  | none => .oob
  | some b => hold q b

/-- `isWordBoundary` 671-683 -/
def wordBoundary (env : Env) (q : Int) : Option Bool :=
  match andAt env (decide (q < env.stop)) q (isWordChar env), andAt env (decide (0 < q)) (q - 1) (isWordChar env) with
  | some a, some b => some (a != b)
  | _, _ => none

/-- `checkMetaSymbol` 689-793; `\m` and `\M` (781-788) are in `exec` -/
def checkMeta (env : Env) (m : Meta) (q : Int) : Chk :=
  match m with
  | .any => eat env q fun c => env.flags.singleLine || !isEol c
  | .sol =>
    if env.flags.multiLine then holdO q ((andAt env (decide (q ≠ 0)) (q - 1) isEol).map fun ok => decide (q = 0) || ok)
    else hold q (decide (q = 0))
  | .eol =>
    if env.flags.multiLine then
      holdO q ((andAt env (decide (q ≠ 0) && decide (q < env.stop)) (q - 1) isEol).map fun ok => decide (q = env.stop) || ok)
    else hold q (decide (env.stop = q))
  | .digit => eat env q env.chars.isDigit
  | .ndigit => eat env q fun c => !env.chars.isDigit c
  | .word => eat env q (isWordChar env)
  | .nword => eat env q fun c => !isWordChar env c
  | .space => eat env q env.chars.isSpace
  | .nspace => eat env q fun c => !env.chars.isSpace c
  | .upper => eat env q env.chars.isUpper
  | .lower => eat env q env.chars.isLower
  | .wbound => holdO q (wordBoundary env q)
  | .nwbound => holdO q ((wordBoundary env q).map not)
  | .preNW =>
    if env.stop ≤ q then .yes q
    else holdO q ((andAt env (decide (q ≠ 0)) (q - 1) env.chars.isLetter).map not)
  | .soScheme => hold q (decide (env.schemeStart = q))
  | .start | .stop => .yes q
  | .bad => .no

/-- case ReSymb 897-918 -/
def symEq (env : Env) (sym c : Nat) : Bool :=
  if env.flags.ignoreCase then env.chars.lower c = env.chars.lower sym || env.chars.upper c = env.chars.upper sym else c = sym

/-- the comparing loops of ReWord and of the back references: `n` characters of `src` from `i` on against the text from `q` on. `guard`:
the loop itself tests `toParse >= end`. -/
def cmpLoop (env : Env) (guard : Bool) (src : Int → Option Nat) (eq : Nat → Nat → Bool) : Nat → Int → Int → Chk
  | 0, _, q => .yes q
  | n + 1, i, q =>
    if guard && decide (env.stop ≤ q) then .no
    else match rd env.text q, src i with
      | some c, some d => if eq c d then cmpLoop env guard src eq n (i + 1) (q + 1) else .no
      | _, _ => .oob

/-- the loop over the group `[a, b)` of `t` (e.g. 1111-1119); `same c d`: `c` from the text, `d` from `t` -/
def refLoop (env : Env) (t : Text) (eq : Nat → Nat → Bool) (a b q : Int) : Chk :=
  cmpLoop env true (rd t) eq (b - a).toNat a q

/-- case ReWord 925-953 -/
def checkWord (env : Env) (w : Text) (q : Int) : Chk :=
  if q + w.length > env.stop then .no
  else if env.flags.ignoreCase then
    if 0 ≤ q ∧ q + w.length ≤ env.text.length then
      if env.chars.caseEq ((env.text.drop q.toNat).take w.length) w then .yes (q + w.length) else .no
    else .oob
  else cmpLoop env false (rd w) (fun c d => c = d) w.length 0 q

def eqExact (c d : Nat) : Bool := c = d
def eqLower (env : Env) (c d : Nat) : Bool := env.chars.lower c = env.chars.lower d

/-- cases ReBkTrace … ReBkTraceNName 974-1062 (the last uses `s`, `e` instead of `ns`, `ne`: 1050) -/
def checkTrace (env : Env) (named nocase : Bool) (n : Nat) (q : Int) : Chk :=
  match env.back with
  | none => .no
  | some (t, tr) =>
    refLoop env t (if nocase then eqLower env else eqExact) (if named && !nocase then tr.ns n else tr.s n)
      (if named && !nocase then tr.ne n else tr.e n) q

/-- cases ReBkBrackName 1064-1085, ReBkBrack 1112-1132 -/
def checkRef (env : Env) (count : Nat) (s e : Nat → Int) (n : Nat) (q : Int) : Chk :=
  if count ≤ n then .no
  else if s n = -1 ∨ e n = -1 then .no
  else refLoop env env.text eqExact (s n) (e n) q

/-- `ReAction` (cregexp.h:174-184) -/
inductive Act where
  | no | yes | brk | rangeN2 | rangeNM2 | rangeNM3 | ngRangeN2 | ngRangeNM2 | ngRangeNM3
deriving DecidableEq, Repr

/-- what a round of the loop ends with: `check_stack(false)`, `check_stack(true)`, another node, `insert_stack` with its two actions -/
inductive Res where
  | fail | succ | goto (c : Cfg) | call (c : Cfg) (t f : Act) | oob

/-- closing `matches->s[i], e[i]` (880-886) -/
def Mem.close (m : Mem) (i : Nat) (start q : Int) : Mem :=
  let s1 := if i ≠ 0 ∨ m.startChange = false then upd m.m.s i start else m.m.s
  let e1 := if i ≠ 0 ∨ m.endChange = false then upd m.m.e i q else m.m.e
  let s2 := if e1 i < s1 i then upd s1 i (e1 i) else s1
  { m with m := { m.m with s := s2, e := e1 } }

/-- closing a named group (888-893) -/
def Mem.closeNamed (m : Mem) (i : Nat) (start q : Int) : Mem :=
  { m with m := { m.m with ns := upd m.m.ns i (if q < start then q else start), ne := upd m.m.ne i q } }

/-- a test with the next node in the chain -/
def tested (ns : List Node) (up : List (List Node)) : Chk → Res
  | .no => .fail
  | .yes q => .goto ⟨ns :: up, true, q⟩
  | .oob => .oob

/-- ReStart, ReEnd (781-788) -/
def markMeta (m : Mem) (q : Int) : Meta → Mem
  | .start => { m with m := { m.m with s := upd m.m.s 0 q }, startChange := true }
  | .stop => { m with m := { m.m with e := upd m.m.e 0 q }, endChange := true }
  | _ => m

/-- first entry into a range: counters (1195-1198, 1217-1221, 1247-1250, 1266-1270) -/
def initVars (v : Vars) (left : Bool) (p0 p1 : Int) : Vars := if left then { v with p0 := p0, p1 := p1, old := -1 } else v

/-- ReRangeN 1193-1214 -/
def execRangeN (ns : List Node) (up : List (List Node)) (n : Node) (s : Int) (body : List Node) (left : Bool) (q : Int) (m : Mem) : Res × Mem :=
  let a := addr ((n :: ns) :: up)
  let v := initVars (m.vars a) left s (m.vars a).p1
  if v.p0 = 0 ∧ v.old = q then (.goto ⟨ns :: up, true, q⟩, m.set a v)
  else if v.p0 = 0 then (.call ⟨body :: (n :: ns) :: up, true, q⟩ .yes .rangeN2, m.set a { v with old := q })
  else (.goto ⟨body :: (n :: ns) :: up, true, q⟩, m.set a { v with old := q, p0 := v.p0 - 1 })

/-- ReNGRangeN 1246-1263 -/
def execNGRangeN (ns : List Node) (up : List (List Node)) (n : Node) (s : Int) (body : List Node) (left : Bool) (q : Int) (m : Mem) : Res × Mem :=
  let a := addr ((n :: ns) :: up)
  let v := initVars (m.vars a) left s (m.vars a).p1
  if v.p0 = 0 ∧ v.old = q then (.goto ⟨ns :: up, true, q⟩, m.set a v)
  else if v.p0 = 0 then (.call ⟨ns :: up, true, q⟩ .yes .ngRangeN2, m.set a { v with old := q })
  else (.goto ⟨body :: (n :: ns) :: up, true, q⟩, m.set a { v with old := q, p0 := v.p0 - 1 })

/-- ReRangeNM 1215-1245 (`lazy` = false), ReNGRangeNM 1264-1294 (`lazy` = true) -/
def execRangeNM (ns : List Node) (up : List (List Node)) (n : Node) (s e : Int) (body : List Node) (lzy left : Bool) (q : Int) (m : Mem) :
    Res × Mem :=
  let a := addr ((n :: ns) :: up)
  let v := initVars (m.vars a) left s (e - s)
  if v.p0 = 0 then
    if v.p1 = 0 then (.call ⟨ns :: up, true, q⟩ .yes .no, m.set a v)
    else if lzy then (.call ⟨ns :: up, true, q⟩ .yes .ngRangeNM2, m.set a { v with p1 := v.p1 - 1 })
    else (.call ⟨body :: (n :: ns) :: up, true, q⟩ .yes .rangeNM2, m.set a { v with p1 := v.p1 - 1 })
  else (.goto ⟨body :: (n :: ns) :: up, true, q⟩, m.set a { v with p0 := v.p0 - 1 })

/-- `switch (re->op)` (865-1303) for the node `n` with the chain `ns` behind it and the ancestors `up` -/
def execNode (env : Env) (n : Node) (ns : List Node) (up : List (List Node)) (left : Bool) (q : Int) (m : Mem) : Res × Mem :=
  match n with
  | .empty => (.goto ⟨ns :: up, true, q⟩, m)
  | .msym k => (tested ns up (checkMeta env k q), markMeta m q k)
  | .symb c => (tested ns up (eat env q (symEq env c)), m)
  | .word w => (tested ns up (checkWord env w q), m)
  | .enum cls => (tested ns up (eat env q cls), m)
  | .nenum cls => (tested ns up (eat env q fun c => !cls c), m)
  | .brackets idx body =>
    if left then (.goto ⟨body :: (n :: ns) :: up, true, q⟩, m.set (addr ((n :: ns) :: up)) { m.vars (addr ((n :: ns) :: up)) with start := q })
    else match idx with
      | none => (.goto ⟨ns :: up, true, q⟩, m)
      | some i => (.goto ⟨ns :: up, true, q⟩, m.close i (m.vars (addr ((n :: ns) :: up))).start q)
  | .named idx body =>
    if left then (.goto ⟨body :: (n :: ns) :: up, true, q⟩, m.set (addr ((n :: ns) :: up)) { m.vars (addr ((n :: ns) :: up)) with start := q })
    else match idx with
      | none => (.goto ⟨ns :: up, true, q⟩, m)
      | some i => (.goto ⟨ns :: up, true, q⟩, m.closeNamed i (m.vars (addr ((n :: ns) :: up))).start q)
  | .bkTrace k => (tested ns up (checkTrace env false false k q), m)
  | .bkTraceN k => (tested ns up (checkTrace env false true k q), m)
  | .bkTraceName k => (tested ns up (checkTrace env true false k q), m)
  | .bkTraceNName k => (tested ns up (checkTrace env true true k q), m)
  | .bkBrackName k => (tested ns up (checkRef env env.cnMatch m.m.ns m.m.ne k q), m)
  | .bkBrack k => (tested ns up (checkRef env env.cMatch m.m.s m.m.e k q), m)
  | .ahead body => if left then (.call ⟨body :: (n :: ns) :: up, true, q⟩ .brk .no, m) else (.succ, m)
  | .nahead body => if left then (.call ⟨body :: (n :: ns) :: up, true, q⟩ .no .brk, m) else (.succ, m)
  | .behind k body =>
    if left then
      if q - k < 0 then (.fail, m) else (.call ⟨body :: (n :: ns) :: up, true, q - k⟩ .brk .no, m)
    else (.succ, m)
  | .nbehind k body =>
    if left then
      if q - k ≥ 0 then (.call ⟨body :: (n :: ns) :: up, true, q - k⟩ .no .brk, m) else (.goto ⟨ns :: up, true, q⟩, m)
    else (.succ, m)
  | .or body => if left then (.call ⟨body :: (n :: ns) :: up, true, q⟩ .yes .brk, m) else (.goto ⟨up, false, q⟩, m)
  | .rangeN s body => execRangeN ns up n s body left q m
  | .rangeNM s e body => execRangeNM ns up n s e body false left q m
  | .ngRangeN s body => execNGRangeN ns up n s body left q m
  | .ngRangeNM s e body => execRangeNM ns up n s e body true left q m

/-- one round of the loop of lowParse with `action == -1` (862-1303, 1361-1370); no node: `check_stack(true)` -/
def exec (env : Env) (c : Cfg) (m : Mem) : Res × Mem :=
  match c.pos with
  | [] => (.succ, m)
  | [] :: up => (.goto ⟨up, false, c.q⟩, m)
  | (n :: ns) :: up => execNode env n ns up c.left c.q m

def Node.body : Node → List Node
  | .brackets _ b | .named _ b | .ahead b | .nahead b | .behind _ b | .nbehind _ b | .or b | .rangeN _ b | .rangeNM _ _ b | .ngRangeN _ b
  | .ngRangeNM _ _ b => b
  | _ => []

/-- `op == ReOr` -/
def isOr : Node → Bool
  | .or _ => true
  | _ => false

/-- `switch (action)` (1305-1360) at a node taken from the stack -/
def resume (a : Act) (c : Cfg) (m : Mem) : Res × Mem :=
  match c.pos with
  | [] => (.succ, m)
  | [] :: _ => (.succ, m)
  | (n :: ns) :: up =>
    let k := addr ((n :: ns) :: up)
    match a with
    | .no => (.fail, m)
    | .yes => (.succ, m)
    | .brk => (.goto ⟨ns :: up, true, c.q⟩, m)
    | .rangeN2 => (.call ⟨ns :: up, true, c.q⟩ .yes .no, m)
    | .rangeNM2 => (.call ⟨ns :: up, true, c.q⟩ .yes .rangeNM3, m)
    | .rangeNM3 => (.fail, m.set k { m.vars k with p1 := (m.vars k).p1 + 1 })
    | .ngRangeN2 =>
      (.goto ⟨n.body :: (n :: ns) :: up, true, c.q⟩,
        if (m.vars k).p0 = 0 then m else m.set k { m.vars k with p0 := (m.vars k).p0 - 1 })
    | .ngRangeNM2 => (.call ⟨n.body :: (n :: ns) :: up, true, c.q⟩ .yes .ngRangeNM3, m)
    | .ngRangeNM3 => (.fail, m.set k { m.vars k with p1 := (m.vars k).p1 + 1 })

/-- `StackElem` (cregexp.h:160-171) -/
structure Elem where
  c : Cfg
  t : Act
  f : Act

/-- the state of lowParse; `act` = `action` -/
structure State where
  c   : Cfg
  act : Option Act
  m   : Mem
  stack : List Elem

/-- how lowParse ends -/
inductive End where
  | ret (b : Bool) | oob
deriving DecidableEq, Repr

/-- `check_stack(b)` (795-814); with an empty stack lowParse returns (1307-1320) -/
def pop (b : Bool) (m : Mem) : List Elem → State ⊕ (End × Mem)
  | [] => .inr (.ret b, m)
  | x :: xs => .inl ⟨x.c, some (if b then x.t else x.f), m, xs⟩

/-- one round of the loop -/
def step (env : Env) (st : State) : State ⊕ (End × Mem) :=
  let r := match st.act with
    | none => exec env st.c st.m
    | some a => resume a st.c st.m
  match r.1 with
  | .fail => pop false r.2 st.stack
  | .succ => pop true r.2 st.stack
  | .goto c => .inl ⟨c, none, r.2, st.stack⟩
  | .call c t f => .inl ⟨c, none, r.2, ⟨st.c, t, f⟩ :: st.stack⟩
  | .oob => .inr (.oob, r.2)

/-- `fuel` rounds; `none`: not finished yet -/
def run (env : Env) : Nat → State → Option (End × Mem)
  | 0, _ => none
  | fuel + 1, st =>
    match step env st with
    | .inr r => some r
    | .inl st1 => run env fuel st1

/-! ## The object -/

/-- a compiled expression: the chain below `tree_root` (a capturing bracket number 0), `cMatch`, `cnMatch`, the flags, `error == EOK` -/
structure Expr where
  body : List Node
  cMatch : Nat
  cnMatch : Nat
  flags : Flags
  ok : Bool

def Expr.root (x : Expr) : List (List Node) := [[.brackets (some 0) x.body]]

/-- what the object keeps between calls: the fields of its nodes, `startChange`, `endChange`, `positionMoves` -/
structure Obj where
  vars : Addr → Vars
  startChange : Bool
  endChange   : Bool
  moves : Bool

/-- the precomputed first test: `firstChar`, `firstMetaChar` -/
inductive First where
  | none | char (c : Nat) | msym (m : Meta)
deriving DecidableEq, Repr

mutual
/-- the loop of `optimize` (140-171) from a chain on; 0xFFFF = `BAD_WCHAR` (no character) -/
def firstOf : List Node → First
  | [] => .none
  | n :: _ => firstOfNode n
def firstOfNode : Node → First
  | .brackets _ b => firstOf b
  | .msym .sol => .msym .sol
  | .msym .wbound => .msym .wbound
  | .symb c => if c = 0xFFFF then .none else .char c
  | .word (c :: _) => if c = 0xFFFF then .none else .char c
  | _ => .none
end

/-- `quickCheck` 1374-1422 -/
def quickCheck (env : Env) (f : First) (q : Int) : Option Bool :=
  match f with
  | .none => some true
  | .char c =>
    if env.stop ≤ q then some false
    else (rd env.text q).map fun d => if env.flags.ignoreCase then env.chars.lower d = env.chars.lower c else d = c
  | .msym .sol => some (decide (q = 0))
  | .msym .soScheme => some (decide (q = env.schemeStart))
  | .msym _ => some true

/-- the arguments of `parse` and what it reads besides the expression -/
structure Args where
  text : Text
  pos  : Int
  eol  : Int
  schemeStart : Int
  /-- `posMoves`: none = -1 -/
  moves : Option Bool
  back : Option (Text × Matches)

def envOf (chars : Chars) (x : Expr) (a : Args) : Env :=
  ⟨a.text, a.eol, a.schemeStart, a.back, x.cMatch, x.cnMatch, x.flags, chars⟩

/-- 1436-1441: the groups in use are unset -/
def clearMatches (x : Expr) (m : Matches) : Matches :=
  { s := fun i => if i < x.cMatch then -1 else m.s i
    e := fun i => if i < x.cMatch then -1 else m.e i
    ns := fun i => if i < x.cnMatch then -1 else m.ns i
    ne := fun i => if i < x.cnMatch then -1 else m.ne i }

/-- result of `parse`: the returned value (or `oob`), `*mtch`, the object afterwards -/
structure Out where
  res : End
  m   : Matches
  obj : Obj

def outOf (res : End) (mem : Mem) (moves : Bool) : Out := ⟨res, mem.m, ⟨mem.vars, mem.startChange, mem.endChange, moves⟩⟩

/-- the loop of parseRE 1442-1451: `n` positions left to try after `pos`; `keep` = `positionMoves` to restore -/
def tries (env : Env) (root : List (List Node)) (fuel : Nat) (keep : Bool) : Nat → Int → Mem → Option Out
  | n, pos, mem =>
    match run env fuel ⟨⟨root, true, pos⟩, none, mem, []⟩ with
    | none => none
    | some (.ret false, mem1) =>
      match n with
      | 0 => some (outOf (.ret false) mem1 keep)
      | n + 1 => tries env root fuel keep n (pos + 1) mem1
    | some (r, mem1) => some (outOf r mem1 keep)

/-- `parse` 1455-1480 with `parseRE` 1424-1453; `mtch` is what the caller's structure holds before -/
def parse (chars : Chars) (x : Expr) (fuel : Nat) (o : Obj) (a : Args) (mtch : Matches) : Option Out :=
  let env := envOf chars x a
  let moves := a.moves.getD o.moves
  let mem : Mem := ⟨o.vars, mtch, o.startChange, o.endChange⟩
  if x.ok = false then some ⟨.ret false, mtch, o⟩
  else
    let start : Option Out :=
      tries env x.root fuel o.moves (if moves then (a.eol - a.pos).toNat else 0) a.pos { mem with m := clearMatches x mtch }
    if moves then start
    else match quickCheck env (firstOf x.body) a.pos with
      | none => some (outOf .oob mem o.moves)
      | some false => some ⟨.ret false, mtch, o⟩
      | some true => start

/-- a new object (constructor, setRELow 92, SRegInfo cregexp.h:149-155) -/
def Obj.new : Obj := ⟨fun _ => ⟨0, 0, 0, 0⟩, false, false, false⟩

end Verif.RegExp
