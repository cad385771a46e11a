/-!
# Model of the editor façade

Models /repo/src/colorer/editor/BaseEditor.cpp: the validation logic (`validate` 370-456, `getLineRegions` 320-330, `modifyEvent`
332-341, `visibleTextEvent` 350-355, `lineCountEvent` 357-361, `idleJob` 458-469, `remapLRS` 89-113, constructor 9-52), pair search
(`getPairMatch` 221-247, `searchPair` 259-307), the fan-out of events (187-219, 471-517) and the choice of the sample of text for
type detection (130-180).

The collaborators are abstracted:
* the text is a function from line numbers to lines, `F text L` is the list of regions of line `L` of that text (what a parse of
  the whole text reports for the line); it may depend on the lines up to `L`;
* the parser (`textParser->parse(from, num, mode)`) reports the lines `[from, stop]`; if its cache describes the current text below
  `from` it reports `F`, otherwise anything (`junk`); with `TPM_CACHE_UPDATE` its cache then describes the text up to `stop`.
  `good` is the ghost number of lines the cache describes correctly. `stop` is `from+num-1`, or less if the parse is broken off.
* the line store is a ring of `n` slots with first line `first`, as in `LineRegionsSupport` (modelled in Verif.LineRegions): a
  reported line in the window replaces its slot, other slots keep what they have.
`int`s are unbounded. A division by zero is the result `none`.
-/
namespace Verif.Editor

/-- what the editor does not decide itself -/
structure Env (T R : Type) where
  F    : (Int → T) → Int → R
  junk : (Int → T) → Int → R
  /-- the last line parsed by `parse(from, to - from)` -/
  stop : Int → Int → Int

/-- parse modes (TextParser.h) -/
inductive Mode where
  | read | update
deriving DecidableEq, Repr

/-- a call of the parser: first line, end line, mode; and (ghost) the invalid line and the good prefix at that moment -/
structure Call where
  from' : Int
  to'   : Int
  mode  : Mode
  invalid : Int
  good    : Int
deriving DecidableEq, Repr

/-- the fields of `BaseEditor` used here (BaseEditor.h), the line store, and ghosts (`text`, `good`, `calls`) -/
structure Ed (T R : Type) where
  wStart  : Int
  wSize   : Int
  lineCount : Int
  lrSize  : Int
  invalid : Int
  backParse : Int
  first   : Int
  n       : Int
  slots   : Int → Option R
  text    : Int → T
  good    : Int
  calls   : List Call

variable {T R : Type}

/-- constructor (9-52): `wSize = 20`, `lrSize = wSize * 3`, an empty store of that size -/
def Ed.init (text : Int → T) : Ed T R :=
  { wStart := 0, wSize := 20, lineCount := 0, lrSize := 60, invalid := 0, backParse := -1, first := 0, n := 60
    slots := fun _ => none, text := text, good := 0, calls := [] }

/-- the line of the store's window that lives in slot `i` -/
def Ed.lineOf (e : Ed T R) (i : Int) : Int := e.first + (i - e.first) % e.n

/-- `lrSupport->getLineRegions(lno)`: null outside the window -/
def Ed.stored (e : Ed T R) (lno : Int) : Option R :=
  if e.first ≤ lno ∧ lno < e.first + e.n then e.slots (lno % e.n) else none

/-- `textParser->parse(from, to - from, mode)`: the reported lines reach the store; the cache -/
def Ed.parse (env : Env T R) (e : Ed T R) (from' to' : Int) (mode : Mode) : Ed T R :=
  let stop := env.stop from' to'
  let rep := fun L => if from' ≤ e.good then env.F e.text L else env.junk e.text L
  { e with
    slots := fun i => if from' ≤ e.lineOf i ∧ e.lineOf i ≤ stop then some (rep (e.lineOf i)) else e.slots i
    good := match mode with
      | .read => e.good
      | .update => if from' ≤ e.good then stop + 1 else e.good
    calls := e.calls ++ [⟨from', to', mode, e.invalid, e.good⟩] }

/-- validate 377-379: the line asked for -/
def target (lineCount lno : Int) : Int := if lno = -1 ∨ lno > lineCount then lineCount - 1 else lno

/-- validate 384-393: `lrSize` follows `wSize`; the store is resized and cleared. Second component: `layoutChanged` -/
def Ed.fixSize (e : Ed T R) : Ed T R × Bool :=
  if e.lrSize ≠ e.wSize * 2 then
    ({ e with lrSize := e.wSize * 2, n := e.wSize * 2, slots := fun _ => none }, true)
  else (e, false)

/-- validate 396-400 -/
def Ed.fixStart (e : Ed T R) (lno : Int) : Ed T R :=
  if lno < e.wStart ∨ lno > e.wStart + e.wSize then { e with wStart := lno } else e

/-- plan of a validation: what to parse -/
structure Plan where
  parseFrom : Int
  parseTo   : Int
  layout    : Bool
deriving DecidableEq, Repr

/-- validate 402-429: the window of the store has to move. `none`: division by zero. -/
def Ed.fixWindow (e : Ed T R) (layout : Bool) (pos : Int) (rebuild : Bool) : Option (Ed T R × Plan) :=
  if layout = true ∨ e.wStart < e.first ∨ e.wStart + e.wSize > e.first + e.lrSize then
    if e.wSize = 0 then none
    else
      let newFirst := (e.wStart.tdiv e.wSize) * e.wSize
      let to0 := newFirst + e.lrSize
      let to1 := if layout = false ∧ e.first - newFirst = e.wSize then to0 - (e.wSize - 1) else to0
      some (if rebuild then { e with first := newFirst } else e, ⟨newFirst, to1, true⟩)
  else some (e, ⟨pos, pos, false⟩)

/-- validate 431-443: start from the modified line if there is one, in update mode -/
def Ed.startAt (e : Ed T R) (p : Plan) : Int × Mode :=
  let a : Int × Mode := if p.layout = false ∧ e.invalid ≤ p.parseTo then (e.invalid, .update) else (p.parseFrom, .read)
  if e.invalid ≤ a.1 then (e.invalid, .update) else a

/-- validate 445-459: the parse -/
def Ed.run (env : Env T R) (e : Ed T R) (from' to' : Int) (mode : Mode) : Ed T R :=
  let to1 := if to' > e.lineCount then e.lineCount else to'
  if to1 - from' > 0 then
    let e1 := e.parse env from' to1 mode
    match mode with
    | .read => e1
    | .update => { e1 with invalid := env.stop from' to1 + 1 }
  else e

/-- `validate` (370-456) -/
def Ed.validate (env : Env T R) (e : Ed T R) (lno0 : Int) (rebuild : Bool) : Option (Ed T R) :=
  let lno := target e.lineCount lno0
  let pos := e.wStart + e.wSize
  let (e1, layout) := e.fixSize
  let e2 := e1.fixStart lno
  match e2.fixWindow layout pos rebuild with
  | none => none
  | some (e3, plan) =>
    let (from', mode) := e3.startAt plan
    some (e3.run env from' plan.parseTo mode)

/-- `getLineRegions` (320-330): the object afterwards and the answer (`none` = null) -/
def Ed.getLineRegions (env : Env T R) (e : Ed T R) (lno : Int) : Option (Ed T R × Option R) :=
  if e.backParse > 0 ∧ lno - e.invalid > e.backParse then some (e, none)
  else (e.validate env lno true).map fun e' => (e', e'.stored lno)

/-- `IDLE_PARSE` (4) and the clamping of `time` (460-466) -/
def idleAhead (time : Int) : Int :=
  let t := if time < 0 then 0 else time
  let t := if t > 100 then 100 else t
  100 + t * 4

/-- `idleJob` (458-469) -/
def Ed.idleJob (env : Env T R) (e : Ed T R) (time : Int) : Option (Ed T R) :=
  if e.invalid < e.lineCount then e.validate env (e.invalid + idleAhead time) false else some e

/-- operations of an application -/
inductive Op (T : Type) where
  /-- the text changes from line `line` on and has `count` lines afterwards: `modifyEvent(line)` and `lineCountEvent(count)` -/
  | edit (line : Int) (text : Int → T) (count : Int)
  | visible (start size : Int)
  | idle (time : Int)
  | query (lno : Int)
  /-- `setRegionCompact`, `setRegionMapper` (`remapLRS`, 89-113) -/
  | remap (recreate : Bool)
  | backParse (v : Int)

/-- one operation. An edit is one step: the text changes, the cache is good only below the change, and both notifications are
delivered before anything else happens. -/
def Ed.step (env : Env T R) (e : Ed T R) : Op T → Option (Ed T R)
  | .edit line text count =>
    some { e with
      text := text
      good := if line < e.good then line else e.good
      invalid := if e.invalid > line then line else e.invalid
      lineCount := count }
  | .visible s z => some { e with wStart := s, wSize := z }
  | .idle t => e.idleJob env t
  | .query l => (e.getLineRegions env l).map (·.1)
  | .remap recreate =>
    some (if recreate then { e with first := 0, n := e.lrSize, slots := fun _ => none, invalid := 0 }
          else { e with invalid := 0 })
  | .backParse v => some { e with backParse := v }

def Ed.runOps (env : Env T R) (e : Ed T R) : List (Op T) → Option (Ed T R)
  | [] => some e
  | op :: ops => (e.step env op).bind fun e' => e'.runOps env ops

/-! ## Pair search -/

/-- what matters of a `LineRegion` for pairs: has it a region, is it a pair start, is it a pair end (`hasParent`), its columns -/
structure PReg where
  start  : Int
  stop   : Int
  hasRegion : Bool
  isStart : Bool
  isEnd   : Bool
deriving DecidableEq, Repr

/-- change of the balance (BaseEditor.cpp:294-299) -/
def delta (r : PReg) : Int := (if r.isStart then 1 else 0) + (if r.isEnd then -1 else 0)

/-- the loop of `getPairMatch` (229-236): the last pair region that touches the position; with its index -/
def pairAt (linePos : Int) : List PReg → Nat → Option (Nat × PReg) → Option (Nat × PReg)
  | [], _, acc => acc
  | r :: rs, i, acc =>
    pairAt linePos rs (i + 1)
      (if r.hasRegion ∧ linePos ≥ r.start ∧ linePos ≤ r.stop ∧ (r.isStart = true ∨ r.isEnd = true) then some (i, r) else acc)

/-- a place: line and index of the region in the line's list -/
structure Place where
  line : Int
  idx  : Nat
deriving DecidableEq, Repr

/-- `while (pair == nullptr) { lno++; if (lno > end_line) return; pair = getLineRegions(lno); }` (272-279), from line `l` on -/
def skipFwd (regs : Int → List PReg) (endLine l : Int) : Option Place :=
  if l > endLine then none
  else if (regs l).length > 0 then some ⟨l, 0⟩ else skipFwd regs endLine (l + 1)
termination_by (endLine + 1 - l).toNat

/-- `do { lno--; if (lno < start_line) return; pair = getLineRegions(lno); } while (pair == nullptr)` (284-291), from line `l` down,
then `pair = pair->prev`, the last region of the line (292) -/
def skipBack (regs : Int → List PReg) (startLine l : Int) : Option Place :=
  if l < startLine then none
  else if (regs l).length > 0 then some ⟨l, (regs l).length - 1⟩ else skipBack regs startLine (l - 1)
termination_by (l + 1 - startLine).toNat

/-- `pair = pair->next` and the skipping of empty lines (270-280) -/
def nextPlace (regs : Int → List PReg) (endLine : Int) (p : Place) : Option Place :=
  if p.idx + 1 < (regs p.line).length then some ⟨p.line, p.idx + 1⟩ else skipFwd regs endLine (p.line + 1)

/-- `if (pair->prev == slr->prev) ...; pair = pair->prev` (282-293): the previous region -/
def prevPlace (regs : Int → List PReg) (startLine : Int) (p : Place) : Option Place :=
  if p.idx ≠ 0 then some ⟨p.line, p.idx - 1⟩ else skipBack regs startLine (p.line - 1)

/-- the direction (268): forward while the balance is positive -/
def stepPlace (regs : Int → List PReg) (startLine endLine : Int) (bal : Int) (p : Place) : Option Place :=
  if bal > 0 then nextPlace regs endLine p else prevPlace regs startLine p

/-- the region at a place -/
def regAt (regs : Int → List PReg) (p : Place) : Option PReg := (regs p.line)[p.idx]?

/-- result of a search -/
inductive Found where
  | at (p : Place)
  | nothing
  | running
deriving DecidableEq, Repr

/-- the loop of `searchPair` (266-305) from a place with a balance, `fuel` rounds. The steps over regions without a `region`
(`while (!pair->region)`) are rounds of the same loop here: they do not change the balance. `regs` is what `getLineRegions` returns
for a line. -/
def searchLoop (regs : Int → List PReg) (startLine endLine : Int) : Nat → Place → Int → Found
  | 0, _, _ => .running
  | fuel + 1, p, bal =>
    match stepPlace regs startLine endLine bal p with
    | none => .nothing
    | some q =>
      match regAt regs q with
      | none => .nothing
      | some r =>
        if r.hasRegion then
          if bal + delta r = 0 then .at q else searchLoop regs startLine endLine fuel q (bal + delta r)
        else searchLoop regs startLine endLine fuel q bal

/-- `searchPair` (259-307): null if there is no pair region at the position; the region found, and the search from it with balance
`1` for a pair start and `-1` otherwise (PairMatch.h) -/
def searchPair (regs : Int → List PReg) (fuel : Nat) (lineNo pos startLine endLine : Int) : Option (Place × Found) :=
  (pairAt pos (regs lineNo) 0 none).map fun (i, r) =>
    (⟨lineNo, i⟩, searchLoop regs startLine endLine fuel ⟨lineNo, i⟩ (if r.isStart then 1 else -1))

/-! ## Handlers -/

/-- an event as the editor receives it from the parser -/
structure Event where
  kind : Nat
  args : List Int
deriving DecidableEq, Repr

/-- receivers: the line store, or a handler registered by the application -/
inductive Recv where
  | store
  | handler (h : Nat)
deriving DecidableEq, Repr

/-- operations on the handler list -/
inductive HOp where
  | add (h : Nat)
  | remove (h : Nat)
  | event (e : Event)

/-- `addRegionHandler` (187-190), `removeRegionHandler` (192-200), the events (471-517): first the store, then all handlers -/
def hstep (s : List Nat × List (Recv × Event)) : HOp → List Nat × List (Recv × Event)
  | .add h => (s.1 ++ [h], s.2)
  | .remove h => (s.1.erase h, s.2)
  | .event e => (s.1, s.2 ++ (Recv.store, e) :: s.1.map fun h => (Recv.handler h, e))

def hrun (ops : List HOp) : List Nat × List (Recv × Event) := ops.foldl hstep ([], [])

/-! ## The sample of text for type detection -/

/-- the loop of `chooseFileTypeCh` (134-150): at most `k` lines from line `i` on -/
def sampleLoop (line : Nat → Option (List Nat)) (chooseLen : Int) : Nat → Nat → Int → List Nat → List Nat
  | 0, _, _, acc => acc
  | k + 1, i, total, acc =>
    match line i with
    | none => acc
    | some l =>
      let len : Int := if chooseLen - total > l.length then l.length else chooseLen - total
      let acc' := acc ++ l.take len.toNat ++ [10]
      if total + len ≥ chooseLen then acc' else sampleLoop line chooseLen k (i + 1) (total + len) acc'

/-- `chooseFileTypeCh` (130-160): detect a type from the sample, repeat with its own parameters if they differ. `detect` is
`chooseFileType`, `params` the parameters `firstlines` and `firstlinebytes` of a type (`getParamValueInt` with the current values
as defaults). `none`: still recursing after `fuel` rounds. -/
def chooseCh (line : Nat → Option (List Nat)) (detect : List Nat → Nat) (params : Nat → Option Int × Option Int) :
    Nat → Int → Int → Option Nat
  | 0, _, _ => none
  | fuel + 1, chooseStr, chooseLen =>
    let t := detect (sampleLoop line chooseLen chooseStr.toNat 0 0 [])
    let s' := ((params t).1).getD chooseStr
    let l' := ((params t).2).getD chooseLen
    if s' ≠ chooseStr ∨ l' ≠ chooseLen then chooseCh line detect params fuel s' l' else some t

/-- `chooseFileType` (162-180) of an editor with a text: the first round uses the parameters of the type `default`, if that type
exists, with the defaults `CHOOSE_STR` and `CHOOSE_LEN` (BaseEditor.cpp:6-7) -/
def chooseType (line : Nat → Option (List Nat)) (detect : List Nat → Nat) (params : Nat → Option Int × Option Int)
    (default : Option Nat) (fuel : Nat) : Option Nat :=
  chooseCh line detect params fuel (((default.map params).bind (·.1)).getD 4) (((default.map params).bind (·.2)).getD 800)

end Verif.Editor
