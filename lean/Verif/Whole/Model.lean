import Verif.Whole.Paint
import Verif.Editor.Model
/-!
# The editor with its parser and its line store

`BaseEditor` with the text parser (Verif.TextParser) and the compact line store (Verif.LineRegions) as its collaborators, after
construction, `setRegionCompact(true)`, `setRegionMapper` and `setFileType`: /repo/src/colorer/editor/BaseEditor.cpp 9-128, 320-517.
Unlike Verif.Editor nothing about the collaborators is assumed here: the calls of the parser's region handler reach the store.

`none` is a crash, an exception or an endless parse. `int`s are unbounded; line numbers passed to the store (`size_t`) are truncated at
zero, which the properties exclude. Listeners and additional region handlers (471-517) are in Verif.Editor. Loading a type leaves the grammar
(`env`) as it is: types are loaded before.
-/
namespace Verif.Whole
open Verif.TextParser (PState Result Parses Text fresh)
open Verif.LineRegions (LR Store)
open Verif.Editor (target idleAhead Plan)

variable {RD : Type}

/-- `BaseEditor` (BaseEditor.h), its parser, the region mapper and its store; `text` is the line source -/
structure Ed (RD : Type) where
  wStart  : Int
  wSize   : Int
  lineCount : Int
  lrSize  : Int
  invalid : Int
  backParse : Int
  text    : Int → Option Text
  parser  : PState
  regs    : Styles RD
  store   : Store RD

/-- constructor (9-52), `remapLRS(true)` (89-113) of `setRegionCompact(true)`, `setRegionMapper`, `setFileType` (115-122) -/
def Ed.init (base : Nat) (regs : Styles RD) (text : Int → Option Text) : Ed RD :=
  { wStart := 0, wSize := 20, lineCount := 0, lrSize := 60, invalid := 0, backParse := -1, text := text, parser := fresh base, regs := regs
    store := { (Store.init : Store RD) with n := 60 } }

/-- the mode as the parser's parameter -/
def toMode : Editor.Mode → TextParser.Mode
  | .read => .read
  | .update => .update

open Classical in
/-- `textParser->parse(from, num, mode)`, if it returns -/
noncomputable def parseOf (env : TextParser.Env) (p : PState) (from' num : Int) (mode : TextParser.Mode) : Option Result :=
  if h : ∃ r, Parses env p from' num mode r then some h.choose else none

/-- the parse (445): the calls of the region handler (471-517) reach the store. Second component: the value returned -/
noncomputable def Ed.parse (env : TextParser.Env) (e : Ed RD) (from' to' : Int) (mode : Editor.Mode) : Option (Ed RD × Int) :=
  (parseOf (env.text e.text) e.parser from' (to' - from') (toMode mode)).bind fun r =>
    (e.store.run true e.regs (ops r.evs)).map fun st => ({ e with parser := r.after, store := st }, r.ret)

/-- validate 384-393: `lrSize` follows `wSize`; the store is resized and cleared. Second component: `layoutChanged` -/
def Ed.fixSize (e : Ed RD) : Option (Ed RD × Bool) :=
  if e.lrSize ≠ e.wSize * 2 then
    (e.store.run true e.regs [.resize (e.wSize * 2).toNat, .clear]).map fun st => ({ e with lrSize := e.wSize * 2, store := st }, true)
  else some (e, false)

/-- validate 396-400 -/
def Ed.fixStart (e : Ed RD) (lno : Int) : Ed RD :=
  if lno < e.wStart ∨ lno > e.wStart + e.wSize then { e with wStart := lno } else e

/-- validate 402-429: the window of the store has to move. `first` is the variable `firstLine` read in 381. -/
def Ed.fixWindow (e : Ed RD) (first : Int) (layout : Bool) (pos : Int) (rebuild : Bool) : Option (Ed RD × Plan) :=
  if layout = true ∨ e.wStart < first ∨ e.wStart + e.wSize > first + e.lrSize then
    if e.wSize = 0 then none
    else
      let newFirst := (e.wStart.tdiv e.wSize) * e.wSize
      let to0 := newFirst + e.lrSize
      let to1 := if layout = false ∧ first - newFirst = e.wSize then to0 - (e.wSize - 1) else to0
      ((if rebuild then e.store.run true e.regs [.setFirst newFirst.toNat] else some e.store).map fun st =>
        ({ e with store := st }, ⟨newFirst, to1, true⟩))
  else some (e, ⟨pos, pos, false⟩)

/-- validate 431-443: start from the modified line if there is one, in update mode -/
def Ed.startAt (e : Ed RD) (p : Plan) : Int × Editor.Mode :=
  let a : Int × Editor.Mode := if p.layout = false ∧ e.invalid ≤ p.parseTo then (e.invalid, .update) else (p.parseFrom, .read)
  if e.invalid ≤ a.1 then (e.invalid, .update) else a

/-- validate 445-459: the parse -/
noncomputable def Ed.run (env : TextParser.Env) (e : Ed RD) (from' to' : Int) (mode : Editor.Mode) : Option (Ed RD) :=
  let to1 := if to' > e.lineCount then e.lineCount else to'
  if to1 - from' > 0 then
    (e.parse env from' to1 mode).map fun (e1, stop) =>
      match mode with
      | .read => e1
      | .update => { e1 with invalid := stop + 1 }
  else some e

/-- `validate` (370-456) -/
noncomputable def Ed.validate (env : TextParser.Env) (e : Ed RD) (lno0 : Int) (rebuild : Bool) : Option (Ed RD) :=
  let lno := target e.lineCount lno0
  let pos := e.wStart + e.wSize
  let first : Int := e.store.first
  e.fixSize.bind fun (e1, layout) =>
    ((e1.fixStart lno).fixWindow first layout pos rebuild).bind fun (e3, plan) =>
      e3.run env (e3.startAt plan).1 plan.parseTo (e3.startAt plan).2

/-- `getLineRegions` (320-330): the object afterwards and the answer (null is the empty list). A negative line is a huge `size_t`. -/
noncomputable def Ed.getLineRegions (env : TextParser.Env) (e : Ed RD) (lno : Int) : Option (Ed RD × List (LR RD)) :=
  if e.backParse > 0 ∧ lno - e.invalid > e.backParse then some (e, [])
  else (e.validate env lno true).map fun e' => (e', if lno < 0 then [] else e'.store.lineRegions lno.toNat)

/-- `idleJob` (458-469) -/
noncomputable def Ed.idleJob (env : TextParser.Env) (e : Ed RD) (time : Int) : Option (Ed RD) :=
  if e.invalid < e.lineCount then e.validate env (e.invalid + idleAhead time) false else some e

/-- operations of an application -/
inductive EOp (RD : Type) where
  /-- the text changes from line `line` on and has `count` lines afterwards: `modifyEvent(line)` (332-341), `lineCountEvent(count)` (357-361) -/
  | edit (line : Int) (text : Int → Option Text) (count : Int)
  /-- `visibleTextEvent` (350-355) -/
  | visible (start size : Int)
  | idle (time : Int)
  | query (lno : Int)
  /-- `setFileType` (115-122; TextParserImpl.cpp:14-21): another root scheme, an empty cache, everything invalid -/
  | setType (base : Nat)
  /-- `setRegionMapper` (68-87), `remapLRS(false)` (89-113): other styles, everything invalid -/
  | setStyles (regs : Styles RD)
  /-- `setBackParse` (186-189) -/
  | backParse (v : Int)

/-- one operation -/
noncomputable def Ed.step (env : TextParser.Env) (e : Ed RD) : EOp RD → Option (Ed RD)
  | .edit line text count => some { e with text := text, invalid := if e.invalid > line then line else e.invalid, lineCount := count }
  | .visible s z => some { e with wStart := s, wSize := z }
  | .idle t => e.idleJob env t
  | .query l => (e.getLineRegions env l).map (·.1)
  | .setType b => some { e with parser := { e.parser with cache := [], base := b }, invalid := 0 }
  | .setStyles st => some { e with regs := st, invalid := 0 }
  | .backParse v => some { e with backParse := v }

/-- the answers to a sequence of queries -/
noncomputable def Ed.answers (env : TextParser.Env) (e : Ed RD) : List Int → Option (List (List (LR RD)))
  | [] => some []
  | l :: ls => (e.getLineRegions env l).bind fun p => (Ed.answers env p.1 ls).map (p.2 :: ·)

end Verif.Whole
