/-!
# Model of the outline builder

Models `class Outliner` (editor/Outliner.h, editor/Outliner.cpp:32-112 of /repo/src/colorer) and `OutlineItem`
(editor/OutlineItem.h). A line text is a list of character codes; the test `region->hasParent(searchRegion)` is the parameter
`outlined`. Undefined behaviour (`outline.back()` of an empty vector) is `none`. `size_t` line numbers are naturals, `int`
levels are unbounded integers.
-/
namespace Verif.Outliner

/-- `OutlineItem` (OutlineItem.h:13-43) -/
structure Item where
  lno    : Nat
  pos    : Int
  level  : Int
  token  : List Nat
  region : Nat
deriving DecidableEq, Repr

/-- the fields of `Outliner` (Outliner.h:77-83) -/
structure St where
  outline      : List Item := []
  lineIsEmpty  : Bool := false
  curLevel     : Int := 0
  modifiedLine : Nat := 0
deriving DecidableEq, Repr

/-- The events an outliner receives: as a region handler and as an editor listener. -/
inductive Ev where
  | modify (topLine : Nat)
  | startParsing
  | clearLine
  | addRegion (lno : Nat) (line : List Nat) (sx ex : Int) (region : Nat)
  | enterScheme
  | leaveScheme
  | endParsing (lno : Nat)
deriving DecidableEq, Repr

/-- the loop of `modifyEvent` (Outliner.cpp:54-59): cut at the first item at or below `topLine` -/
def cut (topLine : Nat) : List Item → List Item
  | [] => []
  | i :: r => if i.lno ≥ topLine then [] else i :: cut topLine r

/-- `UnicodeString(*line, sx, ex - sx)` for `0 ≤ sx ≤ ex` (Outliner.cpp:91) -/
def label (line : List Nat) (sx ex : Int) : List Nat := (line.drop sx.toNat).take (ex - sx).toNat

/-- One event (Outliner.cpp:52-112). -/
def step (outlined : Nat → Bool) (st : St) : Ev → Option St
  | .modify t => some { st with outline := cut t st.outline, modifiedLine := t }           -- 52-62
  | .startParsing => some { st with curLevel := 0 }                                          -- 64-67
  | .endParsing lno =>                                                                       -- 69-75
    some { st with modifiedLine := if st.modifiedLine < lno then lno + 1 else st.modifiedLine, curLevel := 0 }
  | .clearLine => some { st with lineIsEmpty := true }                                       -- 77-80
  | .addRegion lno line sx ex region =>                                                      -- 82-102
    if lno < st.modifiedLine then some st
    else if !outlined region then some st
    else if st.lineIsEmpty then
      some { st with outline := st.outline ++ [⟨lno, sx, st.curLevel, label line sx ex, region⟩], lineIsEmpty := false }
    else match st.outline.getLast? with
      | none => none                                                                         -- back() of an empty vector
      | some i =>
        some { st with
          outline := if i.lno = lno then st.outline.dropLast ++ [{ i with token := i.token ++ label line sx ex }]
            else st.outline
          lineIsEmpty := false }
  | .enterScheme => some { st with curLevel := st.curLevel + 1 }                             -- 104-107
  | .leaveScheme => some { st with curLevel := st.curLevel - 1 }                             -- 109-112

/-- a sequence of events -/
def run (outlined : Nat → Bool) (st : St) : List Ev → Option St
  | [] => some st
  | e :: r => (step outlined st e).bind fun st => run outlined st r

/-! ## manageTree -/

/-- the `while` loop of `manageTree` (Outliner.cpp:34-36); the vector is kept with its back first -/
def popWhile (newLevel : Int) : List Int → List Int
  | [] => []
  | b :: r => if newLevel < b then popWhile newLevel r else b :: r

/-- `manageTree` (Outliner.cpp:32-45): returned index and new stack -/
def manageTree (stack : List Int) (newLevel : Int) : Nat × List Int :=
  let st := popWhile newLevel stack
  match st with
  | [] => (0, [newLevel])
  | b :: _ =>
    if newLevel > b then (st.length, newLevel :: st)
    else if newLevel = b then (st.length - 1, st)
    else (0, st)

/-- a caller feeding the levels of the outline items in order -/
def manageAll (stack : List Int) : List Int → List Nat
  | [] => []
  | l :: r => (manageTree stack l).1 :: manageAll (manageTree stack l).2 r

end Verif.Outliner
