import Verif.Editor.Lazy
/-!
# C24: where the search in the whole text misses the partner

The editor of Verif.Editor whose lines are lists of pair regions.
-/
namespace Verif.Editor.LazyDemo
open Verif.Editor

/-- the line store and the parser work perfectly: the regions of a line are those of the text -/
def penv : Env (List PReg) (List PReg) := ⟨fun t l => t l, fun _ _ => [], fun _ to' => to' - 1⟩

/-- a line with one opening, a line with one closing -/
def opening : List PReg := [⟨0, 1, true, true, false⟩]
def closing : List PReg := [⟨0, 1, true, false, true⟩]

/-- the text: an opening in line 25, closings in the lines 40 and 45 -/
def brackets : Int → List PReg := fun l => if l = 25 then opening else if l = 40 ∨ l = 45 then closing else []

def plook : Look PReg :=
  { start := (·.start), stop := (·.stop), region := fun r => if r.isStart then some 1 else if r.isEnd then some 2 else none
    isStart := fun r => r == 1, isEnd := fun r => r == 2 }

/-- `getLineRegions` -/
def pq (e : Ed (List PReg) (List PReg)) (l : Int) : Option (Ed (List PReg) (List PReg) × List PReg) :=
  (e.getLineRegions penv l).map fun x => (x.1, x.2.getD [])

/-- the line where `searchGlobalPair` (BaseEditor.cpp:315-318) finds the partner -/
def globalLine (e : Ed (List PReg) (List PReg)) (lineNo pos : Int) : Option (Option Int) :=
  (lazySearch pq plook 1000 e lineNo pos 0 e.lineCount).map fun x =>
    match x.2 with
    | some (_, .at l _) => some l
    | _ => none

/-- C24, false for the search downwards: 100 lines are loaded and shown from line 0, then the window moves to the lines 20 to 39 and line 25 is asked for.
The search from the opening in line 25 asks for line 40, just below the window: `validate` (396) moves the window only for lines after `wStart + wSize`, the
store holds the lines 0 to 39, the answer is null and the closing there is missed. The search returns line 45. -/
theorem C24_violated_below_the_screen :
    (((Ed.init brackets : Ed (List PReg) (List PReg)).runOps penv
      [.edit 0 brackets 100, .visible 0 20, .query 0, .visible 20 20, .query 25]).bind fun e => globalLine e 25 0) = some (some 45) := by
  decide +kernel

/-- … and with a new editor the same search finds line 40 -/
example : (((Ed.init brackets : Ed (List PReg) (List PReg)).runOps penv [.edit 0 brackets 100]).bind fun e => globalLine e 25 0) = some (some 40) := by
  decide +kernel

end Verif.Editor.LazyDemo
