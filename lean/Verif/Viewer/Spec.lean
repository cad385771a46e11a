import Verif.Viewer.Model
/-!
# Specification of the viewer
-/
namespace Verif.Viewer
open Verif.Strings (Str)

/-! ## Lines of a text -/

/-- the three line terminators -/
inductive Term where
  | cr | lf | crlf
deriving DecidableEq, Repr

def Term.chars : Term → Str
  | .cr => [13]
  | .lf => [10]
  | .crlf => [13, 10]

/-- The text made of terminated lines and a last, unterminated line. -/
def joinLines : List (Str × Term) → Str → Str
  | [], last => last
  | (l, t) :: r, last => l ++ t.chars ++ joinLines r last

/-- no terminator character inside -/
def Plain (l : Str) : Prop := ∀ c ∈ l, c ≠ 13 ∧ c ≠ 10

/-- `ps`, `last` is the division of a text into lines: no line contains a terminator character, and a CR followed by a LF is
one terminator. -/
def Division : List (Str × Term) → Str → Prop
  | [], last => Plain last
  | (l, t) :: r, last => Plain l ∧ (t = .cr → (joinLines r last).head? ≠ some 10) ∧ Division r last

/-- every tab replaced by four spaces -/
def expandTabs (l : Str) : Str := l.flatMap fun c => if c = 9 then [32, 32, 32, 32] else [c]

/-- the lines the store shows for a division -/
def shownLines (tabs : Bool) (ps : List (Str × Term)) (last : Str) : List Str :=
  (ps.map (·.1) ++ [last]).map fun l => if tabs then expandTabs l else l

/-! ## Writers -/

/-- the text written: the characters, without the markup -/
def textOf (out : List Out) : Str :=
  out.filterMap fun o => match o with | .ch c => some c | .markup _ => none

/-- the columns `[a, b)` of a line as text output -/
def chars (line : Str) (a b : Int) : List Out := ((line.drop a.toNat).take (b - a).toNat).map Out.ch

/-- where the region ends -/
def stopOf (line : Str) (r : Reg) : Int := if r.stop = -1 then line.length else r.stop

/-- The regions lie inside the line, in order and without overlaps, from column `pos` on. Only the regions that are written
(`shown`) count; an empty one never is. -/
def InOrder (line : Str) (shown : Reg → Bool) : Int → List Reg → Prop
  | pos, [] => 0 ≤ pos ∧ pos ≤ line.length
  | pos, r :: rs =>
    if shown r ∧ r.start ≠ r.stop then
      0 ≤ pos ∧ pos ≤ r.start ∧ r.start ≤ stopOf line r ∧ stopOf line r ≤ line.length ∧ InOrder line shown (stopOf line r) rs
    else InOrder line shown pos rs

/-- The wanted output: the line from column `pos` on, every shown region's own columns between its opening and its closing. -/
def render (line : Str) (shown : Reg → Bool) (opening closing : Reg → List Out) : Int → List Reg → List Out
  | pos, [] => chars line pos line.length
  | pos, r :: rs =>
    if shown r ∧ r.start ≠ r.stop then
      chars line pos r.start ++ opening r ++ chars line r.start (stopOf line r) ++ closing r ++
        render line shown opening closing (stopOf line r) rs
    else render line shown opening closing pos rs

end Verif.Viewer
