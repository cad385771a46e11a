import Verif.Tool.Model
import Verif.Viewer.Props
import Verif.Whole.Paint
/-!
# Specification of the tool's output
-/
namespace Verif.Tool
open Verif.Strings (Str)
open Verif.Viewer (Out lit)

/-- `out` is the characters `cs`, in order; a character with a mark `d` stands in a span opened by `opening d` and closed by `closing d`, the others in
none. (A run of characters of the same mark may be one span or several; spans may be empty.) -/
inductive Wraps {D : Type} (opening closing : D → List Out) : List (Nat × Option D) → List Out → Prop
  | nil : Wraps opening closing [] []
  | plain {c : Nat} {cs : List (Nat × Option D)} {out : List Out} : Wraps opening closing cs out → Wraps opening closing ((c, none) :: cs) (.ch c :: out)
  | span {d : D} {run : Str} {cs : List (Nat × Option D)} {out : List Out} : Wraps opening closing cs out →
      Wraps opening closing (run.map (fun c => (c, some d)) ++ cs) (opening d ++ run.map Out.ch ++ closing d ++ out)

/-- the characters of a line with the mark of their column -/
def columns {D : Type} (line : Str) (mark : Nat → Option D) : List (Nat × Option D) := line.zipIdx.map fun p => (p.1, mark p.2)

/-- the number of a line, right-aligned -/
def numberText (lncount i : Nat) : Str := List.replicate ((decimal lncount).length - (decimal i).length) 32 ++ decimal i ++ lit ": "

/-- `out` is the lines, each after its number (if wanted), marked column by column, and ended by a line feed -/
inductive Page {D : Type} (opening closing : D → List Out) (numbers : Bool) (lncount : Nat) (mark : Nat → Nat → Option D) : Nat → List Str → List Out → Prop
  | nil {i : Nat} : Page opening closing numbers lncount mark i [] []
  | cons {i : Nat} {line : Str} {lines : List Str} {num body rest : List Out} :
      Viewer.textOf num = [] → Viewer.markupOf num = (if numbers then numberText lncount i else []) →
      Wraps opening closing (columns line (mark i)) body → Page opening closing numbers lncount mark (i + 1) lines rest →
      Page opening closing numbers lncount mark i (line :: lines) (num ++ body ++ .markup (lit "\n") :: rest)

/-- `mark` gives for every line and column what `key` says about the region seen there when the whole text is parsed from the beginning by a new
parser with type `base` and drawn with the styles `st` (nothing where no region is seen) -/
def Coloured {RD D : Type} (env : TextParser.Env) (base : Nat) (st : Whole.Styles RD) (lines : List Str) (key : LineRegions.Payload RD → Option D)
    (mark : Nat → Nat → Option D) : Prop :=
  ∀ i, i < lines.length → ∃ p, Whole.Paints env base st (sourceOf lines) lines.length i p ∧ ∀ x : Nat, mark i x = (p.shown x).bind key

/-- opening and closing texts of a text style -/
def textOpen (t : Styles.Text) : List Out := Viewer.optMarkup t.startBack ++ Viewer.optMarkup t.startText
def textClose (t : Styles.Text) : List Out := Viewer.optMarkup t.endText ++ Viewer.optMarkup t.endBack

/-- opening and closing of a region given by its name and those of its ancestors -/
def nameOpen (n : Str × List Str) : List Out := .markup (lit "<span class='") :: Viewer.tokenNames n.1 n.2 ++ [.markup (lit "'>")]
def nameClose (_ : Str × List Str) : List Out := [.markup (lit "</span>")]

end Verif.Tool
