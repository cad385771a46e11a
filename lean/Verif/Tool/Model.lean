import Verif.Viewer.Model
import Verif.LineRegions.Model
/-!
# Model of the console tool: colouring a file

`ConsoleTools::genOutput` (/repo/tools/colorer/ConsoleTools.cpp 372-501) and `HtmlEscapesWriter` (/repo/tools/colorer/ConsoleTools.h 10-31). The text store, the
three line writers and the editor are in Verif.Viewer and Verif.Whole; here is what the tool does with them.

A character or string sent to `escapedWriter` is `Out.ch`, to `commonWriter` `Out.markup`. What was written before a failure is not kept.
-/
namespace Verif.Tool
open Verif.Strings (Str)
open Verif.Viewer (Out Reg Def lit)

/-- the three kinds of output: region names (`genTokenOutput`), texts of a colour scheme (`useMarkup`), colours -/
inductive Format where
  | tokens | markup | rgb
deriving DecidableEq, Repr

/-- the options; `links` is `docLinkHash`, `none` when it is empty -/
structure Opts where
  format    : Format
  wrap      : Bool
  escape    : Bool
  copyright : Bool
  numbers   : Bool
  links     : Option (Str → Option Str)

inductive Fail where
  /-- a null pointer is followed -/
  | null
  /-- a writer of a line fails -/
  | writer (e : Viewer.Err)
deriving DecidableEq, Repr

def ofWriter : Except Viewer.Err α → Except Fail α
  | .ok a => .ok a
  | .error e => .error (.writer e)

/-- decimal digits (`UStr::to_unistr`, strings/icu/UStr.cpp 4-7: `std::to_string`) -/
def decimal (n : Nat) : Str := if n < 10 then [48 + n] else decimal (n / 10) ++ [48 + n % 10]

/-- the loops 449-451 and 454-457: `for (lni = n / 10; lni > 0; lni = lni / 10) width++` -/
def widthLoop (lni width : Nat) : Nat := if _ : lni > 0 then widthLoop (lni / 10) (width + 1) else width
termination_by lni
decreasing_by omega

/-- 446-451, 454-457 -/
def widthOf (n : Nat) : Nat := widthLoop (n / 10) 1

/-- the line number (453-463): spaces, the number, `": "` -/
def number (o : Opts) (lncount i : Nat) : List Out :=
  if o.numbers then List.replicate (widthOf lncount - widthOf i) (.markup [32]) ++ [.markup (decimal i), .markup (lit ": ")] else []

/-- `writeStyle` (viewer/ParsedLineWriter.cpp 116-136) -/
def writeStyle (s : Styles.Styled) : List Out := if (Viewer.styleText s).2 > 0 then [.markup (Viewer.styleText s).1] else []

/-- what is written before the lines (426-438); `rd` is `baseEditor.rd_def_Text`, null when there is no mapper (399-402) -/
def header (o : Opts) (rd : Option Def) : Except Fail (List Out) :=
  if !o.wrap then .ok []
  else match o.format, rd with
  | .tokens, _ => .ok [.markup (lit "<html>\n<head>\n<style></style>\n</head>\n<body><pre>\n")]
  | _, none => .ok []
  | .markup, some (.texted t) => match t.startText with
    | some s => .ok [.markup s]
    | none => .error .null
  | .rgb, some (.styled s) => .ok (.markup (lit "<html><body style='") :: writeStyle s ++ [.markup (lit "'><pre>\n")])
  | _, _ => .error (.writer .badCast)

/-- what is written after the lines (480-490) -/
def footer (o : Opts) (rd : Option Def) : Except Fail (List Out) :=
  if !o.wrap then .ok []
  else match o.format, rd with
  | .tokens, _ => .ok [.markup (lit "</pre></body></html>\n")]
  | _, none => .ok []
  | .markup, some (.texted t) => match t.endText with
    | some s => .ok [.markup s]
    | none => .error .null
  | .rgb, some (.styled _) => .ok [.markup (lit "</pre></body></html>\n")]
  | _, _ => .error (.writer .badCast)

/-- 440-444; `ty` is the name of the type selected, `none` if there is none -/
def credits (o : Opts) (ty : Option Str) : Except Fail (List Out) :=
  if o.copyright then match ty with
    | some name => .ok [.markup (lit "Created with colorer library. Type '"), .markup name, .markup (lit "'\n\n")]
    | none => .error .null
  else .ok []

/-- 464-475 -/
def writeLine (o : Opts) (line : Str) (regs : List Reg) : Except Fail (List Out) := match o.format with
  | .tokens => ofWriter (Viewer.tokenWrite line regs)
  | .markup => ofWriter (Viewer.markupWrite line regs)
  | .rgb => ofWriter (Viewer.htmlRGBWrite o.links line regs)

/-- the loop over the lines (452-477); the second list are the regions the editor returns for the lines -/
def writeLines (o : Opts) (lncount : Nat) : Nat → List Str → List (List Reg) → Except Fail (List Out)
  | i, line :: lines, regs :: rest =>
    match writeLine o line regs, writeLines o lncount (i + 1) lines rest with
    | .ok b, .ok r => .ok (number o lncount i ++ b ++ .markup (lit "\n") :: r)
    | .error e, _ => .error e
    | _, .error e => .error e
  | _, _, _ => .ok []

/-- `genOutput` (372-501) after the file was loaded, the type selected and the output opened -/
def genOutput (o : Opts) (ty : Option Str) (rd : Option Def) (lines : List Str) (answers : List (List Reg)) : Except Fail (List Out) :=
  match header o rd, credits o ty, writeLines o lines.length 0 lines answers, footer o rd with
  | .ok h, .ok c, .ok b, .ok f => .ok (h ++ c ++ b ++ f)
  | .error e, _, _, _ => .error e
  | _, .error e, _, _ => .error e
  | _, _, .error e, _ => .error e
  | _, _, _, .error e => .error e

/-! ## The tool's editor -/

/-- the styles of a styled mapper (386); `look` is its table, `special` says which regions are special. `assignParent` does nothing for a null parent
(handlers/StyledRegion.cpp 47-52); the background has no style (`setBackground` is never called) -/
def styledStyles (look : Nat → Option Styles.Styled) (special : Nat → Bool) : LineRegions.Env Styles.Styled :=
  ⟨some look, fun r p => match p with | none => r | some q => r.assignParent q, special, none⟩

/-- the styles of a text mapper (389) -/
def textStyles (look : Nat → Option Styles.Text) (special : Nat → Bool) : LineRegions.Env Styles.Text :=
  ⟨some look, fun r p => match p with | none => r | some q => r.assignParent q, special, none⟩

/-- no mapper (384-385) -/
def noStyles (special : Nat → Bool) : LineRegions.Env Styles.Styled :=
  ⟨none, fun r p => match p with | none => r | some q => r.assignParent q, special, none⟩

/-- a node of the line store as the writers see it; `names` gives a region's names (its own and its ancestors'), `sname` a scheme's -/
def regOf {RD : Type} (kind : RD → Def) (names : Nat → Str × List Str) (sname : Nat → Str) (t : LineRegions.LR RD) : Reg :=
  { start := t.start, stop := t.stop, special := t.special, region := t.pay.region.map names, rdef := t.pay.rdef.map kind,
    scheme := t.pay.scheme.map sname }

/-- the line source the editor reads: the loaded lines (`TextLinesStore::getLine`, viewer/TextLinesStore.cpp 80-86) -/
def sourceOf (lines : List Str) (i : Int) : Option Str := if i < 0 then none else lines[i.toNat]?

/-- `HtmlEscapesWriter::write(UChar)` (ConsoleTools.h 18-27) -/
def escapeChar (c : Nat) : Str := if c = 38 then lit "&amp;" else if c = 60 then lit "&lt;" else [c]

/-- what reaches the file's writer (409-419): text through `escapedWriter`, markup directly -/
def emit (o : Opts) : Out → Str
  | .markup s => s
  | .ch c => if o.escape then escapeChar c else [c]

def emitAll (o : Opts) (out : List Out) : Str := out.flatMap (emit o)

end Verif.Tool
