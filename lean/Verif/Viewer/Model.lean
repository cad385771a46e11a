import Verif.Strings.Model
import Verif.Styles.Model
/-!
# Model of the text viewer

Models /repo/src/colorer/viewer: `TextLinesStore::loadFile` and friends (TextLinesStore.cpp), the three line writers of
ParsedLineWriter.cpp with their helpers, and the painting and navigation logic of TextConsoleViewer.cpp (Windows part).

Simplifications: characters are numbers, `int` is unbounded, the file content is the decoded text (decoding is modelled in
Verif.Encodings), `std::vector<UnicodeString*>` is a list. A read outside a string and an exception are error results.
-/
namespace Verif.Viewer
open Verif.Strings (Str)

/-! ## Lines of a text -/

def CR : Nat := 13
def LF : Nat := 10

/-- CRLF test of loadFile (TextLinesStore.cpp:64-66) -/
def skipLF (file : Str) (filepos : Nat) : Nat :=
  if filepos + 1 < file.length ∧ file[filepos]? = some CR ∧ file[filepos + 1]? = some LF then filepos + 1 else filepos

/-- one round of the loop at `filepos` (TextLinesStore.cpp:58-70): the line that ends here, and where the next one starts.
The substring constructor is `UnicodeString(*file, prevpos, filepos - prevpos)`. -/
def lineAt (file : Str) (filepos prevpos : Nat) : Option (Str × Nat) :=
  if filepos = file.length ∨ file[filepos]? = some CR ∨ file[filepos]? = some LF then
    some ((file.drop prevpos).take (filepos - prevpos), skipLF file filepos)
  else none

/-- `replaceTabs` (TextLinesStore.cpp:93-96): `findAndReplace("\t", "    ")`; `none`: the replacing loop has not ended. -/
def replaceTabs (line : Str) : Option Str := Strings.findAndReplace (line.length + 1) line [9] [32, 32, 32, 32]

/-- the loop of loadFile (TextLinesStore.cpp:58-72), `fuel` rounds; `none`: the loop has not ended -/
def loadLoop (file : Str) (tab2spaces : Bool) : Nat → Nat → Nat → List Str → Option (List Str)
  | 0, _, _, _ => none
  | fuel + 1, filepos, prevpos, lines =>
    if filepos < file.length + 1 then
      match lineAt file filepos prevpos with
      | none => loadLoop file tab2spaces fuel (filepos + 1) prevpos lines
      | some (line, fp) =>
        match (if tab2spaces then replaceTabs line else some line) with
        | none => none
        | some l => loadLoop file tab2spaces fuel (fp + 1) (fp + 1) (lines ++ [l])
    else some lines

/-- the object: `lines`, `fileName` (TextLinesStore.h:40-41) -/
structure TextStore where
  lines    : List Str
  fileName : Option Str
deriving DecidableEq, Repr

def TextStore.init : TextStore := ⟨[], none⟩

/-- `freeFile` (TextLinesStore.cpp:11-18) -/
def TextStore.freeFile (_ : TextStore) : TextStore := ⟨[], none⟩

/-- What `loadFile` is asked to load: the standard input (null name) with its content, or a named file with its content
(`none`: opening it throws). -/
inductive Source where
  | stdin (content : Str)
  | file (name : Str) (content : Option Str)

/-- result of a call: the object after it, and whether an exception was thrown -/
inductive LoadRes where
  | done (st : TextStore)
  | threw (st : TextStore)
  | hangs
deriving DecidableEq, Repr

/-- the end of `loadFile`: lines are appended to `lines` (TextLinesStore.cpp:52-72) -/
def TextStore.fill (st : TextStore) (file : Str) (tabs : Bool) : LoadRes :=
  match loadLoop file tabs (file.length + 2) 0 0 st.lines with
  | none => .hangs
  | some ls => .done { st with lines := ls }

/-- `loadFile` (TextLinesStore.cpp:20-73) -/
def TextStore.load (st : TextStore) (src : Source) (tabs : Bool) : LoadRes :=
  let st1 := if st.fileName.isSome then st.freeFile else st
  match src with
  | .stdin content => st1.fill content tabs
  | .file name none => .threw { st1 with fileName := some name }
  | .file name (some content) => ({ st1 with fileName := some name } : TextStore).fill content tabs

/-- `getLine` (TextLinesStore.cpp:80-86): null outside -/
def TextStore.getLine (st : TextStore) (lno : Nat) : Option Str :=
  if st.lines.length ≤ lno then none else st.lines[lno]?

/-- `getLineCount` (TextLinesStore.cpp:88-91) -/
def TextStore.getLineCount (st : TextStore) : Nat := st.lines.length

/-! ## Writers -/

inductive Err where
  /-- a character outside the line is read -/
  | outside
  /-- `cast` of a style object of the other kind throws -/
  | badCast
deriving DecidableEq, Repr

/-- what is sent to the two writers, in order: a markup string or a character of text -/
inductive Out where
  | markup (s : Str)
  | ch (c : Nat)
deriving DecidableEq, Repr

/-- `RegionDefine` objects: `StyledRegion` or `TextRegion` -/
inductive Def where
  | styled (s : Styles.Styled)
  | texted (t : Styles.Text)

/-- the fields of `LineRegion` the writers use (handlers/LineRegion.h:17-62); `stop` is `end`; `region` lists the names of the
region and of its ancestors, nearest first; `scheme` is the scheme's name -/
structure Reg where
  start   : Int
  stop    : Int
  special : Bool
  region  : Option (Str × List Str)
  rdef    : Option Def
  scheme  : Option Str

/-- `string[idx]` -/
def charAt (line : Str) (idx : Int) : Except Err Out :=
  if 0 ≤ idx then match line[idx.toNat]? with
    | some c => .ok (Out.ch c)
    | none => .error .outside
  else .error .outside

/-- `Writer::write(string, from, num)` (io/Writer.cpp:13-16) -/
def writeSlice (line : Str) (from' num : Int) : Except Err (List Out) :=
  (List.range num.toNat).mapM fun (i : Nat) => charAt line (from' + i)

/-- `if (end == -1) end = line->length()` (ParsedLineWriter.cpp:14-16, 53-55, 88-90) -/
def endOf (line : Str) (r : Reg) : Int := if r.stop = -1 then line.length else r.stop

/-- the text before a region: `if (l1->start > pos)` (17-20, 56-59, 91-94) -/
def writeGap (line : Str) (pos start : Int) : Except Err (List Out) :=
  if start > pos then writeSlice line pos (start - pos) else .ok []

/-- `pos` after it -/
def gapPos (pos start : Int) : Int := if start > pos then start else pos

/-- The loop shared by `tokenWrite` (9-38), `markupWrite` (48-76) and `htmlRGBWrite` (83-109): the three functions differ in
the test that skips a region (`skip`) and in the markup written before and after its text (`before`, `after`, which are given
the position and the length). -/
def writeLoop (line : Str) (skip : Reg → Bool) (before after : Reg → Int → Int → Except Err (List Out)) :
    List Reg → Int → Except Err (List Out)
  | [], pos =>
    if pos < line.length then writeSlice line pos (line.length - pos) else .ok []
  | r :: rest, pos =>
    if r.special || skip r then writeLoop line skip before after rest pos
    else if r.start = r.stop then writeLoop line skip before after rest pos
    else do
      let n := endOf line r - r.start
      let gap ← writeGap line pos r.start
      let pos' := gapPos pos r.start
      let b ← before r pos' n
      let t ← writeSlice line pos' n
      let a ← after r pos' n
      let tail ← writeLoop line skip before after rest (pos' + n)
      .ok (gap ++ b ++ t ++ a ++ tail)

/-- `findAndReplace(":", "-").findAndReplace(".", "-")` (ParsedLineWriter.cpp:26-27) -/
def tokenName (name : Str) : Str :=
  ((Strings.findAndReplace (name.length + 1) name [58] [45]).bind fun n =>
    Strings.findAndReplace (n.length + 1) n [46] [45]).getD []

/-- the loop over the region and its parents (ParsedLineWriter.cpp:24-33) -/
def tokenNames : Str → List Str → List Out
  | name, [] => [.markup (tokenName name)]
  | name, p :: ps => .markup (tokenName name) :: .markup [32] :: tokenNames p ps

/-- characters of an ASCII literal -/
def lit (s : String) : Str := s.toList.map Char.toNat

/-- ParsedLineWriter.cpp:21-35 -/
def tokenBefore (r : Reg) : List Out :=
  match r.region with
  | none => []
  | some (n, ps) => .markup (lit "<span class='") :: tokenNames n ps ++ [.markup (lit "'>")]

/-- `tokenWrite` (ParsedLineWriter.cpp:3-43) -/
def tokenWrite (line : Str) (regs : List Reg) : Except Err (List Out) :=
  writeLoop line (fun r => r.region.isNone) (fun r _ _ => .ok (tokenBefore r))
    (fun _ _ _ => .ok [.markup (lit "</span>")]) regs 0

def optMarkup : Option Str → List Out
  | none => []
  | some s => [.markup s]

/-- `LineRegion::texted()` (LineRegion.cpp:53-56): `TextRegion::cast` throws for the other kind -/
def texted (r : Reg) : Except Err Styles.Text :=
  match r.rdef with
  | some (.texted t) => .ok t
  | _ => .error .badCast

/-- `LineRegion::styled()` (LineRegion.cpp:48-51) -/
def styled (r : Reg) : Except Err Styles.Styled :=
  match r.rdef with
  | some (.styled s) => .ok s
  | _ => .error .badCast

/-- `markupWrite` (ParsedLineWriter.cpp:45-81) -/
def markupWrite (line : Str) (regs : List Reg) : Except Err (List Out) :=
  writeLoop line (fun r => r.rdef.isNone)
    (fun r _ _ => (texted r).map fun t => optMarkup t.startBack ++ optMarkup t.startText)
    (fun r _ _ => (texted r).map fun t => optMarkup t.endText ++ optMarkup t.endBack) regs 0

/-- lower case hexadecimal digits of `n`, most significant first, at most 8 -/
def hexDigits : Nat → Nat → Str
  | 0, _ => []
  | k + 1, n => hexDigits k (n / 16) ++ [if n % 16 < 10 then 48 + n % 16 else 87 + n % 16]

/-- `%.6x` of a 32 bit value: at least six digits -/
def hex6 (n : BitVec 32) : Str :=
  if n.toNat < 16 ^ 6 then hexDigits 6 n.toNat
  else if n.toNat < 16 ^ 7 then hexDigits 7 n.toNat else hexDigits 8 n.toNat

/-- `style & flag` -/
def hasStyle (s : Styles.Styled) (bit : Nat) : Bool := s.style.getLsbD bit

/-- one `snprintf(span + cp, size - cp, ...)` and `cp += ` its result: the buffer keeps at most `size - cp - 1` characters, and
`cp` grows by the full length -/
def snprintf (size : Nat) (b : Str × Nat) (s : Str) : Str × Nat :=
  (b.1 ++ s.take (size - b.2 - 1), b.2 + s.length)

def cond (c : Bool) (size : Nat) (s : Str) (b : Str × Nat) : Str × Nat := if c then snprintf size b s else b

/-- `writeStyle` (ParsedLineWriter.cpp:116-136): content of the buffer of 256 bytes, and `cp`. Bits: bold 1, italic 2,
underline 4, strikeout 8 (handlers/StyledRegion.h). -/
def styleText (s : Styles.Styled) : Str × Nat :=
  cond (hasStyle s 3) 256 (lit "text-decoration:strikeout; ") <|
  cond (hasStyle s 2) 256 (lit "text-decoration:underline; ") <|
  cond (hasStyle s 1) 256 (lit "font-style:italic; ") <|
  cond (hasStyle s 0) 256 (lit "font-weight:bold; ") <|
  cond s.isBackSet 256 (lit "background:#" ++ hex6 s.back ++ lit "; ") <|
  cond s.isForeSet 256 (lit "color:#" ++ hex6 s.fore ++ lit "; ") ([], 0)

/-- `writeStart` (ParsedLineWriter.cpp:138-145) -/
def writeStart (s : Styles.Styled) : List Out :=
  if !s.isForeSet && !s.isBackSet then []
  else .markup (lit "<span style='") :: (if (styleText s).2 > 0 then [.markup (styleText s).1] else []) ++ [.markup (lit "'>")]

/-- `writeEnd` (ParsedLineWriter.cpp:147-152) -/
def writeEnd (s : Styles.Styled) : List Out :=
  if !s.isForeSet && !s.isBackSet then [] else [.markup (lit "</span>")]

/-- the look-ups of `writeHref` (ParsedLineWriter.cpp:158-171): `token--scheme` first, then `token` -/
def hrefUrl (links : Str → Option Str) (scheme : Option Str) (token : Str) : Option Str :=
  (scheme.bind fun s => links (token ++ lit "--" ++ s)).orElse fun _ => links token

/-- `writeHref` (ParsedLineWriter.cpp:154-178) -/
def writeHref (links : Str → Option Str) (scheme : Option Str) (token : Str) (start : Bool) : List Out :=
  match hrefUrl links scheme token with
  | none => []
  | some url => if start then [.markup (lit "<a href='" ++ url ++ lit "'>")] else [.markup (lit "</a>")]

/-- `UnicodeString(*line, pos, n)`: a part of the line; the part is cut at the line's end -/
def part (line : Str) (pos n : Int) : Str := (line.drop pos.toNat).take n.toNat

/-- the link part of htmlRGBWrite (96-98, 102-104): `links` is `none` when the hash is empty -/
def hrefPart (links : Option (Str → Option Str)) (line : Str) (r : Reg) (pos n : Int) (start : Bool) : List Out :=
  match links with
  | none => []
  | some f => writeHref f r.scheme (part line pos n) start

/-- `htmlRGBWrite` (ParsedLineWriter.cpp:78-114) -/
def htmlRGBWrite (links : Option (Str → Option Str)) (line : Str) (regs : List Reg) : Except Err (List Out) :=
  writeLoop line (fun r => r.rdef.isNone)
    (fun r pos n => (styled r).map fun s => hrefPart links line r pos n true ++ writeStart s)
    (fun r pos n => (styled r).map fun s => writeEnd s ++ hrefPart links line r pos n false) regs 0

/-! ## The console viewer -/

/-- the columns of the screen a region colours (TextConsoleViewer.cpp:59-80), as the range `[X, X + len)` -/
def screenRange (lineLen leftpos width : Int) (r : Reg) : Option (Int × Int) :=
  if r.special || r.rdef.isNone then none
  else
    let e := if r.stop = -1 then lineLen else r.stop
    let X0 := r.start - leftpos
    let len0 := e - r.start
    let len1 := if X0 < 0 then len0 + X0 else len0
    let X := if X0 < 0 then 0 else X0
    if len1 < 0 ∨ X ≥ width then none
    else some (X, X + (if len1 + X > width then width - X else len1))

/-- keys (TextConsoleViewer.cpp:126-174) -/
inductive Key where
  | up | down | left (ctrl : Bool) | right (ctrl : Bool) | prior | next | home | end' | other

structure View where
  topline : Int
  leftpos : Int
deriving DecidableEq, Repr

/-- `if (topline < 0) topline = 0` -/
def clamp0 (x : Int) : Int := if x < 0 then 0 else x

/-- one key; `count` is `getLineCount()`, `rows` is `csbi.dwSize.Y` (TextConsoleViewer.cpp:126-174; the mouse wheel, 109-125,
is `prior`/`next`) -/
def View.key (v : View) (count rows : Int) : Key → View
  | .up => { v with topline := if v.topline ≠ 0 then v.topline - 1 else v.topline }
  | .down => { v with topline := if v.topline + rows < count then v.topline + 1 else v.topline }
  | .left c => { v with leftpos := clamp0 (if c then v.leftpos - 1 - 15 else v.leftpos - 1) }
  | .right c => { v with leftpos := if c then v.leftpos + 1 + 15 else v.leftpos + 1 }
  | .prior => { v with topline := clamp0 (v.topline - rows) }
  | .next => { v with topline := clamp0 (if v.topline + rows > count - rows then count - rows else v.topline + rows) }
  | .home => ⟨0, 0⟩
  | .end' => ⟨clamp0 (count - rows), 0⟩
  | .other => v

/-- the number of lines announced to the editor (TextConsoleViewer.cpp:38-41) -/
def View.lines (v : View) (count rows : Int) : Int :=
  if v.topline + rows > count then count - v.topline else rows

end Verif.Viewer
