import Verif.Chars.Tables
import Verif.CharClass.LegacySpec
/-!
# The built-in character functions

Models, from /repo/src/colorer/strings/legacy: Character.cpp 6-133 (without `toNumericValue`, whose table holds fractions, and the functions nothing uses),
the macros of x_defines.h, the tables of x_tables.h and x_charcategory2.h, `UnicodeString::caseCompare` (UnicodeString.cpp 269-286),
`equalsIgnoreCase` (258-267), the test of `getCurlyContent` (UnicodeTools.cpp 54-60). These are compiled in when the ICU strings, the default,
are switched off.

`none`: an array is read outside its bounds. Characters are numbers; the library passes units of UTF-16, the parameters are `wchar_t`.
-/
namespace Verif.Chars
open Verif.RegExp (Text Ctx Chars)
open Verif.CharClass (Tables)

/-- the element `i` of an array -/
def elem (rows : List (List Nat)) (i : Nat) : Option Nat := rows.flatten[i]?

/-- `CHAR_PROP`, x_defines.h 8 -/
def charProp (c : Nat) : Option Nat := (elem idxInfo (c >>> 4)).bind fun r => elem info ((r <<< 4) + c % 16)

/-- `CHAR_CATEGORY`, x_defines.h 11 -/
def category (p : Nat) : Nat := p % 32
/-- `TITLE_CASE`, x_defines.h 10 -/
def hasTitle (p : Nat) : Bool := (p >>> 15) % 2 == 1
/-- `(wchar)(unsigned short)(c - wchar(c1 >> 16))` -/
def moved (c p : Nat) : Nat := (c + 65536 - p >>> 16) % 65536

/-- Character.cpp 6-12 -/
def toLowerCase (c : Nat) : Option Nat := (charProp c).map fun p => if category p = 4 then c else if category p = 7 then c + 1 else moved c p
/-- Character.cpp 14-20 -/
def toUpperCase (c : Nat) : Option Nat := (charProp c).map fun p => if category p = 8 then c else if category p = 7 then c - 1 else moved c p
/-- Character.cpp 22-33 -/
def toTitleCase (c : Nat) : Option Nat := (charProp c).map fun p =>
  if hasTitle p then (if category p = 8 then c + 1 else if category p = 4 then c - 1 else c)
  else if category p = 4 then moved c p else c

/-- Character.cpp 118-121 -/
def getCategory (c : Nat) : Option Nat := (charProp c).map category
/-- Character.cpp 35-38 -/
def isLowerCase (c : Nat) : Option Bool := (charProp c).map fun p => category p == 4
/-- Character.cpp 40-43 -/
def isUpperCase (c : Nat) : Option Bool := (charProp c).map fun p => category p == 8
/-- Character.cpp 45-48 -/
def isTitleCase (c : Nat) : Option Bool := (charProp c).map fun p => category p == 7
/-- Character.cpp 51-60 -/
def isLetter (c : Nat) : Option Bool := (charProp c).map fun p => ((2 ^ 8 ||| 2 ^ 4 ||| 2 ^ 7 ||| 2 ^ 5 ||| 2 ^ 6) >>> category p) % 2 != 0
/-- Character.cpp 62-72 -/
def isLetterOrDigit (c : Nat) : Option Bool :=
  (charProp c).map fun p => ((2 ^ 8 ||| 2 ^ 4 ||| 2 ^ 7 ||| 2 ^ 5 ||| 2 ^ 6 ||| 2 ^ 12) >>> category p) % 2 != 0
/-- Character.cpp 74-77 -/
def isDigit (c : Nat) : Option Bool := (charProp c).map fun p => category p == 12
/-- Character.cpp 79-82 -/
def isAssigned (c : Nat) : Option Bool := (charProp c).map fun p => category p != 0
/-- Character.cpp 84-90 -/
def isSpaceChar (c : Nat) : Option Bool := (charProp c).map fun p => ((2 ^ 28 ||| 2 ^ 26 ||| 2 ^ 27) >>> category p) % 2 != 0
/-- Character.cpp 91-105; the table is not read if a test before it holds -/
def isWhitespace (c : Nat) : Option Bool :=
  if c = 0x20 ∨ c ≤ 0x20 ∧ ((2 ^ 9 ||| 2 ^ 10 ||| 2 ^ 12 ||| 2 ^ 13) >>> c) % 2 ≠ 0 then some true
  else (charProp c).map fun p => ((2 ^ 28 ||| 2 ^ 26 ||| 2 ^ 27) >>> category p) % 2 != 0

/-- UnicodeTools.cpp 54-58: a character allowed between braces -/
def isGraph (c : Nat) : Option Bool := (isWhitespace c).bind fun w => (getCategory c).map fun k => !(w || k == 0 || k == 1 || k == 2 || k == 3)

/-- `a.caseCompare(b) = 0`, UnicodeString.cpp 269-286 -/
def caseEq : Text → Text → Option Bool
  | [], [] => some true
  | a :: s, b :: t => (toLowerCase b).bind fun x => (toLowerCase a).bind fun y => if x = y then caseEq s t else some false
  | [], _ :: _ => some false
  | _ :: _, [] => some false

/-- the loop of `equalsIgnoreCase`, UnicodeString.cpp 262-265 -/
def sameLoop : Text → Text → Option Bool
  | [], _ => some true
  | _ :: _, [] => some true
  | a :: s, b :: t => (toLowerCase b).bind fun x => (toLowerCase a).bind fun y => (toUpperCase b).bind fun z => (toUpperCase a).bind fun w =>
      if x ≠ y ∨ z ≠ w then some false else sameLoop s t

/-- `equalsIgnoreCase`, UnicodeString.cpp 258-267 -/
def equalsIgnoreCase (a b : Text) : Option Bool := if b.length ≠ a.length then some false else sameLoop a b

/-- the bits of a category on a page: the loop bodies of `addCategory` and `clearCategory`, CharacterClass.cpp 234-235, 263-264; position 0: none -/
def legacyTables : Tables := ⟨fun cat p =>
  match elem idxCat ((cat - 1) * 256 + p) with
  | none | some 0 => none
  | some pos => some fun i => BitVec.ofNat 32 ((elem catBits (pos + i)).getD 0)⟩

/-- the functions as the matcher sees them (cregexp.cpp); outside 16 bits, where they are undefined, anything -/
def legacyChars : Chars where
  isDigit c := (isDigit c).getD false
  isLetter c := (isLetter c).getD false
  isLetterOrDigit c := (isLetterOrDigit c).getD false
  isSpace c := (isWhitespace c).getD false
  isUpper c := (isUpperCase c).getD false
  isLower c := (isLowerCase c).getD false
  lower c := (toLowerCase c).getD c
  upper c := (toUpperCase c).getD c
  caseEq s t := (caseEq s t).getD false

/-- the functions as the compiler of expressions and classes sees them -/
def legacyCtx : Ctx where
  isSpace := legacyChars.isSpace
  graph c := (isGraph c).getD false
  lower := legacyChars.lower
  upper := legacyChars.upper
  title c := (toTitleCase c).getD c
  categ n d := (Verif.CharClass.ctxOf ⟨fun _ => false, fun _ => false, id, id, id, fun _ _ => false, fun _ => false, fun _ => false, fun _ => false,
    fun _ => false, fun _ => false, fun _ _ => false, none, false, false⟩ legacyTables).categ n d
  setNd := legacyTables.has 12
  setL d := legacyTables.has 4 d || legacyTables.has 5 d || legacyTables.has 6 d || legacyTables.has 7 d || legacyTables.has 8 d
  setZ d := legacyTables.has 26 d || legacyTables.has 27 d || legacyTables.has 28 d
  setLl := legacyTables.has 4
  setLu := legacyTables.has 8
  caseEq := legacyChars.caseEq
  back := none
  ignoreCase := false
  extend := false

end Verif.Chars
