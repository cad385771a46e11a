import Verif.CharClass.Props
import Verif.RegExp.Syntax
/-!
# The reader of character classes of the built-in strings

Models, from /repo/src/colorer/strings/legacy: `CharacterClass::createCharClass` (CharacterClass.cpp 27-191), `addCategory`, `clearCategory`
(231-287), `BitArray::addBitArray(char*, int)`, `clearBitArray(char*, int)` (BitArray.cpp 125-139), `UnicodeTools::getHex`, `getHexNumber`,
`getCurlyContent`, `getEscapedChar` (UnicodeTools.cpp 19-101). These are compiled in when the ICU strings, the default, are switched off.

A position in the text is the rest of the text from it on. `UnicodeString::operator[]` does not check (UnicodeString.cpp 123-126) and the buffer is as
long as the text, so reading behind the end is undefined (`ub`), as are shifts by 32 and more and the errors of `CharClass.Model`. The tables of
categories are a parameter (`Tables`); the other properties of characters are those of `Ctx`. Simplified: `cc_temp` begins empty at
every use (it is cleared or filled first); a name is compared with the names of the categories as a list.
-/
namespace Verif.CharClass
open Verif.RegExp (Ctx Text BAD curlyLoop)

/-- x_charcategory2.h: the bits of a category (1 to 28) on a page, if any -/
structure Tables where
  page : Nat → Nat → Option (Nat → BitVec 32)

/-- char_category_names (x_charcategory_names.h) -/
def catNames : List Text :=
  [[67, 110], [67, 99], [67, 102], [67, 115], [76, 108], [76, 109], [76, 111], [76, 116], [76, 117], [77, 99], [77, 101], [77, 110], [78, 100],
   [78, 108], [78, 111], [80, 99], [80, 100], [80, 101], [80, 102], [80, 105], [80, 111], [80, 115], [83, 99], [83, 107], [83, 109], [83, 111],
   [90, 108], [90, 112], [90, 115]]

/-- `addBitArray(char* bits, 32)`, BitArray.cpp 125-131 -/
def BA.addBits (b : BA) (w : Nat → BitVec 32) : BA := match b.arr with
  | .full => b
  | .null => { b with arr := .words fun i => b.load i ||| w i }
  | .words _ => { b with arr := .words fun i => b.load i ||| w i }

/-- `clearBitArray(char* bits, 32)`, BitArray.cpp 133-139 -/
def BA.clearBits (b : BA) (w : Nat → BitVec 32) : BA := match b.arr with
  | .null => b
  | .full => { b with arr := .words fun i => b.load i &&& ~~~(w i) }
  | .words _ => { b with arr := .words fun i => b.load i &&& ~~~(w i) }

/-- the loops over the pages of `addCategory(ECharCategory)` and `clearCategory(ECharCategory)`, CharacterClass.cpp 231-244, 260-273 -/
def CC.onCat (T : Tables) (f : BA → (Nat → BitVec 32) → BA) (c : CC) (cat : Nat) : CC :=
  if cat = 0 ∨ 29 ≤ cat then c
  else fun p => if p < 256 then (match T.page cat p with | none => c p | some w => some (f (page (c p)) w)) else c p

/-- `addCategory(ECharCategory)` -/
def CC.addCat (T : Tables) (c : CC) (cat : Nat) : CC := c.onCat T BA.addBits cat
/-- `clearCategory(ECharCategory)` -/
def CC.clearCat (T : Tables) (c : CC) (cat : Nat) : CC := c.onCat T BA.clearBits cat

/-- the loop of `addCategory(const UnicodeString&)` and `clearCategory(const UnicodeString&)`, 246-253, 275-282 -/
def CC.onName (op : CC → Nat → CC) (n : Text) (c : CC) : CC :=
  (List.range 29).foldl (fun c i => if n.isPrefixOf (catNames.getD i []) then op c i else c) c

/-- `{name}` in a class, 53-67 -/
def CC.addNamed (T : Tables) (c : CC) (n : Text) : Option CC :=
  if n = [65, 76, 76] then c.fill
  else if n = [65, 83, 83, 73, 71, 78, 69, 68] then some (c.onName (CC.addCat T) [])
  else if n = [85, 78, 65, 83, 83, 73, 71, 78, 69, 68] then c.fill.map fun c => c.clearClass (CC.empty.onName (CC.addCat T) [])
  else if n = [] then some c
  else some (c.onName (CC.addCat T) n)

def CC.addAll (c : CC) : List Nat → Option CC
  | [] => some c
  | a :: l => (c.addChar a).bind fun c => c.addAll l

def CC.clearAll (c : CC) : List Nat → Option CC
  | [] => some c
  | a :: l => (c.clearChar a).bind fun c => c.clearAll l

/-- `\d` … `\u`, 73-112 -/
def CC.addLetter (T : Tables) (ic : Bool) (k : Nat) (c : CC) : Option (Option CC) :=
  if k = 100 then some (some (c.addCat T 12))
  else if k = 68 then some (CC.empty.fill.map fun t => c.addClass (t.clearCat T 12))
  else if k = 119 then some (((c.onName (CC.addCat T) [76]).addCat T 12).addAll [95])
  else if k = 87 then some ((CC.empty.fill.bind fun t => ((t.onName (CC.clearCat T) [76]).clearCat T 12).clearAll [95]).map fun t => c.addClass t)
  else if k = 115 then some ((c.onName (CC.addCat T) [90]).addAll [9, 10, 12, 13])
  else if k = 83 then some ((CC.empty.fill.bind fun t => (t.onName (CC.clearCat T) [90]).clearAll [9, 10, 12, 13]).map fun t => c.addClass t)
  else if k = 108 then some (some (if ic then (c.addCat T 4).addCat T 8 else c.addCat T 4))
  else if k = 117 then some (some (if ic then (c.addCat T 8).addCat T 4 else c.addCat T 8))
  else none

/-- `addChar(c)` and, ignoring case, `addChar` of its lower, upper and title case, 116-121, 181-186 -/
def CC.addCased (x : Ctx) (ic : Bool) (c : CC) (k : Nat) : Option CC := c.addAll (if ic then [k, x.lower k, x.upper k, x.title k] else [k])

/-- `getHex`; `wchar` is a signed type of 32 bits, so characters below '0' give negative numbers; -1: no digit (or '/') -/
def getHexL (x : Ctx) (c : Nat) : Int :=
  let d : Int := (x.lower c : Int) - 48
  if 49 ≤ d ∧ d ≤ 54 then d - 39 else if d > 9 then -1 else d

/-- the loop of `getHexNumber`, from the last character to the first; `none`: a shift by 32 or more. (A sum that is too large for `int` is negative in
the code: both are refused.) -/
def hexGo (x : Ctx) : Nat → Int → Text → Option Int
  | _, n, [] => some n
  | r, n, c :: cs => if getHexL x c = -1 then some (-1) else if 32 ≤ r then none else hexGo x (r + 4) (n + getHexL x c * 2 ^ r) cs

/-- `getHexNumber` -/
def hexNumL (x : Ctx) (t : Text) : Option Int := hexGo x 0 0 t.reverse

inductive Esc where
  | ub | bad | ok (v k : Nat)

/-- `BAD_WCHAR` as a character is no character -/
def mkEsc (v k : Nat) : Esc := if v = BAD then .bad else .ok v k

/-- `\x{…}`: `t` behind the brace -/
def escCurly (x : Ctx) (t : Text) : Esc :=
  match curlyLoop x t with
  | none => .bad
  | some v => match hexNumL x v with
    | none => .ub
    | some n => if n < 0 ∨ n > 0xFFFF then .bad else mkEsc n.toNat (v.length + 3)

/-- `\xHH`: `t` behind the x -/
def escTwo (x : Ctx) (t : Text) : Esc :=
  if t.length < 2 then .ub
  else match hexNumL x (t.take 2) with
    | none => .ub
    | some n => if n = -1 then .bad else mkEsc (n % 65536).toNat 3

/-- `getEscapedChar(t, 0, retPos)`: the character and `retPos` -/
def escL (x : Ctx) : Text → Esc
  | [] => .ub
  | c :: r => if c ≠ 92 then mkEsc c 0 else match r with
    | [] => .ub
    | d :: r => if d ≠ 120 then mkEsc d 1 else match r with
      | [] => .ub
      | e :: r => if e = 123 then escCurly x r else escTwo x (e :: r)

inductive LStep where
  | stop (rest : Text)
  | null
  | ub
  | next (c : Option CC) (prev : Nat) (rest : Text)
  | inner (g : CC → Option CC) (ic : Bool) (rest : Text)

/-- an escaped character in a class, 113-123 -/
def lEsc (x : Ctx) (ic : Bool) (c : CC) (r : Text) : LStep :=
  match escL x (92 :: r) with
  | .ub => .ub
  | .bad => .next (some c) BAD (r.drop 1)
  | .ok v k => .next (c.addCased x ic v) v (r.drop k)

/-- the end of a range, 170-175 -/
def lRange (x : Ctx) (c : CC) (prev : Nat) (r : Text) : LStep :=
  match escL x r with
  | .ub => .ub
  | .bad => .null
  | .ok v k => .next (c.addRange prev v) prev (r.drop (k + 1))

/-- `{…}` in a class, 53-67 -/
def lCurly (x : Ctx) (T : Tables) (c : CC) (r : Text) : LStep :=
  match curlyLoop x r with
  | none => .null
  | some v => .next (c.addNamed T v) BAD (r.drop (v.length + 1))

/-- `\…` in a class, 69-127 -/
def lBack (x : Ctx) (T : Tables) (ic : Bool) (c : CC) (k : Nat) (r : Text) : LStep :=
  match c.addLetter T ic k with
  | some o => .next o BAD r
  | none => lEsc x ic c (k :: r)

/-- one round of the loop of createCharClass, 41-188, at the character `k` with `r` behind it -/
def lStep (x : Ctx) (T : Tables) (ic : Bool) (c : CC) (prev : Nat) (k : Nat) (r : Text) : LStep :=
  if k = 93 then .stop r
  else if k = 123 then lCurly x T c r
  else if k = 92 ∧ r ≠ [] then lBack x T ic c (r.headD 0) (r.drop 1)
  else if k = 45 ∧ r.head? = some 91 then .inner (fun t => some (c.clearClass t)) false r
  else if k = 38 ∧ r.head? = some 38 ∧ (r.drop 1).head? = some 91 then .inner (fun t => c.intersectClass t) false (r.drop 1)
  else if k = 91 then .inner (fun t => some (c.addClass t)) ic (k :: r)
  else if k = 45 ∧ prev ≠ BAD ∧ r ≠ [] ∧ r.head? ≠ some 93 then lRange x c prev r
  else .next (c.addCased x ic k) k r

/-- behind the '[', 36-40; `none`: behind the end of the text -/
def lBegin : Text → Option (Bool × Text)
  | [] => none
  | c :: r => if c = 94 then some (true, r) else some (false, c :: r)

/-- `^`, 44-49 -/
def lInv (neg : Bool) (c : CC) : Option CC := if neg then CC.empty.fill.map fun t => t.clearClass c else some c

inductive LRes where
  | ok (c : CC) (rest : Text)
  | null
  | ub

/-- the loop of createCharClass with the calls inside it; `none`: not enough rounds -/
def lLoop (x : Ctx) (T : Tables) : Nat → Bool → CC → Nat → Text → Option LRes
  | 0, _, _, _, _ => none
  | _ + 1, _, _, _, [] => some .null
  | f + 1, ic, c, prev, k :: r =>
    match lStep x T ic c prev k r with
    | .stop rest => some (.ok c rest)
    | .null => some .null
    | .ub => some .ub
    | .next none _ _ => some .ub
    | .next (some c') prev' rest => lLoop x T f ic c' prev' rest
    | .inner g ic' rest =>
      match lBegin (rest.drop 1) with
      | none => some .ub
      | some (neg, t) =>
        match lLoop x T f ic' CC.empty BAD t with
        | none => none
        | some .null => some .null
        | some .ub => some .ub
        | some (.ok d rest') =>
          match (lInv neg d).bind g with
          | none => some .ub
          | some c' => lLoop x T f ic c' BAD rest'

def lFinish (neg : Bool) : Option LRes → Option LRes
  | some (.ok c rest) => match lInv neg c with
    | none => some .ub
    | some c' => some (.ok c' rest)
  | r => r

/-- `createCharClass(t, 0, retPos, ic)` -/
def createLegacy (x : Ctx) (T : Tables) (ic : Bool) : Text → Option LRes
  | [] => some .ub
  | c :: r => if c ≠ 91 then some .null else match lBegin r with
    | none => some .ub
    | some (neg, t) => lFinish neg (lLoop x T (r.length + 1) ic CC.empty BAD t)

end Verif.CharClass
