/-!
# Model of the legacy character class

Models `strings/legacy/BitArray.cpp` and the set operations of `strings/legacy/CharacterClass.cpp` of
/repo/src/colorer. `int` words are `BitVec 32`; positions are natural numbers (`>> 5` is `/ 32`, `& 0x1f` is `% 32`).
Undefined behaviour (write outside the array, `delete[]` of the sentinel pointer `(int*)1`) is `none`.
Character categories (the generated Unicode tables) are not modelled, except that a category is a table of pages.
-/
namespace Verif.CharClass

/-- The field `array` (BitArray.h:44): null, the sentinel `(int*)1` meaning "all ones", or `size` words. -/
inductive Arr where
  | null
  | full
  | words (w : Nat → BitVec 32)

/-- `class BitArray` (BitArray.h:9-47); `size` in words. -/
structure BA where
  size : Nat
  arr  : Arr

/-- Constructor, BitArray.cpp:4-9. -/
def BA.new (bits : Nat) : BA :=
  { size := if bits % 8 = 0 ∧ bits / 8 % 4 = 0 then bits / 8 / 4 + 1 - 1 else bits / 8 / 4 + 1, arr := .null }

/-- all bits one: `0xFFFFFFFF` -/
def ones : BitVec 32 := BitVec.allOnes 32
/-- `0xFFFFFFFF << k` -/
def maskUp (k : Nat) : BitVec 32 := ones <<< k
/-- `0xFFFFFFFF >> (0x1F - k)` -/
def maskDown (k : Nat) : BitVec 32 := ones >>> (31 - k)

/-- `array[i] = v` on an allocated array. -/
def upd (w : Nat → BitVec 32) (i : Nat) (v : BitVec 32) : Nat → BitVec 32 := fun j => if j = i then v else w j

/-- `createArray` when needed: the words behind the pointer (BitArray.cpp:16-20, 24, 32, 39, 63). -/
def BA.load (b : BA) : Nat → BitVec 32 := match b.arr with
  | .null => fun _ => 0
  | .full => fun _ => ones
  | .words w => w

/-- `setBit`, BitArray.cpp:22-27. -/
def BA.setBit (b : BA) (pos : Nat) : Option BA := match b.arr with
  | .full => some b
  | _ => if pos / 32 < b.size
    then some { b with arr := .words (upd b.load (pos / 32) (b.load (pos / 32) ||| (1#32 <<< (pos % 32)))) } else none

/-- `clearBit`, BitArray.cpp:29-34. -/
def BA.clearBit (b : BA) (pos : Nat) : Option BA := match b.arr with
  | .null => some b
  | _ => if pos / 32 < b.size
    then some { b with arr := .words (upd b.load (pos / 32) (b.load (pos / 32) &&& ~~~(1#32 <<< (pos % 32)))) } else none

/-- the loop `for (idx = cs; idx <= ce; idx++) array[idx] = v` (BitArray.cpp:52-53, 76-77); `n` = one past `ce`
(so that `ce = cs - 1`, even `-1`, is representable). -/
def fillWords (w : Nat → BitVec 32) (cs n : Nat) (v : BitVec 32) : Nat → BitVec 32 :=
  fun j => if cs ≤ j ∧ j < n then v else w j

/-- `addRange`, BitArray.cpp:36-58 -/
def BA.addRange (b : BA) (s e : Nat) : Option BA := match b.arr with
  | .full => some b
  | _ =>
    if s / 32 < b.size ∧ e / 32 < b.size then
      let w0 := b.load
      let w1 := if s % 32 ≠ 0 then                                              -- 41-46
          upd w0 (s / 32) (w0 (s / 32) ||| (if e / 32 = s / 32 then maskUp (s % 32) &&& maskDown (e % 32) else maskUp (s % 32)))
        else w0
      let cs := if s % 32 ≠ 0 then s / 32 + 1 else s / 32
      let partialLast := s / 32 ≠ e / 32 ∧ e % 32 ≠ 31                              -- 48
      let w2 := if partialLast then upd w1 (e / 32) (w1 (e / 32) ||| maskDown (e % 32)) else w1
      let n := if partialLast then e / 32 else e / 32 + 1                           -- ce + 1
      let w3 := fillWords w2 cs n ones                                          -- 52-53
      if cs = 0 ∧ n = b.size then some { b with arr := .full }                  -- 54-57
      else some { b with arr := .words w3 }
    else none

/-- `clearRange`, BitArray.cpp:60-82. Note the comparison `(e & 0x1F) == (s & 0x1F)` of line 67. -/
def BA.clearRange (b : BA) (s e : Nat) : Option BA := match b.arr with
  | .null => some b
  | _ =>
    if s / 32 < b.size ∧ e / 32 < b.size then
      let w0 := b.load
      let w1 := if s % 32 ≠ 0 then                                              -- 65-70
          upd w0 (s / 32) (w0 (s / 32) &&& ~~~(if e % 32 = s % 32 then maskUp (s % 32) &&& maskDown (e % 32) else maskUp (s % 32)))
        else w0
      let cs := if s % 32 ≠ 0 then s / 32 + 1 else s / 32
      let partialLast := s / 32 ≠ e / 32 ∧ e % 32 ≠ 31                              -- 72
      let w2 := if partialLast then upd w1 (e / 32) (w1 (e / 32) &&& ~~~(maskDown (e % 32))) else w1
      let n := if partialLast then e / 32 else e / 32 + 1
      let w3 := fillWords w2 cs n 0                                             -- 76-77
      if cs = 0 ∧ n = b.size then some { b with arr := .null }                  -- 78-81
      else some { b with arr := .words w3 }
    else none

/-- the pointer argument of the class operations: null or an array of the same size -/
def argArr (a : Option BA) : Arr := match a with
  | none => .null
  | some b => b.arr

/-- `addBitArray(BitArray*)`, BitArray.cpp:83-95. -/
def BA.addBA (b : BA) (a : Option BA) : BA :=
  match b.arr, argArr a with
  | .full, _ => b
  | _, .null => b
  | _, .full => { b with arr := .full }
  | _, .words v => { b with arr := .words fun i => b.load i ||| v i }

/-- `clearBitArray(BitArray*)`, BitArray.cpp:97-109. -/
def BA.clearBA (b : BA) (a : Option BA) : BA :=
  match b.arr, argArr a with
  | .null, _ => b
  | _, .null => b
  | _, .full => { b with arr := .null }
  | _, .words v => { b with arr := .words fun i => b.load i &&& ~~~(v i) }

/-- `intersectBitArray`, BitArray.cpp:111-123; `delete[] array` of the sentinel is undefined (115). -/
def BA.intersectBA (b : BA) (a : Option BA) : Option BA :=
  match b.arr, argArr a with
  | .null, _ => some b
  | .full, .null => none
  | .words _, .null => some { b with arr := .null }
  | _, .full => some b
  | _, .words v => some { b with arr := .words fun i => b.load i &&& v i }

/-- `getBit`, BitArray.cpp:141-146. -/
def BA.getBit (b : BA) (pos : Nat) : Bool := match b.arr with
  | .null => false
  | .full => true
  | .words w => (w (pos / 32) &&& (1#32 <<< (pos % 32))) != 0

/-! ## CharacterClass -/

/-- `infoIndex` (CharacterClass.h:19): 256 pages, null pages are `none`. -/
abbrev CC := Nat → Option BA

/-- Constructor, CharacterClass.cpp:10-14: all pages null. -/
def CC.empty : CC := fun _ => none

/-- `new BitArray()` when the page is missing. -/
def page (p : Option BA) : BA := p.getD (BA.new 256)

def CC.set (c : CC) (i : Nat) (b : BA) : CC := fun j => if j = i then some b else c j

/-- page index `(c >> 8) & 0xFF` -/
def pageOf (ch : Nat) : Nat := (ch / 256) % 256

/-- `addChar`, CharacterClass.cpp:193-201. -/
def CC.addChar (c : CC) (ch : Nat) : Option CC :=
  ((page (c (pageOf ch))).setBit (ch % 256)).map (c.set (pageOf ch))

/-- `clearChar`, CharacterClass.cpp:208-213. -/
def CC.clearChar (c : CC) (ch : Nat) : Option CC := match c (pageOf ch) with
  | none => some c
  | some b => (b.clearBit (ch % 256)).map (c.set (pageOf ch))

/-- the page loop of `addRange`/`clearRange` (CharacterClass.cpp:215-229); `k` pages starting with `ti` -/
def pagesLoop (f : BA → Nat → Nat → Option BA) (s e : Nat) (c : CC) (ti : Nat) : Nat → Option CC
  | 0 => some c
  | k + 1 =>
    match f (page (c ti)) (if ti = s / 256 then s % 256 else 0) (if ti = e / 256 then e % 256 else 255) with
    | none => none
    | some b => pagesLoop f s e (c.set ti b) (ti + 1) k

/-- `addRange`, CharacterClass.cpp:215-221. -/
def CC.addRange (c : CC) (s e : Nat) : Option CC :=
  pagesLoop BA.addRange s e c (pageOf s) (pageOf e + 1 - pageOf s)

/-- `clearRange`, CharacterClass.cpp:223-229. -/
def CC.clearRange (c : CC) (s e : Nat) : Option CC :=
  pagesLoop BA.clearRange s e c (pageOf s) (pageOf e + 1 - pageOf s)

/-- `addClass`, CharacterClass.cpp:289-295 -/
def CC.addClass (c d : CC) : CC := fun p => if p < 256 then some ((page (c p)).addBA (d p)) else c p

/-- `clearClass`, CharacterClass.cpp:305-310. -/
def CC.clearClass (c d : CC) : CC := fun p => if p < 256 then (c p).map (fun b => b.clearBA (d p)) else c p

/-- loop of `intersectClass`, CharacterClass.cpp:297-303: pages `p ..` for `k` pages. -/
def interLoop (d : CC) (c : CC) (p : Nat) : Nat → Option CC
  | 0 => some c
  | k + 1 => match c p with
    | none => interLoop d c (p + 1) k
    | some b => match b.intersectBA (d p) with
      | none => none
      | some b' => interLoop d (c.set p b') (p + 1) k

/-- `intersectClass`, CharacterClass.cpp:297-303. -/
def CC.intersectClass (c d : CC) : Option CC := interLoop d c 0 256

/-- `fill`, CharacterClass.cpp:321-327. -/
def CC.fill (c : CC) : Option CC := pagesLoop (fun b _ _ => b.addRange 0 255) 0 0 c 0 256

/-- `inClass`, CharacterClass.cpp:329-334. -/
def CC.inClass (c : CC) (ch : Nat) : Bool := match c (pageOf ch) with
  | none => false
  | some b => b.getBit (ch % 256)

end Verif.CharClass
