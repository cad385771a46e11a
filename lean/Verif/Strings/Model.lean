/-!
# Model of the library's own string class

Models /repo/src/colorer/strings/legacy/UnicodeString.cpp: `construct` (77-86), `trim` (101-121), `setLength` (151-165),
`append` (167-199), `operator=` (206-213), `compare` (215-233), `operator==`/`!=` (235-253), `equalsIgnoreCase` (262-271),
`caseCompare` (273-291), `indexOf` (293-318), `indexOfIgnoreCase` (320-336), `lastIndexOf` (338-348), `startsWith` (350-361),
`hashCode` (363-368), `findAndReplace` (442-467), `operator<` (478-481).

Characters are numbers. For the comparing and searching functions a string is the list of its characters (`wstr[0..len)`);
for the building functions the buffer is modelled too: `buf` is the allocated array (its length is the size of the
allocation), `len` and `alloc` are the fields. An access outside the array is the result `none`. `int32_t` is unbounded; the
number of characters is below 2^30.
-/
namespace Verif.Strings

abbrev Str := List Nat

/-! ## Comparing -/

/-- `compare` (215-233): the loop over the common length, then the length test -/
def compare : Str → Str → Int
  | [], [] => 0
  | [], _ :: _ => -1                                                    -- i < sl
  | _ :: _, [] => 1                                                     -- i < l
  | a :: r, b :: t =>
    let cmp : Int := (b : Int) - (a : Int)
    if cmp > 0 then -1 else if cmp < 0 then 1 else compare r t

/-- `operator==` (235-243): lengths, then characters -/
def eq (a b : Str) : Bool :=
  if b.length ≠ a.length then false else (List.range b.length).all fun i => decide (b[i]? = a[i]?)

/-- `operator!=` (245-253) -/
def ne (a b : Str) : Bool :=
  if b.length ≠ a.length then true else (List.range b.length).any fun i => decide (b[i]? ≠ a[i]?)

/-- `operator<` (478-481) -/
def lt (a b : Str) : Bool := decide (compare a b = -1)

/-- `caseCompare` (273-291); `low` is `Character::toLowerCase` -/
def caseCompare (low : Nat → Nat) : Str → Str → Int
  | [], [] => 0
  | [], _ :: _ => -1
  | _ :: _, [] => 1
  | a :: r, b :: t =>
    let cmp : Int := (low b : Int) - (low a : Int)
    if cmp > 0 then -1 else if cmp < 0 then 1 else caseCompare low r t

/-- `equalsIgnoreCase` (262-271) for a non-null argument -/
def equalsIgnoreCase (low up : Nat → Nat) (a b : Str) : Bool :=
  if b.length ≠ a.length then false
  else (List.range b.length).all fun i =>
    !(decide ((b[i]?).map low ≠ (a[i]?).map low) || decide ((b[i]?).map up ≠ (a[i]?).map up))

/-- `hashCode` (363-368): `size_t` arithmetic -/
def hashCode (s : Str) : UInt64 := s.foldl (fun hc c => 31 * hc + UInt64.ofNat c) 0

/-! ## Searching -/

/-- the inner loop of `indexOf` (300-304): do the characters of `p` stand at `idx`? -/
def matchAt (s p : Str) (idx : Nat) : Bool := (List.range p.length).all fun j => decide (p[j]? = s[idx + j]?)

/-- `indexOf(str, pos)` (293-310) for `0 ≤ pos`; `none` is `npos` -/
def indexOf (s p : Str) (pos : Nat) : Option Nat :=
  if s.length < p.length then none
  else (List.range' pos (s.length - p.length + 1 - pos)).find? (matchAt s p)

/-- the loop of `indexOf(wc, pos)` (314-316) -/
def scan (c : Nat) : Str → Nat → Nat
  | [], i => i
  | x :: r, i => if x ≠ c then scan c r (i + 1) else i

/-- `indexOf(wc, pos)` (312-318) for `0 ≤ pos`. Note: for `pos` beyond the end the loop does not run and `pos` is returned. -/
def indexOfChar (s : Str) (c pos : Nat) : Option Nat :=
  let idx := if pos < s.length then scan c (s.drop pos) pos else pos
  if idx = s.length then none else some idx

/-- `lastIndexOf(wc, pos)` (338-348); `none` for `pos` is `npos` -/
def lastIndexOf (s : Str) (c : Nat) (pos : Option Nat) : Option Nat :=
  let pos := pos.getD s.length
  if pos > s.length then none
  else
    let rec go : Nat → Option Nat
      | 0 => none
      | i + 1 => if s[i]? ≠ some c then go i else some i
    go pos

/-- `startsWith` (350-361) -/
def startsWith (s p : Str) (pos : Nat) : Bool :=
  (List.range p.length).all fun idx => if idx + pos ≥ s.length then false else decide (p[idx]? = s[pos + idx]?)

/-- `UnicodeString(name, s, l)` (77-86): `none` when it throws or reads outside the source -/
def substr (s : Str) (start len : Nat) : Option Str :=
  if start + len ≤ s.length then some ((s.drop start).take len) else none

/-- the loop of `findAndReplace` (449-462): `epos`, `copypos`, the text built so far. `none`: the loop has not ended. -/
def replaceLoop (s p new : Str) : Nat → Nat → Nat → Str → Option Str
  | 0, _, _, _ => none
  | fuel + 1, epos, copypos, out => match indexOf s p epos with
    | none => if s.length > copypos then (substr s copypos (s.length - copypos)).map (out ++ ·) else some out
    | some e => (substr s copypos (e - copypos)).bind fun x =>
        replaceLoop s p new fuel (e + p.length) (e + p.length) (out ++ x ++ new)

/-- `findAndReplace` (442-467) -/
def findAndReplace (fuel : Nat) (s p new : Str) : Option Str := replaceLoop s p new fuel 0 0 []

/-! ## Building -/

/-- the object: `wstr`, `len`, `alloc` (UnicodeString.h) -/
structure Obj where
  buf   : List Nat
  len   : Nat
  alloc : Nat
deriving DecidableEq, Repr

/-- the characters of the string -/
def Obj.text (o : Obj) : Str := o.buf.take o.len

/-- an empty string -/
def Obj.empty : Obj := ⟨[], 0, 0⟩

/-- `wstr[i] = c` -/
def Obj.write (o : Obj) (i c : Nat) : Option Obj := if i < o.buf.length then some { o with buf := o.buf.set i c } else none
/-- `wstr[i]` -/
def Obj.read (o : Obj) (i : Nat) : Option Nat := o.buf[i]?

/-- `construct(&cstring, 0, npos)` (77-86), i.e. copying a whole string into a new array of its length -/
def Obj.assign (src : Obj) : Option Obj :=
  if src.len ≤ src.buf.length then some ⟨src.buf.take src.len, src.len, src.len⟩ else none

/-- copy the first `n` characters of `o` into a new zeroed array of `size` (`make_unique` value-initialises) -/
def Obj.grow (o : Obj) (size n : Nat) : Option Obj :=
  if n ≤ o.buf.length ∧ n ≤ size then some { o with buf := o.buf.take n ++ List.replicate (size - n) 0, alloc := size } else none

/-- `setLength` (151-165) -/
def Obj.setLength (o : Obj) (n : Nat) : Option Obj :=
  if n > o.alloc then (o.grow (n * 2) (min o.len n)).map fun o => { o with len := n } else some { o with len := n }

/-- `append(wchar)` (190-195) -/
def Obj.appendChar (o : Obj) (c : Nat) : Option Obj := (o.setLength (o.len + 1)).bind fun o => o.write (o.len - 1) c

/-- the copy loop of `append` (184-186): `src` is another string -/
def copyLoop (src : Obj) (start base : Nat) : Nat → Nat → Obj → Option Obj
  | 0, _, o => some o
  | n + 1, i, o => (src.read (start + i - base)).bind fun c => (o.write i c).bind fun o => copyLoop src start base n (i + 1) o

/-- `append(string, start, maxlen)` (172-188) of another string; `maxlen = none` is INT32_MAX -/
def Obj.append (o src : Obj) (start : Nat) (maxlen : Option Nat) : Option Obj :=
  let newLen := o.len + min (maxlen.getD src.len) src.len
  (if o.alloc < newLen then o.grow (newLen * 2) o.len else some o).bind fun o =>
    (copyLoop src start o.len (newLen - o.len) o.len o).map fun o => { o with len := newLen }

/-- `trim` (101-121); `ws` is `Character::isWhitespace` -/
def trim (ws : Nat → Bool) (s : Str) : Str :=
  let left := (s.takeWhile ws).length
  let right : Int := (s.length : Int) - 1 - (s.reverse.takeWhile ws).length
  let newLength : Int := if (left : Int) < right then right - left + 1 else 0
  (s.drop left).take newLength.toNat

/-- operations that build a string -/
inductive BOp where
  | appendChar (c : Nat)
  | append (s : Str)
  | appendPart (s : Str) (maxlen : Nat)      -- append(s, 0, maxlen)
  | setLength (n : Nat)
  | assign (s : Str)
  | trim
deriving DecidableEq, Repr

/-- a string object holding the text `s`, freshly constructed -/
def Obj.ofStr (s : Str) : Obj := ⟨s, s.length, s.length⟩

def Obj.step (ws : Nat → Bool) (o : Obj) : BOp → Option Obj
  | .appendChar c => o.appendChar c
  | .append s => o.append (Obj.ofStr s) 0 none
  | .appendPart s n => o.append (Obj.ofStr s) 0 (some n)
  | .setLength n => o.setLength n
  | .assign s => (Obj.ofStr s).assign
  | .trim => if o.len ≤ o.buf.length then
      some ⟨Strings.trim ws o.text, (Strings.trim ws o.text).length, (Strings.trim ws o.text).length⟩ else none

def Obj.run (ws : Nat → Bool) (o : Obj) : List BOp → Option Obj
  | [] => some o
  | a :: r => (o.step ws a).bind fun o => Obj.run ws o r

end Verif.Strings
