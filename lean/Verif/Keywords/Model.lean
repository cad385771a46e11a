/-!
# Model of keyword lists

Models `parsers/KeywordList.cpp` and `TextParser::Impl::searchKW`
(`parsers/TextParserImpl.cpp:197-271`) of /repo/src/colorer.

Characters are numbers. `fold` is the per-character folding used by the comparison: the identity when
`matchCase`, `Character::toLowerCase` otherwise (strings/legacy/UnicodeString.cpp:212-229, 269-286).
Simplification: ICU's full case folding (length changing) is not modelled.
-/
namespace Verif.Keywords

/-- `UnicodeString::compare` / `caseCompare` (strings/legacy/UnicodeString.cpp:212-229, 269-286) of the already
folded strings: -1, 0 or 1. -/
def cmp : List Nat → List Nat → Int
  | [], [] => 0
  | [], _ :: _ => -1
  | _ :: _, [] => 1
  | a :: as, b :: bs => if b > a then -1 else if b < a then 1 else cmp as bs

/-- `struct KeywordInfo` (parsers/KeywordList.h:13-20); `shorter` is `indexOfShorter`, `none` for -1. -/
structure KW where
  word    : List Nat
  region  : Option Nat
  sym     : Bool
  shorter : Option Nat
deriving DecidableEq, Repr

/-- Inner loop of `substrIndex` (KeywordList.cpp:47-58): `ii` runs from the given start down to 1 - index 0 is
never examined because the loop condition is `ii != 0`. -/
def scan (l : List KW) (wi : List Nat) : Nat → Option Nat
  | 0 => none
  | ii + 1 =>
    match l[ii + 1]? with
    | none => none
    | some k =>
      if k.word.head? ≠ wi.head? then none                                       -- 48-50
      else if k.word.length < wi.length ∧ cmp (wi.take k.word.length) k.word = 0 -- 51-53
      then some (ii + 1)
      else scan l wi ii

/-- `KeywordList::substrIndex` (KeywordList.cpp:44-60). The outer loop runs over `count-1 .. 1`; each iteration only
writes `indexOfShorter` of its own element, which no iteration reads. -/
def substrIndex (l : List KW) : List KW :=
  l.mapIdx fun i k => if i = 0 then k else { k with shorter := (scan l k.word (i - 1)).or k.shorter }

/-- Word boundary parameters of a keywords node: `worddiv` (null = default rule), and
`Character::isLetterOrDigit`. -/
structure Env where
  fold    : Nat → Nat
  alnum   : Nat → Bool
  worddiv : Option (Nat → Bool)

/-- TextParserImpl.cpp:231-233 / 240-241: the negation of the per-character "bad bound" test ('_' is 95). -/
def isDiv (env : Env) (c : Nat) : Bool := match env.worddiv with
  | none => !(env.alnum c || c == 95)
  | some w => w c

/-- TextParserImpl.cpp:227-246: `!badbound`. `none` = read outside the line. -/
def boundOk (env : Env) (line : List Nat) (gx lowlen kwlen : Nat) (sym : Bool) : Option Bool :=
  if sym then some true
  else
    let left : Option Bool := if gx > 0 then (line[gx - 1]?).map (isDiv env) else some true
    let right : Option Bool := if gx + kwlen < lowlen then (line[gx + kwlen]?).map (isDiv env) else some true
    match left, right with
    | some a, some b => some (a && b)
    | some false, none => some false               -- `||` short-circuits
    | _, _ => none

inductive Res where
  | nothing
  | matched (idx len : Nat)
  | ub
  | diverge
deriving DecidableEq, Repr

/-- The loop of `searchKW` (TextParserImpl.cpp:208-270). -/
def loop (env : Env) (l : List KW) (line : List Nat) (gx lowlen : Nat) : Nat → Nat → Nat → Res
  | 0, _, _ => .diverge
  | fuel + 1, left, right =>
    let pos := left + (right - left) / 2
    match l[pos]? with
    | none => .ub
    | some k =>
      let kwlen := if lowlen < gx + k.word.length then lowlen - gx else k.word.length      -- 212-215
      let c := cmp (k.word.map env.fold) (((line.drop gx).take kwlen).map env.fold)        -- 217-224
      let next : Res :=
        if right - left = 1 then                                                           -- 255-262
          match k.shorter with
          | some s => loop env l line gx lowlen fuel s (s + 1)
          | none => .nothing
        else if c = 1 then loop env l line gx lowlen fuel left pos                         -- 263-265
        else loop env l line gx lowlen fuel pos right                                      -- 266-268
      if c = 0 ∧ right - left = 1 then                                                     -- 226-254
        match boundOk env line gx lowlen kwlen k.sym with
        | none => .ub
        | some true => .matched pos kwlen
        | some false => next
      else next

/-- The keyword list as built by the HRC loader: sorted keywords with `substrIndex` applied, the set of first
characters and the minimal length (HrcLibraryImpl.cpp:734-764). -/
structure KWList where
  kws    : List KW
  first  : Nat → Bool
  minLen : Nat

/-- `searchKW` (TextParserImpl.cpp:197-271): what is matched at `gx`, looking no further than `lowlen`. -/
def search (env : Env) (kl : KWList) (line : List Nat) (gx lowlen : Nat) : Res :=
  if kl.kws.length = 0 ∨ kl.minLen + gx > lowlen then .nothing                             -- 200-202
  else if gx < lowlen then
    match line[gx]? with                                                                   -- 204-206
    | none => .ub
    | some c => if kl.first c then loop env kl.kws line gx lowlen (2 * kl.kws.length + 1) 0 kl.kws.length else .nothing
  else loop env kl.kws line gx lowlen (2 * kl.kws.length + 1) 0 kl.kws.length

/-- `addSchemeKeyword` for a list of (word, region, symbol) declarations (HrcLibraryImpl.cpp:734-764), followed by
`sortList` and `substrIndex`. `sorted` is the result of `qsort` (a sorted permutation, see `Spec`). `title` and
`upper` are the other case variants added for ignore-case lists. -/
def build (matchCase : Bool) (lower upper title : Nat → Nat) (sorted : List KW) : KWList :=
  { kws := substrIndex sorted
    first := fun c => sorted.any fun k => match k.word.head? with
      | some h => c == h || (!matchCase && (c == lower h || c == upper h || c == title h))
      | none => false
    minLen := sorted.foldl (fun m k => min m k.word.length) 2147483647 }

end Verif.Keywords
