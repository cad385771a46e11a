import Verif.RegExp.Model

/-!
# Model of the compiler of regular expressions

Models, from /repo/src/colorer: cregexp/cregexp.cpp `setRELow` 78-138, `setStructs` 173-666, `getBracketNo` 1519-1525;
strings/icu/UnicodeTools.cpp (`getHex` 4-15, `getHexNumber` 17-32, `getNumber` 34-48, `getEscapedChar` 50-82, `getCurlyContent` 84-101);
strings/icu/UStr.cpp `createCharClass` 51-221. (ICU strings, the default of the build; CHECKNAMES off, cregexp.h:21.)

What is abstracted:
* A position `i` in `expr` is the rest of the text from it on. Reading behind the end gives 0xFFFF (icu::UnicodeString::charAt).
* The nodes of one call of setStructs are a list; an operator that has no operand yet has an empty body. The second loop (560-632) is
  `words` and `fix`, the third (634-662) is `gen`.
* Every error of setStructs leaves `retPos` different from the length, so setRELow reports EBRACKETS for it: errors of setStructs are not
  told apart.
* `int` is unbounded (getNumber, getHexNumber). Sets of characters are predicates; properties of characters are parameters.
-/
namespace Verif.RegExp

/-- `Character`, ICU's character functions and sets, and what else the compiler reads: the names of `backRE` (none: not set), the flags
`i` and `x` -/
structure Ctx where
  isSpace : Nat → Bool
  graph   : Nat → Bool
  lower   : Nat → Nat
  upper   : Nat → Nat
  title   : Nat → Nat
  /-- `\p{name}` -/
  categ   : Text → Nat → Bool
  setNd   : Nat → Bool
  setL    : Nat → Bool
  setZ    : Nat → Bool
  setLl   : Nat → Bool
  setLu   : Nat → Bool
  caseEq  : Text → Text → Bool
  back    : Option (List Text)
  ignoreCase : Bool
  extend  : Bool

/-- `BAD_WCHAR`, and what ICU gives for a place behind the end -/
def BAD : Nat := 0xFFFF

/-- `expr[i + k]`, `t` = the text from `i` on -/
def ch (t : Text) (k : Nat) : Nat := t.getD k BAD

/-- `getHex`; none = -1 -/
def getHex (x : Ctx) (c : Nat) : Option Nat :=
  let d := (x.lower c + 65536 - 48) % 65536
  if 49 ≤ d ∧ d ≤ 54 then some (d - 39) else if d > 9 then none else some d

/-- `getHexNumber` -/
def getHexNumber (x : Ctx) (t : Text) : Option Nat :=
  t.foldl (fun a c => match a, getHex x c with | some n, some d => some (16 * n + d) | _, _ => none) (some 0)

def isDigitC (c : Nat) : Bool := decide (48 ≤ c ∧ c ≤ 57)

/-- `getNumber` -/
def getNumber (t : Text) : Option Nat :=
  if t.all isDigitC then some (t.foldl (fun a c => 10 * a + (c - 48)) 0) else none

/-- the loop of getCurlyContent: the text up to '}' -/
def curlyLoop (x : Ctx) : Text → Option Text
  | [] => none
  | c :: r => if c = 125 then some [] else if x.graph c then (curlyLoop x r).map (c :: ·) else none

/-- `getCurlyContent(t, 0)` -/
def getCurly (x : Ctx) (t : Text) : Option Text := if ch t 0 = 123 then curlyLoop x (t.drop 1) else none

/-- `getEscapedChar(t, 0, retPos)`: the character (`BAD`: none) and `retPos` -/
def getEscaped (x : Ctx) (t : Text) : Nat × Nat :=
  if ch t 0 = 92 then
    if ch t 1 = 120 then
      if ch t 2 = 123 then
        match getCurly x (t.drop 2) with
        | none => (BAD, 1)
        | some v => match getHexNumber x v with
          | none => (BAD, 1)
          | some n => if n > 0xFFFF then (BAD, 1) else (n, v.length + 3)
      else match getHexNumber x ((t.drop 2).take 2) with
        | none => (BAD, 1)
        | some n => if t.length ≤ 2 then (BAD, 1) else (n, 3)
    else (ch t 1, 1)
  else (ch t 0, 0)

/-! ## Character classes -/

abbrev Cls := Nat → Bool

def Cls.addCh (s : Cls) (c : Nat) : Cls := fun d => s d || d = c
def Cls.union (s t : Cls) : Cls := fun d => s d || t d
def Cls.minus (s t : Cls) : Cls := fun d => s d && !t d
def Cls.inter (s t : Cls) : Cls := fun d => s d && t d
/-- `UnicodeSet::add(start, end)`: nothing if they are in the wrong order -/
def Cls.range (s : Cls) (a b : Nat) : Cls := fun d => s d || (decide (a ≤ d) && decide (d ≤ b))

/-- `cc->add(u_tolower(c))` etc. -/
def Cls.addCases (x : Ctx) (s : Cls) (ic : Bool) (c : Nat) : Cls :=
  if ic then ((s.addCh (x.lower c)).addCh (x.upper c)).addCh (x.title c) else s

/-- the white space of `\s` in a class -/
def spaceSet (x : Ctx) : Cls := fun d => x.setZ d || d = 9 || d = 10 || d = 13 || d = 12
def wordSet (x : Ctx) : Cls := fun d => x.setL d || x.setNd d || d = 95

/-- `\d` … `\u` in a class (105-146): what becomes of the set. `\W` takes '_' and `\S` takes TAB, LF, CR, FF out of the whole set
(`cc->addAll(…).remove("_")`). -/
def escClass (x : Ctx) (ic : Bool) (c : Nat) : Option (Cls → Cls) :=
  if c = 100 then some fun s => s.union x.setNd
  else if c = 68 then some fun s => s.union fun d => !x.setNd d
  else if c = 119 then some fun s => s.union (wordSet x)
  else if c = 87 then some fun s => (s.union fun d => !x.setNd d && !x.setL d).minus fun d => d = 95
  else if c = 115 then some fun s => s.union (spaceSet x)
  else if c = 83 then some fun s => (s.union fun d => !x.setZ d).minus fun d => d = 9 || d = 10 || d = 13 || d = 12
  else if c = 108 then some fun s => s.union fun d => x.setLl d || (ic && x.setLu d)
  else if c = 117 then some fun s => s.union fun d => x.setLu d || (ic && x.setLl d)
  else none

/-- what the loop of createCharClass does at a place: ends the class, fails, goes on (new set, `prev_char`, rest), or has a class inside
(what to do with it, ignore case, the text from its '[' on) -/
inductive ClsStep where
  | stop (rest : Text)
  | bad
  | next (s : Cls) (prev : Nat) (rest : Text)
  | inner (f : Cls → Cls) (ic : Bool) (rest : Text)

/-- one round of the loop of createCharClass (74-218) at the character `c` with `r` behind it -/
def clsStep (x : Ctx) (ic : Bool) (s : Cls) (prev : Nat) (c : Nat) (r : Text) : ClsStep :=
  if c = 93 then .stop r
  else if c = 123 then
    match getCurly x (c :: r) with
    | none => .bad
    | some v => .next (if v.isEmpty then s else s.union (x.categ v)) BAD (r.drop (v.length + 1))
  else if c = 92 ∧ r ≠ [] then
    match escClass x ic (ch r 0) with
    | some k => .next (k s) BAD (r.drop 1)
    | none =>
      let e := getEscaped x (c :: r)
      if e.1 = BAD then .next s BAD (r.drop 1)
      else .next ((s.addCh e.1).addCases x ic e.1) e.1 (r.drop e.2)
  else if c = 45 ∧ ch r 0 = 91 ∧ r ≠ [] then .inner (fun t => s.minus t) false r
  else if c = 38 ∧ ch r 0 = 38 ∧ ch r 1 = 91 ∧ 1 < r.length then .inner (fun t => s.inter t) false (r.drop 1)
  else if c = 91 then .inner (fun t => s.union t) ic (c :: r)
  else if c = 45 ∧ prev ≠ BAD ∧ r ≠ [] ∧ ch r 0 ≠ 93 then
    let e := getEscaped x r
    if e.1 = BAD then .bad else .next (s.range prev e.1) prev (r.drop (e.2 + 1))
  else .next ((s.addCh c).addCases x ic prev) c r

/-- the beginning of a class behind its '[': `inverse`, and where the loop begins (69-73) -/
def clsBegin (t : Text) : Bool × Text := if ch t 0 = 94 then (true, t.drop 1) else (false, t)

/-- the loop of createCharClass with the nested calls; the result: the set and the text behind ']'. `none` inside: a failure; `none`
outside: not enough rounds. -/
def clsLoop (x : Ctx) : Nat → Bool → Cls → Nat → Text → Option (Option (Cls × Text))
  | 0, _, _, _, _ => none
  | _ + 1, _, _, _, [] => some none
  | f + 1, ic, s, prev, c :: r =>
    match clsStep x ic s prev c r with
    | .stop rest => some (some (s, rest))
    | .bad => some none
    | .next s' prev' rest => clsLoop x f ic s' prev' rest
    | .inner g ic' rest =>
      match clsLoop x f ic' (fun _ => false) BAD (clsBegin (rest.drop 1)).2 with
      | none => none
      | some none => some none
      | some (some (k, rest')) => clsLoop x f ic (g (if (clsBegin (rest.drop 1)).1 then fun d => !k d else k)) BAD rest'

/-- `createCharClass(t, 0, retPos, ic)` for a text that begins with '[' -/
def createCharClass (x : Ctx) (ic : Bool) (t : Text) : Option (Option (Cls × Text)) :=
  match clsLoop x (t.length + 1) ic (fun _ => false) BAD (clsBegin (t.drop 1)).2 with
  | some (some (k, rest)) => some (some (if (clsBegin (t.drop 1)).1 then fun d => !k d else k, rest))
  | r => r

/-! ## Elements -/

/-- `cMatch` and `brnames` (`cnMatch` is their number) -/
structure CState where
  cMatch : Nat
  names  : List Text
deriving DecidableEq, Repr

/-- an element of the text: a node with the text behind it, or the beginning of a bracket with the text behind it -/
inductive Tok where
  | leaf (n : Node) (rest : Text)
  | opens (mk : List Node → Node) (st : CState) (rest : Text)
  | bad

/-- `MATCHES_NUM`, `NAMED_MATCHES_NUM` -/
def MATCHES : Nat := 16

/-- `getBracketNo` -/
def bracketNo (x : Ctx) (names : List Text) (name : Text) : Option Nat := names.findIdx? fun n => x.caseEq name n

/-- `\d` … `\M` (202-265) -/
def escLetter (c : Nat) : Option Node :=
  if c = 100 then some (.msym .digit)
  else if c = 68 then some (.msym .ndigit)
  else if c = 119 then some (.msym .word)
  else if c = 87 then some (.msym .nword)
  else if c = 115 then some (.msym .space)
  else if c = 83 then some (.msym .nspace)
  else if c = 117 then some (.msym .upper)
  else if c = 108 then some (.msym .lower)
  else if c = 116 then some (.symb 9)
  else if c = 110 then some (.symb 10)
  else if c = 114 then some (.symb 13)
  else if c = 98 then some (.msym .wbound)
  else if c = 66 then some (.msym .nwbound)
  else if c = 99 then some (.msym .preNW)
  else if c = 109 then some (.msym .start)
  else if c = 77 then some (.msym .stop)
  else none

/-- `\y`, `\Y` (269-290); `r` = the text from the letter on -/
def escTrace (x : Ctx) (low : Bool) (r : Text) : Tok :=
  match getHex x (ch r 1) with
  | some n => .leaf (if low then .bkTrace n else .bkTraceN n) (r.drop 2)
  | none =>
    match getCurly x (r.drop 1), x.back with
    | some name, some names => match bracketNo x names name with
      | some n => .leaf (if low then .bkTraceName n else .bkTraceNName n) (r.drop (name.length + 3))
      | none => .bad
    | _, _ => .bad

/-- `\p{name}` (294-313) -/
def escName (x : Ctx) (st : CState) (r : Text) : Tok :=
  match getCurly x (r.drop 1) with
  | some name => match bracketNo x st.names name with
    | some n => .leaf (.bkBrackName n) (r.drop (name.length + 3))
    | none => .bad
  | none => .bad

/-- the default (314-325): `\N` or a character -/
def escOther (x : Ctx) (r : Text) : Tok :=
  match getHex x (ch r 0) with
  | some n => if n ≤ 9 then .leaf (.bkBrack n) (r.drop 1) else escChar
  | none => escChar
where
  escChar : Tok :=
    let e := getEscaped x (92 :: r)
    if e.1 = BAD then .bad else .leaf (.symb e.1) (r.drop e.2)

/-- an escape (200-329); `r` = the text behind the backslash -/
def escTok (x : Ctx) (st : CState) (r : Text) : Tok :=
  match escLetter (ch r 0) with
  | some n => .leaf n (r.drop 1)
  | none =>
    if ch r 0 = 121 then escTrace x true r
    else if ch r 0 = 89 then escTrace x false r
    else if ch r 0 = 112 then escName x st r
    else escOther x r

/-- `?` and what begins with it (356-402, 415-420) -/
def questTok (r : Text) : Tok :=
  if ch r 0 = 35 ∧ isDigitC (ch r 1) then .leaf (.behind (ch r 1 - 48) []) (r.drop 2)
  else if ch r 0 = 126 ∧ isDigitC (ch r 1) then .leaf (.nbehind (ch r 1 - 48) []) (r.drop 2)
  else if ch r 0 = 61 then .leaf (.ahead []) (r.drop 1)
  else if ch r 0 = 33 then .leaf (.nahead []) (r.drop 1)
  else if ch r 0 = 63 then .leaf (.ngRangeNM 0 1 []) (r.drop 1)
  else .leaf (.rangeNM 0 1 []) r

/-- `*`, `+` (371-382, 405-414) -/
def starTok (s : Int) (r : Text) : Tok := if ch r 0 = 63 then .leaf (.ngRangeN s []) (r.drop 1) else .leaf (.rangeN s []) r

/-- -1 for no number -/
def orMinus (n : Option Nat) : Int := match n with | some n => n | none => -1

/-- `{n,m}` (427-471): `content` = the text between the braces, `lzy` = a `?` behind them; the last comma counts -/
def bracesNode (content : Text) (lzy : Bool) : Option Node :=
  match content.reverse.span (· ≠ 44) with
  | (de, _ :: ds) =>
    let s := orMinus (getNumber ds.reverse)
    if de.isEmpty then some (if lzy then .ngRangeN s [] else .rangeN s [])
    else match getNumber de.reverse with
      | none => none
      | some e => some (if lzy then .ngRangeNM s e [] else .rangeNM s e [])
  | (_, []) => match getNumber content with
    | none => none
    | some n => some (if lzy then .ngRangeNM n n [] else .rangeNM n n [])

def bracesTok (r : Text) : Tok :=
  match r.span (· ≠ 125) with
  | (_, []) => .bad
  | (content, _ :: rest) => match bracesNode content (decide (ch rest 0 = 63)) with
    | none => .bad
    | some n => .leaf n (if ch rest 0 = 63 then rest.drop 1 else rest)

/-- `(` (473-531) -/
def openTok (x : Ctx) (st : CState) (r : Text) : Tok :=
  if ch r 0 = 63 ∧ ch r 1 = 58 then .opens (.named none) st (r.drop 2)
  else if ch r 0 = 63 ∧ ch r 1 = 123 then
    match getCurly x (r.drop 1) with
    | none => .bad
    | some name =>
      if name.isEmpty then .opens (.named none) st (r.drop (name.length + 3))
      else if st.names.length < MATCHES then .opens (.named (some st.names.length)) { st with names := st.names ++ [name] } (r.drop (name.length + 3))
      else .opens (.named (some 0)) st (r.drop (name.length + 3))
  else if st.cMatch < MATCHES then .opens (.brackets (some st.cMatch)) { st with cMatch := st.cMatch + 1 } r
  else .opens (.brackets (some 0)) st r

/-- `[` (546-555) -/
def classTok (x : Ctx) (t : Text) : Tok :=
  match createCharClass x x.ignoreCase t with
  | some (some (k, rest)) => .leaf (.enum k) rest
  | _ => .bad

/-- the body of the loop (198-558) for the element that begins with `c` -/
def token (x : Ctx) (st : CState) (c : Nat) (r : Text) : Tok :=
  if c = 92 then escTok x st r
  else if c = 46 then .leaf (.msym .any) r
  else if c = 94 then .leaf (.msym .sol) r
  else if c = 36 then .leaf (.msym .eol) r
  else if c = 126 then .leaf (.msym .soScheme) r
  else if c = 63 then questTok r
  else if c = 42 then starTok 0 r
  else if c = 43 then starTok 1 r
  else if c = 124 then .leaf (.or []) r
  else if c = 123 then bracesTok r
  else if c = 40 then openTok x st r
  else if c = 91 then classTok x (c :: r)
  else if c = 93 ∨ c = 125 then .bad
  else .leaf (.symb c) r

/-! ## The second and the third loop -/

/-- `op > ReBlockOps && op < ReSymbolOps` -/
def isOp : Node → Bool
  | .rangeN _ _ | .rangeNM _ _ _ | .ngRangeN _ _ | .ngRangeNM _ _ _ | .or _ | .behind _ _ | .nbehind _ _ | .ahead _ | .nahead _ => true
  | _ => false

/-- the characters of the symbols a list begins with, and the rest -/
def symbols : List Node → Text × List Node
  | .symb c :: r => (c :: (symbols r).1, (symbols r).2)
  | l => ([], l)

def headOp : List Node → Bool
  | n :: _ => isOp n
  | [] => false

/-- how many symbols are put together (563-572) -/
def wordSize (l : List Node) : Nat := if headOp (symbols l).2 then (symbols l).1.length - 1 else (symbols l).1.length

/-- words from symbols (561-593); `n` rounds -/
def words : Nat → List Node → List Node
  | 0, l => l
  | _ + 1, [] => []
  | n + 1, a :: r =>
    if 1 < wordSize (a :: r) then .word ((symbols (a :: r)).1.take (wordSize (a :: r))) :: words n ((a :: r).drop (wordSize (a :: r)))
    else a :: words n r

/-- empty alternatives (595-631); `first`: no `prev` -/
def fix : Bool → List Node → List Node
  | _, [] => []
  | first, n :: r =>
    (if isOr n && first then [.empty] else []) ++ n :: (if isOr n && (r.isEmpty || headOp r) then [.empty] else []) ++ fix false r

def withBody : Node → List Node → Node
  | .or _, b => .or b
  | .rangeN s _, b => .rangeN s b
  | .rangeNM s e _, b => .rangeNM s e b
  | .ngRangeN s _, b => .ngRangeN s b
  | .ngRangeNM s e _, b => .ngRangeNM s e b
  | .behind n _, b => .behind n b
  | .nbehind n _, b => .nbehind n b
  | .ahead _, b => .ahead b
  | .nahead _, b => .nahead b
  | n, _ => n

/-- operands (634-662): `acc` = the nodes before, the last first. `|` takes all back to the `|` before it. -/
def gen : List Node → List Node → Option (List Node)
  | acc, [] => some acc.reverse
  | acc, n :: r =>
    if isOp n then
      match acc with
      | [] => none
      | a :: acc' =>
        if isOr n then
          gen (withBody n ((acc'.takeWhile fun k => !isOr k).reverse ++ [a]) :: acc'.dropWhile fun k => !isOr k) r
        else gen (withBody n [a] :: acc') r
    else gen (n :: acc) r

/-- the nodes of a call of setStructs on `t`: the node that was there before it (ReEmpty) is used for an element at position 0 -/
def flatOf (x : Ctx) (t : Text) (l : List Node) : List Node :=
  match t with
  | [] => [.empty]
  | c :: _ => if (x.extend && x.isSpace c) || c = 41 then .empty :: l else l

def finish (x : Ctx) (t : Text) (l : List Node) : Option (List Node) :=
  gen [] (fix true (words (flatOf x t l).length (flatOf x t l)))

/-- how the first loop ends: not enough rounds, an error, the nodes (with the text behind ')' if it stopped there) -/
inductive Scan where
  | fuel | bad | ok (l : List Node) (st : CState) (rest : Option Text)

def Scan.push (n : Node) : Scan → Scan
  | .ok l st rest => .ok (n :: l) st rest
  | r => r

/-- the first loop (182-558), with the nested calls -/
def scan (x : Ctx) : Nat → CState → Text → Scan
  | 0, _, _ => .fuel
  | _ + 1, st, [] => .ok [] st none
  | f + 1, st, c :: r =>
    if x.extend && x.isSpace c then scan x f st r
    else if c = 41 then .ok [] st (some r)
    else match token x st c r with
      | .bad => .bad
      | .leaf n rest => (scan x f st rest).push n
      | .opens mk st' rest =>
        match scan x f st' rest with
        | .fuel => .fuel
        | .bad => .bad
        | .ok _ _ none => .bad
        | .ok l st2 (some rest2) => match finish x rest l with
          | none => .bad
          | some body => (scan x f st2 rest2).push (mk body)

/-! ## The expression -/

/-- `EError` -/
inductive CErr where
  | error | syntax | brackets
deriving DecidableEq, Repr

/-- the text before the last '/', and behind it (102-117) -/
def lastSlash (t : Text) : Option (Text × Text) :=
  match t.reverse.span (· ≠ 47) with
  | (fl, _ :: b) => some (b.reverse, fl.reverse)
  | (_, []) => none

/-- `setRE`; `x.ignoreCase`, `x.extend` are not read. The outer `none`: not enough rounds. -/
def setRE (x : Ctx) (t : Text) : Option (Except CErr Expr) :=
  match t with
  | [] => some (.error .error)
  | _ => match t.dropWhile x.isSpace with
    | 47 :: t2 => match lastSlash t2 with
      | none => some (.error .syntax)
      | some (b, fl) =>
        let y : Ctx := { x with ignoreCase := fl.contains 105, extend := fl.contains 120 }
        match scan y (b.length + 1) ⟨1, []⟩ b with
        | .fuel => none
        | .bad => some (.error .brackets)
        | .ok _ _ (some _) => some (.error .brackets)
        | .ok l st none => match finish y b l with
          | none => some (.error .brackets)
          | some body => some (.ok ⟨body, st.cMatch, st.names.length, ⟨fl.contains 105, fl.contains 115, fl.contains 109⟩, true⟩)
    | _ => some (.error .syntax)

end Verif.RegExp
