import Verif.RegExp.Compile
import Verif.RegExp.Lang

/-!
# The language of expressions as a user writes it (specification for C56 and C57)

`Re`: an expression, with the spelling. `Re.text`: what the user writes. `Re.L`: what it means. `Re.Ok`: that it is written so that it can be
read in one way only (e.g. `a?` is not followed by `=`, because `a?=` is a look ahead). Nothing here speaks of scanning, nodes to be put
together, or operands to be found.
-/
namespace Verif.RegExp

/-- digits of hexadecimal numbers -/
def hexVal (c : Nat) : Option Nat :=
  if 48 ≤ c ∧ c ≤ 57 then some (c - 48) else if 97 ≤ c ∧ c ≤ 102 then some (c - 87) else if 65 ≤ c ∧ c ≤ 70 then some (c - 55) else none

/-- the number written with hexadecimal digits -/
def hexNum (ds : Text) : Nat := ds.foldl (fun a c => 16 * a + (hexVal c).getD 0) 0

def isHex (c : Nat) : Bool := (hexVal c).isSome

/-- the number written with decimal digits -/
def decNum (ds : Text) : Nat := ds.foldl (fun a c => 10 * a + (c - 48)) 0

/-- ASCII letters and digits -/
def alnum (c : Nat) : Bool := decide (48 ≤ c ∧ c ≤ 57 ∨ 65 ≤ c ∧ c ≤ 90 ∨ 97 ≤ c ∧ c ≤ 122)

/-! ## Characters -/

/-- how a character is written: itself, `\c`, `\xHH`, `\x{H…}` -/
inductive Ch where
  | plain (c : Nat)
  | esc (c : Nat)
  | hex2 (a b : Nat)
  | hexN (ds : Text)

def Ch.text : Ch → Text
  | .plain c => [c]
  | .esc c => [92, c]
  | .hex2 a b => [92, 120, a, b]
  | .hexN ds => [92, 120, 123] ++ ds ++ [125]

def Ch.val : Ch → Nat
  | .plain c => c
  | .esc c => c
  | .hex2 a b => hexNum [a, b]
  | .hexN ds => hexNum ds

/-- written correctly; `special`: the characters that cannot stand for themselves -/
def Ch.Ok (special : Nat → Prop) : Ch → Prop
  | .plain c => ¬ special c ∧ c < BAD
  | .esc c => alnum c = false ∧ c < BAD
  | .hex2 a b => isHex a = true ∧ isHex b = true
  | .hexN ds => ds.all isHex = true ∧ hexNum ds < BAD

/-! ## Classes -/

/-- what stands between the brackets of a class: characters `a`, ranges `a-z`, `\d` etc., categories `{Lu}`, a `-` (the first, the last, or behind a class),
classes `[…]`, `-[…]`, `&&[…]` -/
inductive CR where
  | nil
  | ch (w : Ch) (rest : CR)
  | range (a b : Ch) (rest : CR)
  | letter (c : Nat) (rest : CR)
  | categ (name : Text) (rest : CR)
  | dash (rest : CR)
  | union (neg : Bool) (k : CR) (rest : CR)
  | minus (neg : Bool) (k : CR) (rest : CR)
  | inter (neg : Bool) (k : CR) (rest : CR)

/-- '[' or '[^' -/
def bra (neg : Bool) : Text := if neg then [91, 94] else [91]

def CR.text : CR → Text
  | .nil => []
  | .ch w r => w.text ++ r.text
  | .range a b r => a.text ++ 45 :: (b.text ++ r.text)
  | .letter c r => 92 :: c :: r.text
  | .categ n r => 123 :: (n ++ 125 :: r.text)
  | .dash r => 45 :: r.text
  | .union neg k r => bra neg ++ (k.text ++ 93 :: r.text)
  | .minus neg k r => 45 :: (bra neg ++ (k.text ++ 93 :: r.text))
  | .inter neg k r => 38 :: 38 :: (bra neg ++ (k.text ++ 93 :: r.text))

/-- the characters `\d`, `\D`, `\w`, `\W`, `\s`, `\S`, `\l`, `\u` stand for in a class -/
def letterSet (x : Ctx) (c d : Nat) : Prop :=
  if c = 100 then x.setNd d = true
  else if c = 68 then x.setNd d = false
  else if c = 119 then x.setL d = true ∨ x.setNd d = true ∨ d = 95
  else if c = 87 then ¬ (x.setL d = true ∨ x.setNd d = true ∨ d = 95)
  else if c = 115 then x.setZ d = true ∨ d ∈ [9, 10, 13, 12]
  else if c = 83 then ¬ (x.setZ d = true ∨ d ∈ [9, 10, 13, 12])
  else if c = 108 then x.setLl d = true
  else x.setLu d = true

/-- complement, if written with '^' -/
def negIf (neg : Bool) (P : Nat → Prop) (d : Nat) : Prop := if neg then ¬ P d else P d

/-- the characters of a class; `P`: those of what stands before. The parts are taken from left to right. -/
def CR.set (x : Ctx) : (Nat → Prop) → CR → Nat → Prop
  | P, .nil => P
  | P, .ch w r => r.set x fun d => P d ∨ d = w.val
  | P, .range a b r => r.set x fun d => P d ∨ a.val ≤ d ∧ d ≤ b.val
  | P, .letter c r => r.set x fun d => P d ∨ letterSet x c d
  | P, .categ n r => r.set x fun d => P d ∨ x.categ n d = true
  | P, .dash r => r.set x fun d => P d ∨ d = 45
  | P, .union neg k r => r.set x fun d => P d ∨ negIf neg (k.set x fun _ => False) d
  | P, .minus neg k r => r.set x fun d => P d ∧ ¬ negIf neg (k.set x fun _ => False) d
  | P, .inter neg k r => r.set x fun d => P d ∧ negIf neg (k.set x fun _ => False) d

/-- `] [ { \ -` cannot stand for themselves in a class -/
def clsSpecial (c : Nat) : Prop := c ∈ [93, 91, 123, 92, 45]

/-- not a `-` that would make a range -/
def NoRange (u : Text) : Prop := ∀ r, u = 45 :: r → r.head? = some 91 ∨ r.head? = some 93

/-- a name in braces: visible characters -/
def NameOk (x : Ctx) (n : Text) : Prop := ∀ c ∈ n, x.graph c = true ∧ c ≠ 125

/-- written correctly; `u`: the text behind -/
def CR.Ok (x : Ctx) : CR → Text → Prop
  | .nil, _ => True
  | .ch w r, u => w.Ok clsSpecial ∧ NoRange (r.text ++ u) ∧ (w.text = [38] → ∀ v, r.text ++ u ≠ 38 :: 91 :: v) ∧ r.Ok x u
  | .range a b r, u => a.Ok clsSpecial ∧ b.Ok clsSpecial ∧ a.val ≤ b.val ∧ NoRange (r.text ++ u) ∧ r.Ok x u
  | .letter c r, u => c ∈ [100, 68, 119, 115, 108, 117] ∧ r.Ok x u
  | .categ n r, u => n ≠ [] ∧ NameOk x n ∧ r.Ok x u
  | .dash r, u => (r.text ++ u).head? ≠ some 91 ∧ NoRange (r.text ++ u) ∧ r.Ok x u
  | .union neg k r, u => (neg = false → k.text.head? ≠ some 94) ∧ k.Ok x (93 :: (r.text ++ u)) ∧ r.Ok x u
  | .minus neg k r, u => (neg = false → k.text.head? ≠ some 94) ∧ k.Ok x (93 :: (r.text ++ u)) ∧ r.Ok x u
  | .inter neg k r, u => (neg = false → k.text.head? ≠ some 94) ∧ k.Ok x (93 :: (r.text ++ u)) ∧ r.Ok x u

/-! ## Operators -/

/-- the operators behind a part of an expression: `*`, `+`, `?`, `{n}`, `{n,}`, `{n,m}` (with `?` behind: lazy), `?=`, `?!`, `?#d`, `?~d` -/
inductive Op where
  | many (lzy : Bool)
  | many1 (lzy : Bool)
  | maybe (lzy : Bool)
  | exactly (n : Text) (lzy : Bool)
  | atLeast (n : Text) (lzy : Bool)
  | between (n m : Text) (lzy : Bool)
  | ahead
  | nahead
  | behind (d : Nat)
  | nbehind (d : Nat)

def lz (lzy : Bool) : Text := if lzy then [63] else []

def Op.text : Op → Text
  | .many z => 42 :: lz z
  | .many1 z => 43 :: lz z
  | .maybe z => 63 :: lz z
  | .exactly n z => 123 :: (n ++ 125 :: lz z)
  | .atLeast n z => 123 :: (n ++ 44 :: 125 :: lz z)
  | .between n m z => 123 :: (n ++ 44 :: (m ++ 125 :: lz z))
  | .ahead => [63, 61]
  | .nahead => [63, 33]
  | .behind d => [63, 35, 48 + d]
  | .nbehind d => [63, 126, 48 + d]

/-- what the operator makes of `R` -/
def Op.means (R : Int → Int → Prop) : Op → Int → Int → Prop
  | .many _, p, q => ∃ k, Iter R k p q
  | .many1 _, p, q => ∃ k, 1 ≤ k ∧ Iter R k p q
  | .maybe _, p, q => ∃ k, k ≤ 1 ∧ Iter R k p q
  | .exactly n _, p, q => Iter R (decNum n) p q
  | .atLeast n _, p, q => ∃ k, decNum n ≤ k ∧ Iter R k p q
  | .between n m _, p, q => ∃ k, decNum n ≤ k ∧ k ≤ decNum m ∧ Iter R k p q
  | .ahead, p, q => q = p ∧ ∃ r, R p r
  | .nahead, p, q => q = p ∧ ¬ ∃ r, R p r
  | .behind d, p, q => q = p ∧ (d : Int) ≤ p ∧ ∃ r, R (p - d) r
  | .nbehind d, p, q => q = p ∧ ¬ ((d : Int) ≤ p ∧ ∃ r, R (p - d) r)

/-- lazy, or no `?` behind -/
def lzOk (z : Bool) (u : Text) : Prop := z = false → u.head? ≠ some 63

def Op.Ok : Op → Text → Prop
  | .many z, u | .many1 z, u => lzOk z u
  | .maybe z, u => z = false → (∀ c, u.head? = some c → c ∉ [63, 61, 33]) ∧ ∀ c d v, u = c :: d :: v → c ∈ [35, 126] → isDigitC d = false
  | .exactly n z, u => n ≠ [] ∧ n.all isDigitC = true ∧ lzOk z u
  | .atLeast n z, u => n.all isDigitC = true ∧ lzOk z u
  | .between n m z, u => n.all isDigitC = true ∧ m ≠ [] ∧ m.all isDigitC = true ∧ lzOk z u
  | .ahead, _ | .nahead, _ => True
  | .behind d, _ | .nbehind d, _ => d ≤ 9

/-! ## Expressions -/

/-- expressions. `space`: a space that does not count (flag `x`). `sym`: `. ^ $ ~ \d \w …`. `ctl`: `\t \n \r`. `trace`, `traceN`, `traceName`:
`\yN`, `\YN`, `\y{name}` (groups of the start expression). `ref`, `refName`: `\N`, `\p{name}` (groups of this expression). -/
inductive Re where
  | eps
  | space (c : Nat)
  | chr (w : Ch)
  | ctl (c : Nat)
  | sym (m : Meta)
  | cls (neg : Bool) (k : CR)
  | group (a : Re)
  | bare (a : Re)
  | named (n : Text) (a : Re)
  | trace (c : Nat)
  | traceN (c : Nat)
  | traceName (n : Text)
  | ref (d : Nat)
  | refName (n : Text)
  | cat (a b : Re)
  | alt (a b : Re)
  | post (a : Re) (o : Op)

def ctlText (c : Nat) : Text := if c = 9 then [92, 116] else if c = 10 then [92, 110] else [92, 114]

def symText : Meta → Text
  | .any => [46] | .sol => [94] | .eol => [36] | .soScheme => [126]
  | .digit => [92, 100] | .ndigit => [92, 68] | .word => [92, 119] | .nword => [92, 87] | .space => [92, 115] | .nspace => [92, 83]
  | .upper => [92, 117] | .lower => [92, 108] | .wbound => [92, 98] | .nwbound => [92, 66] | .preNW => [92, 99]
  | .start => [92, 109] | .stop => [92, 77] | .bad => []

def Re.text : Re → Text
  | .eps => []
  | .space c => [c]
  | .chr w => w.text
  | .ctl c => ctlText c
  | .sym m => symText m
  | .cls neg k => bra neg ++ (k.text ++ [93])
  | .group a => 40 :: (a.text ++ [41])
  | .bare a => 40 :: 63 :: 58 :: (a.text ++ [41])
  | .named n a => 40 :: 63 :: 123 :: (n ++ 125 :: (a.text ++ [41]))
  | .trace c => [92, 121, c]
  | .traceN c => [92, 89, c]
  | .traceName n => 92 :: 121 :: 123 :: (n ++ [125])
  | .ref d => [92, 48 + d]
  | .refName n => 92 :: 112 :: 123 :: (n ++ [125])
  | .cat a b => a.text ++ b.text
  | .alt a b => a.text ++ 124 :: b.text
  | .post a o => a.text ++ o.text

/-- the meaning: the text from `p` to `q` is matched. References to own groups have no meaning here. -/
def Re.L (x : Ctx) (env : Env) : Re → Int → Int → Prop
  | .eps, p, q | .space _, p, q => q = p
  | .chr w, p, q => Take env (fun d => if env.flags.ignoreCase = true then
      env.chars.lower d = env.chars.lower w.val ∨ env.chars.upper d = env.chars.upper w.val else d = w.val) p q
  | .ctl c, p, q => Take env (fun d => if env.flags.ignoreCase = true then
      env.chars.lower d = env.chars.lower c ∨ env.chars.upper d = env.chars.upper c else d = c) p q
  | .sym m, p, q => MetaAt env m p q
  | .cls neg k, p, q => Take env (negIf neg (k.set x fun _ => False)) p q
  | .group a, p, q | .bare a, p, q | .named _ a, p, q => a.L x env p q
  | .trace c, p, q => TraceAt env (fun tr => tr.s ((hexVal c).getD 0)) (fun tr => tr.e ((hexVal c).getD 0)) (fun c d => c = d) p q
  | .traceN c, p, q => TraceAt env (fun tr => tr.s ((hexVal c).getD 0)) (fun tr => tr.e ((hexVal c).getD 0))
      (fun c d => env.chars.lower c = env.chars.lower d) p q
  | .traceName n, p, q => ∃ names k, x.back = some names ∧ names.findIdx? (fun m => x.caseEq n m) = some k ∧
      TraceAt env (fun tr => tr.ns k) (fun tr => tr.ne k) (fun c d => c = d) p q
  | .ref _, _, _ | .refName _, _, _ => False
  | .cat a b, p, q => ∃ r, a.L x env p r ∧ b.L x env r q
  | .alt a b, p, q => a.L x env p q ∨ b.L x env p q
  | .post a o, p, q => o.means (a.L x env) p q

/-- the characters an expression names outside classes -/
def Re.letters : Re → List Nat
  | .chr w => [w.val]
  | .ctl c => [c]
  | .group a | .bare a | .named _ a | .post a _ => a.letters
  | .cat a b | .alt a b => a.letters ++ b.letters
  | .eps | .space _ | .sym _ | .cls _ _ | .trace _ | .traceN _ | .traceName _ | .ref _ | .refName _ => []

/-- the groups after an expression: each `(` opens the next one, each `(?{name}` the next named one -/
def Re.after (st : CState) : Re → CState
  | .group a => a.after { st with cMatch := st.cMatch + 1 }
  | .named n a => a.after { st with names := st.names ++ [n] }
  | .bare a | .post a _ => a.after st
  | .cat a b | .alt a b => b.after (a.after st)
  | .eps | .space _ | .chr _ | .ctl _ | .sym _ | .cls _ _ | .trace _ | .traceN _ | .traceName _ | .ref _ | .refName _ => st

def Re.isAlt : Re → Bool
  | .alt _ _ => true
  | _ => false

/-- nothing but spaces -/
def Re.blank : Re → Bool
  | .eps | .space _ => true
  | .cat a b => a.blank && b.blank
  | _ => false

/-- one part, to which an operator can be applied (spaces around it do not matter) -/
def Re.unit : Re → Bool
  | .eps | .space _ | .alt _ _ => false
  | .cat a b => a.unit && b.blank || a.blank && b.unit
  | _ => true

/-- `\ . ^ $ ~ ? * + | { } ( ) [ ]` cannot stand for themselves -/
def special (x : Ctx) (c : Nat) : Prop :=
  c ∈ [92, 46, 94, 36, 126, 63, 42, 43, 124, 123, 125, 40, 41, 91, 93] ∨ x.extend = true ∧ x.isSpace c = true

/-- written correctly; `st`: the groups before; `u`: the text behind. There are at most 15 groups and 16 named groups. -/
def Re.Ok (x : Ctx) : CState → Re → Text → Prop
  | _, .eps, _ => True
  | _, .space c, _ => x.extend = true ∧ x.isSpace c = true
  | _, .chr w, _ => w.Ok (special x)
  | _, .ctl c, _ => c ∈ [9, 10, 13]
  | _, .sym m, _ => m ≠ .bad
  | _, .cls neg k, u => (neg = false → k.text.head? ≠ some 94) ∧ k.Ok x (93 :: u) ∧ x.ignoreCase = false
  | st, .group a, u => st.cMatch < 16 ∧ a.Ok x { st with cMatch := st.cMatch + 1 } (41 :: u)
  | st, .bare a, u => a.Ok x st (41 :: u)
  | st, .named n a, u => n ≠ [] ∧ NameOk x n ∧ st.names.length < 16 ∧ a.Ok x { st with names := st.names ++ [n] } (41 :: u)
  | _, .trace c, _ | _, .traceN c, _ => isHex c = true
  | _, .traceName n, _ => NameOk x n ∧ ∃ names, x.back = some names ∧ ∃ m ∈ names, x.caseEq n m = true
  | _, .ref d, _ => d ≤ 9
  | st, .refName n, _ => NameOk x n ∧ ∃ m ∈ st.names, x.caseEq n m = true
  | st, .cat a b, u => a.isAlt = false ∧ b.isAlt = false ∧ a.Ok x st (b.text ++ u) ∧ b.Ok x (a.after st) u
  | st, .alt a b, u => a.isAlt = false ∧ a.Ok x st (124 :: (b.text ++ u)) ∧ b.Ok x (a.after st) u
  | st, .post a o, u => a.unit = true ∧ a.Ok x st (o.text ++ u) ∧ o.Ok u

/-- what is assumed of the character functions: the lower case of hexadecimal digits is that of ASCII, no other character becomes one of
them; `/` is no space; the backslash, operators and brackets are none -/
structure CtxOk (x : Ctx) : Prop where
  digit : ∀ c, 48 ≤ c → c ≤ 57 → x.lower c = c
  small : ∀ c, 97 ≤ c → c ≤ 102 → x.lower c = c
  big : ∀ c, 65 ≤ c → c ≤ 70 → x.lower c = c + 32
  other : ∀ c, c < 65536 → isHex c = false → x.lower c < 65536 ∧ isHex (x.lower c) = false
  space : ∀ c, x.isSpace c = true → c ∉ [47, 92, 46, 94, 36, 126, 63, 42, 43, 124, 123, 125, 40, 41, 91, 93]
  graph : ∀ c, isHex c = true → x.graph c = true

end Verif.RegExp
