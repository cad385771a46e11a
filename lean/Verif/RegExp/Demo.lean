import Verif.RegExp.Bounds

/-!
# Concrete calls of the matcher

Characters for the examples: ASCII letters and digits. `call` runs `parse` on a new object; `call2` runs it twice on one object.
-/
namespace Verif.RegExp.Demo

def isLow (c : Nat) : Bool := decide (97 ≤ c ∧ c ≤ 122)
def isUp (c : Nat) : Bool := decide (65 ≤ c ∧ c ≤ 90)
def isDig (c : Nat) : Bool := decide (48 ≤ c ∧ c ≤ 57)
def low (c : Nat) : Nat := if isUp c then c + 32 else c
def upp (c : Nat) : Nat := if isLow c then c - 32 else c

/-- ASCII -/
def ascii : Chars :=
  ⟨isDig, fun c => isLow c || isUp c, fun c => isLow c || isUp c || isDig c, fun c => c = 32 || decide (9 ≤ c ∧ c ≤ 13), isUp, isLow, low, upp,
    fun a b => a.map low = b.map low⟩

def str (s : String) : Text := s.toList.map Char.toNat

def noMatches : Matches := ⟨fun _ => -1, fun _ => -1, fun _ => -1, fun _ => -1⟩

/-- an expression without flags, with `n` groups (number 0 included) -/
def re (n : Nat) (body : List Node) : Expr := ⟨body, n, 0, ⟨false, false, false⟩, true⟩

/-- the whole text from `pos` on, not moving -/
def at_ (s : String) (pos : Int) : Args := ⟨str s, pos, (str s).length, 0, none, none⟩

/-- the returned value and the bounds of the first `n` groups -/
def shown (n : Nat) (o : Option Out) : Option (End × List (Int × Int)) := o.map fun o => (o.res, (List.range n).map fun i => (o.m.s i, o.m.e i))

def call (x : Expr) (a : Args) : Option Out := parse ascii x 400 Obj.new a noMatches

/-- what the second call on the same object returns -/
def call2 (x : Expr) (a b : Args) : Option Out := (call x a).bind fun o => parse ascii x 400 o.obj b noMatches

def c (ch : Char) : Node := .symb ch.toNat

/-- `/(ab|a)+c/` on "xaababc" from 1 on: matches [1, 7), group 1 is the last "ab" -/
example : shown 2 (call (re 2 [.rangeN 1 [.brackets (some 1) [.or [.word (str "ab")], c 'a']], c 'c']) (at_ "xaababc" 1)) =
    some (.ret true, [(1, 7), (4, 6)]) := by decide +kernel

/-- the hypotheses of `C28_inside_the_text` hold in this call -/
example : ∃ out, call (re 2 [.rangeN 1 [.brackets (some 1) [.or [.word (str "ab")], c 'a']], c 'c']) (at_ "xaababc" 1) = some out ∧
    out.res = .ret true ∧ 0 ≤ (at_ "xaababc" 1).pos ∧ (at_ "xaababc" 1).eol ≤ (at_ "xaababc" 1).text.length ∧
    TraceOk (at_ "xaababc" 1).back := by
  have h : (shown 2 (call (re 2 [.rangeN 1 [.brackets (some 1) [.or [.word (str "ab")], c 'a']], c 'c']) (at_ "xaababc" 1))) =
    some (.ret true, [(1, 7), (4, 6)]) := by decide +kernel
  cases hc : call (re 2 [.rangeN 1 [.brackets (some 1) [.or [.word (str "ab")], c 'a']], c 'c']) (at_ "xaababc" 1) with
  | none => rw [hc] at h; cases h
  | some out =>
    rw [hc] at h
    refine ⟨out, rfl, ?_, by decide, by decide, trivial⟩
    simp only [shown, Option.map_some, Option.some.injEq, Prod.mk.injEq] at h
    exact h.1

/-- C28 needs the back trace to be inside its text. `setBackTrace` stores the groups of the start expression, and those beyond its
`cMatch` are whatever the structure held: with `/\y5/` and a stale fifth group [0, 9) from a longer line, the match reads outside the
text of the start line. -/
theorem C28_back_trace_of_an_unused_group_reads_outside :
    (shown 1 (parse ascii (re 1 [.bkTrace 5]) 400 Obj.new
      { at_ "xyxyxyxyxyxy" 0 with back := some (str "xy", { noMatches with s := upd (fun _ => -1) 5 0, e := upd (fun _ => -1) 5 9 }) }
      noMatches)).map Prod.fst = some .oob := by decide +kernel

end Verif.RegExp.Demo
