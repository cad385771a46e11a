import Verif.CharClass.Model
/-! Specification of character classes: set expressions and the sets they denote. -/
namespace Verif.CharClass

/-- How a class is put together by its users (the class parser and the keyword lists). -/
inductive Expr where
  | empty
  | addChar (x : Expr) (c : Nat)
  | clearChar (x : Expr) (c : Nat)
  | addRange (x : Expr) (s e : Nat)
  | clearRange (x : Expr) (s e : Nat)
  | addClass (x y : Expr)
  | clearClass (x y : Expr)
  | intersect (x y : Expr)
  | fill (x : Expr)

/-- The set of characters meant. -/
def Expr.den : Expr → Nat → Prop
  | .empty, _ => False
  | .addChar x c, ch => ch = c ∨ x.den ch
  | .clearChar x c, ch => x.den ch ∧ ch ≠ c
  | .addRange x s e, ch => (s ≤ ch ∧ ch ≤ e) ∨ x.den ch
  | .clearRange x s e, ch => x.den ch ∧ ¬ (s ≤ ch ∧ ch ≤ e)
  | .addClass x y, ch => x.den ch ∨ y.den ch
  | .clearClass x y, ch => x.den ch ∧ ¬ y.den ch
  | .intersect x y, ch => x.den ch ∧ y.den ch
  | .fill _, _ => True

/-- The object built by the calls. -/
def Expr.eval : Expr → Option CC
  | .empty => some CC.empty
  | .addChar x c => x.eval.bind (·.addChar c)
  | .clearChar x c => x.eval.bind (·.clearChar c)
  | .addRange x s e => x.eval.bind (·.addRange s e)
  | .clearRange x s e => x.eval.bind (·.clearRange s e)
  | .addClass x y => x.eval.bind fun a => y.eval.map fun b => a.addClass b
  | .clearClass x y => x.eval.bind fun a => y.eval.map fun b => a.clearClass b
  | .intersect x y => x.eval.bind fun a => y.eval.bind fun b => a.intersectClass b
  | .fill x => x.eval.bind (·.fill)

/-- Ranges that `addRange` handles: a range inside one 32-character cell must not begin at the cell's first character
unless it is the whole cell, and a range over several 256-character pages must not end inside the first cell of
its last page. -/
def AddOk (s e : Nat) : Prop :=
  (s % 32 = 0 → s / 32 = e / 32 → e % 32 = 31) ∧ (s / 256 < e / 256 → 31 ≤ e % 256)

/-- Ranges `[s,e]` of positions that `clearRange` of one page handles. -/
def ClearOkBA (s e : Nat) : Prop :=
  (s % 32 = 0 → s / 32 = e / 32 → e % 32 = 31) ∧
  (s % 32 ≠ 0 → s / 32 = e / 32 → e % 32 = s % 32 ∨ e % 32 = 31) ∧
  (s % 32 ≠ 0 → s / 32 ≠ e / 32 → e % 32 ≠ s % 32)

/-- Ranges that `clearRange` handles: every page's part is handled. -/
def ClearOk (s e : Nat) : Prop :=
  if s / 256 = e / 256 then ClearOkBA (s % 256) (e % 256) else ClearOkBA (s % 256) 255 ∧ ClearOkBA 0 (e % 256)

/-- Characters are 16 bit, ranges are ordered and of the handled kind. -/
def Expr.Ok : Expr → Prop
  | .empty => True
  | .addChar x c => x.Ok ∧ c < 65536
  | .clearChar x c => x.Ok ∧ c < 65536
  | .addRange x s e => x.Ok ∧ s ≤ e ∧ e < 65536 ∧ AddOk s e
  | .clearRange x s e => x.Ok ∧ s ≤ e ∧ e < 65536 ∧ ClearOk s e
  | .addClass x y => x.Ok ∧ y.Ok
  | .clearClass x y => x.Ok ∧ y.Ok
  | .intersect x y => x.Ok ∧ y.Ok
  | .fill x => x.Ok

end Verif.CharClass
