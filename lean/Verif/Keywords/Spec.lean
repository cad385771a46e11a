import Verif.Keywords.Model
/-! Specification vocabulary for keyword search. -/
namespace Verif.Keywords

/-- `w` stands in the line at `gx` (up to folding) within the first `lowlen` columns. -/
def Occurs (fold : Nat → Nat) (w line : List Nat) (gx lowlen : Nat) : Prop :=
  gx + w.length ≤ lowlen ∧ ((line.drop gx).take w.length).map fold = w.map fold

/-- A word boundary character: in the user's `worddiv` class if given, else neither letter, digit nor underscore. -/
def IsDiv (env : Env) (c : Nat) : Prop := match env.worddiv with
  | none => env.alnum c = false ∧ c ≠ 95
  | some w => w c = true

/-- The characters around columns `[a,b)` are word boundaries. -/
def Bounded (env : Env) (line : List Nat) (a b lowlen : Nat) : Prop :=
  (∀ c, 0 < a → line[a - 1]? = some c → IsDiv env c) ∧ (∀ c, b < lowlen → line[b]? = some c → IsDiv env c)

/-- Keyword `k` is acceptable at `gx`. -/
def Accept (env : Env) (k : KW) (line : List Nat) (gx lowlen : Nat) : Prop :=
  Occurs env.fold k.word line gx lowlen ∧ (k.sym = true ∨ Bounded env line gx (gx + k.word.length) lowlen)

/-- A list as left by `qsort` for a case sensitive list without repeated keywords: strictly increasing; the loader
never stores an empty keyword; `indexOfShorter` initially -1. -/
structure Sorted (l : List KW) : Prop where
  incr : l.Pairwise fun a b => cmp a.word b.word = -1
  nonempty : ∀ k ∈ l, k.word ≠ []
  fresh : ∀ k ∈ l, k.shorter = none

end Verif.Keywords
