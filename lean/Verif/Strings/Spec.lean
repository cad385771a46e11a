import Verif.Strings.Model
/-! Specification of strings. -/
namespace Verif.Strings

/-- lexicographic order of character sequences -/
inductive Lex : Str → Str → Prop
  | nil {b t} : Lex [] (b :: t)
  | head {a b r t} : a < b → Lex (a :: r) (b :: t)
  | tail {a r t} : Lex r t → Lex (a :: r) (a :: t)

/-- `p` stands in `s` at position `i` -/
def Occurs (p s : Str) (i : Nat) : Prop := i ≤ s.length ∧ p <+: s.drop i

/-- all non-overlapping occurrences of `p` (not empty) replaced by `new`, left to right -/
def replaceAll (p new : Str) : Str → Str
  | [] => []
  | c :: r => if p ≠ [] ∧ p.isPrefixOf (c :: r) then new ++ replaceAll p new ((c :: r).drop p.length) else c :: replaceAll p new r
termination_by s => s.length
decreasing_by
  · rename_i h; have : 0 < p.length := List.length_pos_iff.2 h.1; simp; omega
  · simp

/-- white space removed at both ends -/
def strip (ws : Nat → Bool) (s : Str) : Str := ((s.dropWhile ws).reverse.dropWhile ws).reverse

/-- the text after a building operation -/
def textStep (ws : Nat → Bool) (t : Str) : BOp → Str
  | .appendChar c => t ++ [c]
  | .append s => t ++ s
  | .appendPart s n => t ++ s.take n
  | .setLength n => t.take n
  | .assign s => s
  | .trim => Strings.trim ws t

end Verif.Strings
