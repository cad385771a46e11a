import Verif.ParseCache.Model
/-! Specification of the cache lookup: entries of a forest, containment, nesting. -/
namespace Verif.ParseCache

/-- `x` is an entry of the forest `t` (at any depth) -/
inductive Entry : PC → PC → Prop
  | here (i s e c n) : Entry (.node i s e c n) (.node i s e c n)
  | next {x} (i s e c n) : Entry x n → Entry x (.node i s e c n)
  | child {x} (i s e c n) : Entry x c → Entry x (.node i s e c n)

/-- `x` is one of the top-level entries of the forest -/
inductive Sibling : PC → PC → Prop
  | here (i s e c n) : Sibling (.node i s e c n) (.node i s e c n)
  | next {x} (i s e c n) : Sibling x n → Sibling x (.node i s e c n)

def PC.kids : PC → PC
  | .null => .null
  | .node _ _ _ c _ => c
def PC.sline : PC → Int
  | .null => 0
  | .node _ s _ _ _ => s
def PC.eline : PC → Int
  | .null => 0
  | .node _ _ e _ _ => e

/-- the line lies in the block -/
def PC.covers (x : PC) (ln : Int) : Prop := x ≠ .null ∧ x.sline ≤ ln ∧ ln ≤ x.eline

/-- The cache of a parsed text: siblings follow each other without overlap, children lie inside their parent. -/
inductive WF : PC → Prop
  | null : WF .null
  | node {i s e c n} (range : s ≤ e) (hc : WF c) (hn : WF n) (inside : ∀ x, Entry x c → s ≤ x.sline ∧ x.eline ≤ e)
      (after : ∀ x, Entry x n → e < x.sline) : WF (.node i s e c n)

/-- `x` is the last of the siblings `t` that begin at or before the line, or null if there is none -/
def LastBefore (t : PC) (ln : Int) (x : PC) : Prop :=
  (x = .null ∧ ∀ y, Sibling y t → ln < y.sline) ∨
  (Sibling x t ∧ x.sline ≤ ln ∧ ∀ y, Sibling y t → y.sline ≤ ln → y = x ∨ y.sline < x.sline)

end Verif.ParseCache
