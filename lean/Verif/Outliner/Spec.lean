import Verif.Outliner.Model
/-! Specification of the outline. -/
namespace Verif.Outliner

/-! ## Tree depth: the parent of an item is the last earlier item with a smaller level -/

/-- the items up to and including the parent, most recent first -/
def parentTail (lvl : Int) : List Int → List Int
  | [] => []
  | x :: r => if x < lvl then x :: r else parentTail lvl r

theorem parentTail_length (lvl : Int) (l : List Int) : (parentTail lvl l).length ≤ l.length := by
  induction l with
  | nil => simp [parentTail]
  | cons x r ih => simp only [parentTail]; split <;> simp; omega

/-- the number of ancestors of an item of level `lvl` that follows the items `prev` (most recent first) -/
def depth (lvl : Int) (prev : List Int) : Nat :=
  match h : parentTail lvl prev with
  | [] => 0
  | p :: r => depth p r + 1
termination_by prev.length
decreasing_by
  have := parentTail_length lvl prev
  rw [h] at this
  simp at this
  omega

/-- depths of all items in order; `prev` are the earlier items, most recent first -/
def depths (prev : List Int) : List Int → List Nat
  | [] => []
  | l :: r => depth l prev :: depths (l :: prev) r

/-! ## What a parse of some lines shows -/

/-- events inside one line -/
inductive LEv where
  | region (sx ex : Int) (region : Nat)
  | enter
  | leave
deriving DecidableEq, Repr

/-- a parsed line: number, text, events -/
structure Line where
  lno  : Nat
  text : List Nat
  evs  : List LEv
deriving DecidableEq, Repr

def LEv.toEv (l : Line) : LEv → Ev
  | .region sx ex r => .addRegion l.lno l.text sx ex r
  | .enter => .enterScheme
  | .leave => .leaveScheme

/-- scheme depth after some events -/
def lvl (base : Int) : List LEv → Int
  | [] => base
  | .region .. :: r => lvl base r
  | .enter :: r => lvl (base + 1) r
  | .leave :: r => lvl (base - 1) r

/-- the outlined regions of a line with the scheme depth at which they occur -/
def hits (outlined : Nat → Bool) (base : Int) : List LEv → List (Int × Int × Int × Nat)
  | [] => []
  | .region sx ex r :: t => if outlined r then (sx, ex, base, r) :: hits outlined base t else hits outlined base t
  | .enter :: t => hits outlined (base + 1) t
  | .leave :: t => hits outlined (base - 1) t

/-- The outline item of a line: position, region and level of the first outlined region, the texts of all of them. -/
def lineItem (outlined : Nat → Bool) (base : Int) (l : Line) : Option Item :=
  match hits outlined base l.evs with
  | [] => none
  | (sx, ex, b, r) :: t => some ⟨l.lno, sx, b, (l.text.drop sx.toNat).take (ex - sx).toNat ++ (t.flatMap fun h => (l.text.drop h.1.toNat).take (h.2.1 - h.1).toNat), r⟩

/-- the items of consecutive lines, for the lines from `m` on -/
def items (outlined : Nat → Bool) (m : Nat) (base : Int) : List Line → List Item
  | [] => []
  | l :: r =>
    (if l.lno < m then [] else (lineItem outlined base l).toList) ++ items outlined m (lvl base l.evs) r

/-- What happens in the editor: the text is modified from a line on, or consecutive lines are parsed. -/
inductive Act where
  | modify (topLine : Nat)
  | parse (lines : List Line)
deriving DecidableEq, Repr

/-- the events of a parse as the handler protocol has them (`endParsing` gets the last line parsed) -/
def Act.evs : Act → List Ev
  | .modify t => [.modify t]
  | .parse lines =>
    .startParsing :: (lines.flatMap fun l => .clearLine :: l.evs.map (LEv.toEv l)) ++
      [.endParsing (lines.getLast?.map (·.lno)).get!]

/-- the lines of a parse are consecutive and at least one -/
def Consecutive : List Line → Prop
  | [] => False
  | [_] => True
  | a :: b :: r => b.lno = a.lno + 1 ∧ Consecutive (b :: r)

/-- The outline as the user expects it: `(items, first line not covered)`. -/
def specStep (outlined : Nat → Bool) : List Item × Nat → Act → List Item × Nat
  | (o, _), .modify t => (o.filter (fun i => i.lno < t), t)
  | (o, m), .parse lines =>
    (o ++ items outlined m 0 lines, max m ((lines.getLast?.map (·.lno)).get! + 1))

/-- no parse stops exactly at the first line not covered yet -/
def NoEdge (outlined : Nat → Bool) : List Item × Nat → List Act → Prop
  | _, [] => True
  | s, a :: r =>
    (match a with
      | .modify _ => True
      | .parse lines => Consecutive lines ∧ ∀ l, lines.getLast? = some l → l.lno ≠ s.2) ∧
    NoEdge outlined (specStep outlined s a) r

end Verif.Outliner
