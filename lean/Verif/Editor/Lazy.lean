import Verif.Editor.Pairs
/-!
# C24: the pair search asks for the lines while it searches

`getPairMatch` (BaseEditor.cpp:221-247) and `searchPair` (259-307) with the lines as they are asked for: every `getLineRegions` may change the
object. The nodes of the line at hand are a zipper (nodes before, nearest first; the node; nodes after): the code walks `next` and `prev` inside the
list of one line and asks for another line only when the list is used up, so a list is not used after a later request. `S` is the object, `A` a node.
`none` is a crash of a request. Verif.Editor has the search over fixed lists.
-/
namespace Verif.Editor
variable {S A : Type}

/-- a place in the list of a line, with the object as it is -/
structure Spot (S A : Type) where
  s     : S
  line  : Int
  left  : List A
  node  : A
  right : List A

/-- result of the search -/
inductive Hit (A : Type) where
  | running
  | nothing
  | at (line : Int) (node : A)

/-- what the search looks at in a node (BaseEditor.cpp:229-236, 294-299) -/
structure Look (A : Type) where
  start  : A → Int
  stop   : A → Int
  region : A → Option Nat
  /-- `hasParent(def_PairStart)`, `hasParent(def_PairEnd)` -/
  isStart : Nat → Bool
  isEnd   : Nat → Bool

/-- a node as the search sees it -/
def Look.reg (k : Look A) (a : A) : PReg :=
  ⟨k.start a, k.stop a, (k.region a).isSome, (k.region a).any k.isStart, (k.region a).any k.isEnd⟩

/-- `while (pair == nullptr) { lno++; if (lno > end_line) return; pair = getLineRegions(lno); }` (272-279), from line `l` on -/
def askFwd (q : S → Int → Option (S × List A)) (endLine : Int) (s : S) (l : Int) : Option (S × Option (Spot S A)) :=
  if l > endLine then some (s, none)
  else
    (q s l).bind fun x =>
      match x.2 with
      | [] => askFwd q endLine x.1 (l + 1)
      | t :: r => some (x.1, some ⟨x.1, l, [], t, r⟩)
termination_by (endLine + 1 - l).toNat

/-- `do { lno--; if (lno < start_line) return; pair = getLineRegions(lno); } while (pair == nullptr)` (284-291), from line `l` down, then
`pair = pair->prev`, the last node (292) -/
def askBack (q : S → Int → Option (S × List A)) (startLine : Int) (s : S) (l : Int) : Option (S × Option (Spot S A)) :=
  if l < startLine then some (s, none)
  else
    (q s l).bind fun x =>
      match x.2.reverse with
      | [] => askBack q startLine x.1 (l - 1)
      | t :: r => some (x.1, some ⟨x.1, l, r, t, []⟩)
termination_by (l + 1 - startLine).toNat

/-- one step downwards (271-279) -/
def Spot.fwd (q : S → Int → Option (S × List A)) (endLine : Int) (p : Spot S A) : Option (S × Option (Spot S A)) :=
  match p.right with
  | t :: r => some (p.s, some ⟨p.s, p.line, p.node :: p.left, t, r⟩)
  | [] => askFwd q endLine p.s (p.line + 1)

/-- one step upwards (283-292) -/
def Spot.back (q : S → Int → Option (S × List A)) (startLine : Int) (p : Spot S A) : Option (S × Option (Spot S A)) :=
  match p.left with
  | t :: r => some (p.s, some ⟨p.s, p.line, r, t, p.node :: p.right⟩)
  | [] => askBack q startLine p.s (p.line - 1)

/-- the loop of `searchPair` (266-305), `fuel` rounds; nodes without a region are rounds of the same loop (see `searchLoop`) -/
def lazyLoop (q : S → Int → Option (S × List A)) (k : Look A) (startLine endLine : Int) : Nat → Spot S A → Int → Option (S × Hit A)
  | 0, p, _ => some (p.s, .running)
  | fuel + 1, p, bal =>
    (if bal > 0 then p.fwd q endLine else p.back q startLine).bind fun x =>
      match x.2 with
      | none => some (x.1, .nothing)
      | some p' =>
        if (k.reg p'.node).hasRegion then
          if bal + delta (k.reg p'.node) = 0 then some (p'.s, .at p'.line p'.node)
          else lazyLoop q k startLine endLine fuel p' (bal + delta (k.reg p'.node))
        else lazyLoop q k startLine endLine fuel p' bal

/-- the loop of `getPairMatch` (229-236): the last node that is a pair region and touches the position, with the nodes around it -/
def pairSpot (k : Look A) (linePos : Int) : List A → List A → Option (List A × A × List A) → Option (List A × A × List A)
  | _, [], acc => acc
  | left, t :: r, acc =>
    pairSpot k linePos (t :: left) r
      (if (k.reg t).hasRegion ∧ linePos ≥ (k.reg t).start ∧ linePos ≤ (k.reg t).stop ∧ ((k.reg t).isStart = true ∨ (k.reg t).isEnd = true)
        then some (left, t, r) else acc)

/-- `searchPair` (259-307): the object afterwards; the node at the position and what was found, or null -/
def lazySearch (q : S → Int → Option (S × List A)) (k : Look A) (fuel : Nat) (s : S) (lineNo pos startLine endLine : Int) :
    Option (S × Option (A × Hit A)) :=
  (q s lineNo).bind fun x =>
    match pairSpot k pos [] x.2 none with
    | none => some (x.1, none)
    | some (l, t, r) =>
      (lazyLoop q k startLine endLine fuel ⟨x.1, lineNo, l, t, r⟩ (if (k.reg t).isStart then 1 else -1)).map fun y => (y.1, some (t, y.2))

/-! ## Specification -/

/-- the pair regions among the nodes of a line -/
def marksOf (k : Look A) (l : List A) : List PReg := (l.map k.reg).filter fun r => r.isStart || r.isEnd

/-- What the search has to return, `regs` being the pair regions of every line: null if no pair region of the line touches the position; otherwise the
last one that does, together with the first region after it (an opening) or before it (a closing), within the range of lines, where openings and
closings cancel out, if there is one. -/
def Answers (k : Look A) (regs : Int → List PReg) (lineNo pos startLine endLine : Int) (res : Option (A × Hit A)) : Prop :=
  (res = none ∧ ∀ r ∈ regs lineNo, ¬ IsPairAt pos r) ∨
  ∃ i t h, res = some (t, h) ∧ (regs lineNo)[i]? = some (k.reg t) ∧ IsPairAt pos (k.reg t) ∧
    (∀ j r, i < j → (regs lineNo)[j]? = some r → ¬ IsPairAt pos r) ∧
    (let seq := if (k.reg t).isStart then after regs endLine ⟨lineNo, i⟩ else before regs startLine ⟨lineNo, i⟩
     let b : Int := if (k.reg t).isStart then 1 else -1
     (h = .nothing ∧ ∀ q, ¬ Partner seq b q) ∨
      ∃ q u, h = .at q.line u ∧ (regs q.line)[q.idx]? = some (k.reg u) ∧ Partner seq b q)

/-! ## Proof -/

theorem reg_mark {k : Look A} {a : A} (h : ((k.reg a).isStart || (k.reg a).isEnd) = true) : (k.reg a).hasRegion = true := by
  unfold Look.reg at h ⊢
  dsimp only at h ⊢
  cases hr : k.region a with
  | none => rw [hr] at h; simp at h
  | some r => rfl

theorem reg_plain {k : Look A} {a : A} (h : ((k.reg a).isStart || (k.reg a).isEnd) = false) : delta (k.reg a) = 0 := by
  rw [Bool.or_eq_false_iff] at h
  unfold delta
  rw [h.1, h.2]
  rfl

/-- the way from a spot: the pair regions met, with their places among the pair regions of their lines. If `o`, the end of the way may be left out. -/
inductive Way (o : Bool) (k : Look A) (mv : Spot S A → Option (S × Option (Spot S A))) : Spot S A → List (Place × PReg) → Prop
  | more {p : Spot S A} : o = true → Way o k mv p []
  | stop {p : Spot S A} {s : S} : mv p = some (s, none) → Way o k mv p []
  | skip {p p' : Spot S A} {s : S} {ms : List (Place × PReg)} : mv p = some (s, some p') → ((k.reg p'.node).isStart || (k.reg p'.node).isEnd) = false →
      Way o k mv p' ms → Way o k mv p ms
  | mark {p p' : Spot S A} {s : S} {ms : List (Place × PReg)} : mv p = some (s, some p') → ((k.reg p'.node).isStart || (k.reg p'.node).isEnd) = true →
      Way o k mv p' ms → Way o k mv p ((⟨p'.line, (marksOf k p'.left).length⟩, k.reg p'.node) :: ms)

/-- what the loop returns -/
def LoopOk (k : Look A) (ms : List (Place × PReg)) (b : Int) (h : Hit A) : Prop :=
  (h = .nothing ∧ scan ms b = none) ∨ ∃ q u, h = .at q.line u ∧ scan ms b = some q ∧ (q, k.reg u) ∈ ms

theorem loop_way {o : Bool} (q : S → Int → Option (S × List A)) (k : Look A) (startLine endLine : Int) {mv : Spot S A → Option (S × Option (Spot S A))} {d : Bool}
    (hmv : mv = if d then Spot.fwd q endLine else Spot.back q startLine) {p : Spot S A} {ms : List (Place × PReg)} (h : Way o k mv p ms) :
    ∀ b : Int, (if d then b > 0 else b < 0) → (o = true → (scan ms b).isSome = true) →
      ∃ N, ∀ fuel, N ≤ fuel → ∃ s' h, lazyLoop q k startLine endLine fuel p b = some (s', h) ∧ LoopOk k ms b h := by
  have move : ∀ (p : Spot S A) (b : Int), (if d then b > 0 else b < 0) → (if b > 0 then p.fwd q endLine else p.back q startLine) = mv p := by
    intro p b hb
    subst hmv
    cases d with
    | true => rw [if_pos rfl] at hb; rw [if_pos hb]; rfl
    | false =>
      have hb : b < 0 := by simpa using hb
      rw [if_neg (by omega)]
      rfl
  induction h with
  | more h1 =>
    intro b _ hs
    have := hs h1
    simp [scan] at this
  | @stop p s h1 =>
    intro b hb hs
    refine ⟨1, ?_⟩
    intro fuel hf
    obtain ⟨f, rfl⟩ : ∃ f, fuel = f + 1 := ⟨fuel - 1, by omega⟩
    refine ⟨s, .nothing, ?_, Or.inl ⟨rfl, rfl⟩⟩
    rw [lazyLoop, move p b hb, h1]
    rfl
  | @skip p p' s ms h1 h2 h3 ih =>
    intro b hb hs
    obtain ⟨N, hN⟩ := ih b hb hs
    refine ⟨N + 1, ?_⟩
    intro fuel hf
    obtain ⟨f, rfl⟩ : ∃ f, fuel = f + 1 := ⟨fuel - 1, by omega⟩
    obtain ⟨s', h, x1, x2⟩ := hN f (by omega)
    refine ⟨s', h, ?_, x2⟩
    rw [lazyLoop, move p b hb, h1, Option.bind_some]
    dsimp only
    have hb0 : b ≠ 0 := by cases d <;> simp at hb <;> omega
    split
    · rw [reg_plain h2, if_neg (by omega), Int.add_zero]
      exact x1
    · exact x1
  | @mark p p' s ms h1 h2 h3 ih =>
    intro b hb hs
    have hreg := reg_mark h2
    by_cases hz : b + delta (k.reg p'.node) = 0
    · refine ⟨1, ?_⟩
      intro fuel hf
      obtain ⟨f, rfl⟩ : ∃ f, fuel = f + 1 := ⟨fuel - 1, by omega⟩
      refine ⟨p'.s, .at p'.line p'.node, ?_, Or.inr ⟨⟨p'.line, (marksOf k p'.left).length⟩, p'.node, rfl, ?_, by simp⟩⟩
      · rw [lazyLoop, move p b hb, h1, Option.bind_some]
        dsimp only
        rw [if_pos hreg, if_pos hz]
      · rw [scan, if_pos hreg, if_pos hz]
    · have hd := delta_bounds (k.reg p'.node)
      obtain ⟨N, hN⟩ := ih (b + delta (k.reg p'.node)) (by cases d <;> simp at hb ⊢ <;> omega) (by
        rw [scan, if_pos hreg, if_neg hz] at hs
        exact hs)
      refine ⟨N + 1, ?_⟩
      intro fuel hf
      obtain ⟨f, rfl⟩ : ∃ f, fuel = f + 1 := ⟨fuel - 1, by omega⟩
      obtain ⟨s', h, x1, x2⟩ := hN f (by omega)
      refine ⟨s', h, ?_, ?_⟩
      · rw [lazyLoop, move p b hb, h1, Option.bind_some]
        dsimp only
        rw [if_pos hreg, if_neg hz]
        exact x1
      · unfold LoopOk
        rw [scan, if_pos hreg, if_neg hz]
        rcases x2 with x2 | ⟨q', u, y1, y2, y3⟩
        · exact Or.inl x2
        · exact Or.inr ⟨q', u, y1, y2, by simp [y3]⟩

theorem marksOf_append (k : Look A) (a b : List A) : marksOf k (a ++ b) = marksOf k a ++ marksOf k b := by simp [marksOf]
theorem marksOf_reverse (k : Look A) (a : List A) : marksOf k a.reverse = (marksOf k a).reverse := by simp [marksOf]
theorem marksOf_cons_mark (k : Look A) (a : A) (l : List A) (h : ((k.reg a).isStart || (k.reg a).isEnd) = true) :
    marksOf k (a :: l) = k.reg a :: marksOf k l := by simp [marksOf, h]
theorem marksOf_cons_plain (k : Look A) (a : A) (l : List A) (h : ((k.reg a).isStart || (k.reg a).isEnd) = false) :
    marksOf k (a :: l) = marksOf k l := by simp [marksOf, h]

theorem places_drop_cons (regs : Int → List PReg) (l : Int) (n : Nat) (r : PReg) (h : (regs l)[n]? = some r) :
    (linePlaces regs l).drop n = (⟨l, n⟩, r) :: (linePlaces regs l).drop (n + 1) := by
  obtain ⟨hn, hr⟩ := List.getElem?_eq_some_iff.1 h
  rw [List.drop_eq_getElem_cons (by rw [linePlaces_length]; exact hn), linePlaces_get regs l n hn, hr]

theorem places_take_succ (regs : Int → List PReg) (l : Int) (n : Nat) (r : PReg) (h : (regs l)[n]? = some r) :
    ((linePlaces regs l).take (n + 1)).reverse = (⟨l, n⟩, r) :: ((linePlaces regs l).take n).reverse := by
  obtain ⟨hn, hr⟩ := List.getElem?_eq_some_iff.1 h
  rw [List.take_succ_eq_append_getElem (by rw [linePlaces_length]; exact hn), linePlaces_get regs l n hn, hr]
  simp

/-- the rest of a line after a spot, then what follows the last node -/
theorem way_right {o : Bool} (q : S → Int → Option (S × List A)) (k : Look A) (endLine : Int) (regs : Int → List PReg) (s : S) (l : Int) (rest : List (Place × PReg))
    (right : List A) : ∀ (left : List A) (t : A), marksOf k ((t :: left).reverse ++ right) = regs l →
      (∀ left' t', Way o k (Spot.fwd q endLine) ⟨s, l, left', t', []⟩ rest) →
      Way o k (Spot.fwd q endLine) ⟨s, l, left, t, right⟩ ((linePlaces regs l).drop (marksOf k (t :: left)).length ++ rest) := by
  induction right with
  | nil =>
    intro left t hm hend
    rw [List.append_nil, marksOf_reverse] at hm
    rw [show (linePlaces regs l).drop (marksOf k (t :: left)).length = [] from by
      rw [List.drop_eq_nil_iff, linePlaces_length, ← hm, List.length_reverse]; exact Nat.le_refl _]
    exact hend left t
  | cons u right ih =>
    intro left t hm hend
    have hm' : marksOf k ((u :: t :: left).reverse ++ right) = regs l := by
      rw [← hm]; simp
    have := ih (t :: left) u hm' hend
    cases hu : ((k.reg u).isStart || (k.reg u).isEnd) with
    | false =>
      rw [marksOf_cons_plain k u (t :: left) hu] at this
      exact .skip (p' := ⟨s, l, t :: left, u, right⟩) (s := s) rfl hu this
    | true =>
      rw [marksOf_cons_mark k u (t :: left) hu, List.length_cons] at this
      rw [places_drop_cons regs l (marksOf k (t :: left)).length (k.reg u) (by
        rw [← hm, marksOf_append, marksOf_cons_mark k u right hu, marksOf_reverse]
        rw [List.getElem?_append_right (by rw [List.length_reverse]; exact Nat.le_refl _), List.length_reverse]
        simp)]
      exact .mark (p' := ⟨s, l, t :: left, u, right⟩) (s := s) rfl hu this

/-- the nodes of a line before a spot, nearest first, then what precedes the first node -/
theorem way_left {o : Bool} (q : S → Int → Option (S × List A)) (k : Look A) (startLine : Int) (regs : Int → List PReg) (s : S) (l : Int) (rest : List (Place × PReg))
    (left : List A) : ∀ (t : A) (right : List A), marksOf k (left.reverse ++ t :: right) = regs l →
      (∀ t' right', Way o k (Spot.back q startLine) ⟨s, l, [], t', right'⟩ rest) →
      Way o k (Spot.back q startLine) ⟨s, l, left, t, right⟩ (((linePlaces regs l).take (marksOf k left).length).reverse ++ rest) := by
  induction left with
  | nil => intro t right hm hend; exact hend t right
  | cons u left ih =>
    intro t right hm hend
    have hm' : marksOf k (left.reverse ++ u :: t :: right) = regs l := by
      rw [← hm]; simp
    have := ih u (t :: right) hm' hend
    cases hu : ((k.reg u).isStart || (k.reg u).isEnd) with
    | false =>
      rw [marksOf_cons_plain k u left hu]
      exact .skip (p' := ⟨s, l, left, u, t :: right⟩) (s := s) rfl hu this
    | true =>
      rw [marksOf_cons_mark k u left hu, List.length_cons, places_take_succ regs l (marksOf k left).length (k.reg u) (by
        rw [← hm', marksOf_append, marksOf_cons_mark k u (t :: right) hu, marksOf_reverse]
        rw [List.getElem?_append_right (by rw [List.length_reverse]; exact Nat.le_refl _), List.length_reverse]
        simp)]
      exact .mark (p' := ⟨s, l, left, u, t :: right⟩) (s := s) rfl hu this

/-- the way downwards, if every line asked for has the pair regions `regs` -/
theorem way_fwd {o : Bool} (q : S → Int → Option (S × List A)) (k : Look A) (endLine last : Int) (hle : last ≤ endLine) (ho : o = false → last = endLine)
    (regs : Int → List PReg) (J : S → Int → Prop) (hJ : ∀ s l, J s l → l < last → ∃ s' rs, q s (l + 1) = some (s', rs) ∧ J s' (l + 1) ∧ marksOf k rs = regs (l + 1)) (n : Nat) :
    ∀ (s : S) (l : Int), (last - l).toNat ≤ n → J s l → ∀ (left : List A) (t : A) (right : List A), marksOf k ((t :: left).reverse ++ right) = regs l →
      Way o k (Spot.fwd q endLine) ⟨s, l, left, t, right⟩ ((linePlaces regs l).drop (marksOf k (t :: left)).length ++ linesFrom regs last (l + 1)) := by
  induction n with
  | zero =>
    intro s l hn hj left t right hm
    refine way_right q k endLine regs s l _ right left t hm ?_
    intro left' t'
    rw [linesFrom_nil regs last (l + 1) (by omega)]
    cases o with
    | true => exact .more rfl
    | false =>
      have := ho rfl
      refine .stop (s := s) ?_
      show askFwd q endLine s (l + 1) = _
      rw [askFwd, if_pos (by omega)]
  | succ n ih =>
    intro s l hn hj left t right hm
    refine way_right q k endLine regs s l _ right left t hm ?_
    -- what follows the last node of line `l`
    have key : ∀ (m : Nat) (s : S) (l : Int), (last - l).toNat ≤ m → m ≤ n + 1 → J s l → ∀ p : Spot S A, p.right = [] →
        Spot.fwd q endLine p = askFwd q endLine s (l + 1) → Way o k (Spot.fwd q endLine) p (linesFrom regs last (l + 1)) := by
      intro m
      induction m with
      | zero =>
        intro s l h1 _ _ p _ hp
        rw [linesFrom_nil regs last (l + 1) (by omega)]
        cases o with
        | true => exact .more rfl
        | false =>
          have := ho rfl
          refine .stop (s := s) ?_
          rw [hp, askFwd, if_pos (by omega)]
      | succ m ihm =>
        intro s l h1 h2 hj p hp0 hp
        by_cases hl : l < last
        · obtain ⟨s', rs, q1, q2, q3⟩ := hJ s l hj hl
          rw [linesFrom_cons regs last (l + 1) (by omega)]
          cases rs with
          | nil =>
            have hreg : regs (l + 1) = [] := by rw [← q3]; rfl
            have hlp : linePlaces regs (l + 1) = [] := by unfold linePlaces; rw [hreg]; rfl
            rw [hlp, List.nil_append]
            refine ihm s' (l + 1) (by omega) (by omega) q2 p hp0 ?_
            rw [hp, askFwd, if_neg (by omega), q1]
            rfl
          | cons u r =>
            have hw := ih s' (l + 1) (by omega) q2 [] u r (by simpa using q3)
            have hmv : Spot.fwd q endLine p = some (s', some ⟨s', l + 1, [], u, r⟩) := by
              rw [hp, askFwd, if_neg (by omega), q1]
              rfl
            cases hu : ((k.reg u).isStart || (k.reg u).isEnd) with
            | false =>
              rw [marksOf_cons_plain k u [] hu] at hw
              exact .skip hmv hu hw
            | true =>
              rw [marksOf_cons_mark k u [] hu] at hw
              have : linePlaces regs (l + 1) = (⟨l + 1, 0⟩, k.reg u) :: (linePlaces regs (l + 1)).drop 1 := by
                rw [← places_drop_cons regs (l + 1) 0 (k.reg u) (by rw [← q3, marksOf_cons_mark k u r hu]; rfl)]
                rfl
              rw [this, List.cons_append]
              exact .mark hmv hu hw
        · rw [linesFrom_nil regs last (l + 1) (by omega)]
          cases o with
          | true => exact .more rfl
          | false =>
            have := ho rfl
            refine .stop (s := s) ?_
            rw [hp, askFwd, if_pos (by omega)]
    intro left' t'
    exact key (n + 1) s l hn (Nat.le_refl _) hj ⟨s, l, left', t', []⟩ rfl rfl

/-- the way upwards -/
theorem way_back {o : Bool} (q : S → Int → Option (S × List A)) (k : Look A) (startLine : Int) (regs : Int → List PReg) (J : S → Int → Prop)
    (hJ : ∀ s l, J s l → startLine < l → ∃ s' rs, q s (l - 1) = some (s', rs) ∧ J s' (l - 1) ∧ marksOf k rs = regs (l - 1)) (n : Nat) :
    ∀ (s : S) (l : Int), (l - startLine).toNat ≤ n → J s l → ∀ (left : List A) (t : A) (right : List A), marksOf k (left.reverse ++ t :: right) = regs l →
      Way o k (Spot.back q startLine) ⟨s, l, left, t, right⟩
        (((linePlaces regs l).take (marksOf k left).length).reverse ++ linesDown regs startLine (l - 1)) := by
  induction n with
  | zero =>
    intro s l hn hj left t right hm
    refine way_left q k startLine regs s l _ left t right hm ?_
    intro t' right'
    rw [linesDown_nil regs startLine (l - 1) (by omega)]
    refine .stop (s := s) ?_
    show askBack q startLine s (l - 1) = _
    rw [askBack, if_pos (by omega)]
  | succ n ih =>
    intro s l hn hj left t right hm
    refine way_left q k startLine regs s l _ left t right hm ?_
    have key : ∀ (m : Nat) (s : S) (l : Int), (l - startLine).toNat ≤ m → m ≤ n + 1 → J s l → ∀ p : Spot S A,
        Spot.back q startLine p = askBack q startLine s (l - 1) → Way o k (Spot.back q startLine) p (linesDown regs startLine (l - 1)) := by
      intro m
      induction m with
      | zero =>
        intro s l h1 _ _ p hp
        rw [linesDown_nil regs startLine (l - 1) (by omega)]
        refine .stop (s := s) ?_
        rw [hp, askBack, if_pos (by omega)]
      | succ m ihm =>
        intro s l h1 h2 hj p hp
        by_cases hl : startLine < l
        · obtain ⟨s', rs, q1, q2, q3⟩ := hJ s l hj hl
          rw [linesDown_cons regs startLine (l - 1) (by omega)]
          cases hrs : rs.reverse with
          | nil =>
            have hreg : regs (l - 1) = [] := by rw [← q3, List.reverse_eq_nil_iff.1 hrs]; rfl
            have hlp : linePlaces regs (l - 1) = [] := by unfold linePlaces; rw [hreg]; rfl
            rw [hlp, List.reverse_nil, List.nil_append]
            refine ihm s' (l - 1) (by omega) (by omega) q2 p ?_
            rw [hp, askBack, if_neg (by omega), q1, Option.bind_some]
            simp only [hrs]
          | cons u r =>
            have hrs' : rs = r.reverse ++ [u] := by rw [← List.reverse_reverse rs, hrs]; simp
            have hw := ih s' (l - 1) (by omega) q2 r u [] (by rw [← hrs']; exact q3)
            have hmv : Spot.back q startLine p = some (s', some ⟨s', l - 1, r, u, []⟩) := by
              rw [hp, askBack, if_neg (by omega), q1, Option.bind_some]
              simp only [hrs]
            have hq3 : regs (l - 1) = (marksOf k r).reverse ++ marksOf k [u] := by
              rw [← q3, hrs', marksOf_append, marksOf_reverse]
            cases hu : ((k.reg u).isStart || (k.reg u).isEnd) with
            | false =>
              rw [show (linePlaces regs (l - 1)).take (marksOf k r).length = linePlaces regs (l - 1) from by
                rw [List.take_of_length_le]
                rw [linePlaces_length, hq3, marksOf_cons_plain k u [] hu]
                simp [marksOf]] at hw
              exact .skip hmv hu hw
            | true =>
              have : linePlaces regs (l - 1) = (linePlaces regs (l - 1)).take ((marksOf k r).length + 1) := by
                rw [List.take_of_length_le]
                rw [linePlaces_length, hq3, marksOf_cons_mark k u [] hu]
                simp [marksOf]
              rw [this, places_take_succ regs (l - 1) (marksOf k r).length (k.reg u) (by
                rw [hq3, marksOf_cons_mark k u [] hu, List.getElem?_append_right (by rw [List.length_reverse]; exact Nat.le_refl _), List.length_reverse]
                simp), List.cons_append]
              exact .mark hmv hu hw
        · rw [linesDown_nil regs startLine (l - 1) (by omega)]
          refine .stop (s := s) ?_
          rw [hp, askBack, if_pos (by omega)]
    intro t' right'
    exact key (n + 1) s l hn (Nat.le_refl _) hj ⟨s, l, [], t', right'⟩ rfl

theorem isPairAt_iff (k : Look A) (pos : Int) (t : A) :
    ((k.reg t).hasRegion ∧ pos ≥ (k.reg t).start ∧ pos ≤ (k.reg t).stop ∧ ((k.reg t).isStart = true ∨ (k.reg t).isEnd = true)) ↔ IsPairAt pos (k.reg t) :=
  Iff.rfl

theorem pairSpot_spec (k : Look A) (pos : Int) (r : List A) : ∀ (left : List A) (acc : Option (List A × A × List A)),
    (∃ l t r', pairSpot k pos left r acc = some (l, t, r') ∧ left.reverse ++ r = l.reverse ++ t :: r' ∧ IsPairAt pos (k.reg t) ∧
      ∀ u ∈ r', ¬ IsPairAt pos (k.reg u)) ∨
    (pairSpot k pos left r acc = acc ∧ ∀ u ∈ r, ¬ IsPairAt pos (k.reg u)) := by
  induction r with
  | nil => intro left acc; exact Or.inr ⟨rfl, by intro u hu; simp at hu⟩
  | cons t r ih =>
    intro left acc
    rw [pairSpot]
    by_cases hp : IsPairAt pos (k.reg t)
    · rw [if_pos ((isPairAt_iff k pos t).2 hp)]
      rcases ih (t :: left) (some (left, t, r)) with ⟨l, u, r', h1, h2, h3, h4⟩ | ⟨h1, h2⟩
      · exact Or.inl ⟨l, u, r', h1, by rw [← h2]; simp, h3, h4⟩
      · exact Or.inl ⟨left, t, r, h1, rfl, hp, h2⟩
    · rw [if_neg (fun h => hp ((isPairAt_iff k pos t).1 h))]
      rcases ih (t :: left) acc with ⟨l, u, r', h1, h2, h3, h4⟩ | ⟨h1, h2⟩
      · exact Or.inl ⟨l, u, r', h1, by rw [← h2]; simp, h3, h4⟩
      · refine Or.inr ⟨h1, ?_⟩
        intro u hu
        rcases List.mem_cons.1 hu with rfl | hu
        · exact hp
        · exact h2 u hu

theorem isPairAt_mark {pos : Int} {r : PReg} (h : IsPairAt pos r) : (r.isStart || r.isEnd) = true := by
  rcases h.2.2.2 with h | h <;> simp [h]

theorem mem_marks {k : Look A} {l : List A} {r : PReg} (h : r ∈ marksOf k l) : ∃ t ∈ l, r = k.reg t := by
  unfold marksOf at h
  obtain ⟨t, ht, rfl⟩ := List.mem_map.1 (List.mem_filter.1 h).1
  exact ⟨t, ht, rfl⟩

theorem mem_places {regs : Int → List PReg} {l : Int} {q : Place} {r : PReg} (h : (q, r) ∈ linePlaces regs l) : (regs q.line)[q.idx]? = some r := by
  unfold linePlaces at h
  obtain ⟨⟨x, i⟩, hx, he⟩ := List.mem_map.1 h
  cases he
  have := List.mem_zipIdx_iff_getElem?.1 hx
  exact this

theorem mem_linesFrom {regs : Int → List PReg} {a b : Int} {q : Place} {r : PReg} (h : (q, r) ∈ linesFrom regs a b) : (regs q.line)[q.idx]? = some r := by
  unfold linesFrom at h
  obtain ⟨n, _, hn⟩ := List.mem_flatMap.1 h
  exact mem_places hn

theorem mem_linesDown {regs : Int → List PReg} {a b : Int} {q : Place} {r : PReg} (h : (q, r) ∈ linesDown regs a b) : (regs q.line)[q.idx]? = some r := by
  unfold linesDown at h
  obtain ⟨n, _, hn⟩ := List.mem_flatMap.1 h
  exact mem_places (List.mem_reverse.1 hn)

/-- a request of line `lineNo` and the search from there: what has to be known about the lines asked for -/
structure Served (q : S → Int → Option (S × List A)) (k : Look A) (regs : Int → List PReg) (s : S) (lineNo : Int) (s1 : S) (rs : List A) : Prop where
  ask : q s lineNo = some (s1, rs)
  marks : marksOf k rs = regs lineNo

/-- the search, when every line it may ask for has the pair regions `regs` -/
theorem lazy_answers (q : S → Int → Option (S × List A)) (k : Look A) (regs : Int → List PReg) (s s1 : S) (rs : List A) (lineNo pos startLine endLine : Int)
    (h0 : Served q k regs s lineNo s1 rs)
    (hf : ∀ t ∈ rs, IsPairAt pos (k.reg t) → (k.reg t).isStart = true → ∃ J : S → Int → Prop, J s1 lineNo ∧
      ∀ s l, J s l → l < endLine → ∃ s' rs, q s (l + 1) = some (s', rs) ∧ J s' (l + 1) ∧ marksOf k rs = regs (l + 1))
    (hb : ∀ t ∈ rs, IsPairAt pos (k.reg t) → (k.reg t).isStart = false → ∃ J : S → Int → Prop, J s1 lineNo ∧
      ∀ s l, J s l → startLine < l → ∃ s' rs, q s (l - 1) = some (s', rs) ∧ J s' (l - 1) ∧ marksOf k rs = regs (l - 1)) :
    ∃ N, ∀ fuel, N ≤ fuel → ∃ s' res, lazySearch q k fuel s lineNo pos startLine endLine = some (s', res) ∧
      Answers k regs lineNo pos startLine endLine res := by
  rcases pairSpot_spec k pos rs [] none with ⟨l, t, r, h1, h2, h3, h4⟩ | ⟨h1, h2⟩
  · rw [List.reverse_nil, List.nil_append] at h2
    have hmk := isPairAt_mark h3
    have hm : marksOf k (l.reverse ++ t :: r) = regs lineNo := by rw [← h2]; exact h0.marks
    have hreg : regs lineNo = (marksOf k l).reverse ++ k.reg t :: marksOf k r := by
      rw [← hm, marksOf_append, marksOf_reverse, marksOf_cons_mark k t r hmk]
    have hidx : (regs lineNo)[(marksOf k l).length]? = some (k.reg t) := by
      rw [hreg, List.getElem?_append_right (by rw [List.length_reverse]; exact Nat.le_refl _), List.length_reverse]
      simp
    have hlast : ∀ j r', (marksOf k l).length < j → (regs lineNo)[j]? = some r' → ¬ IsPairAt pos r' := by
      intro j r' hj hr
      rw [hreg, List.getElem?_append_right (by rw [List.length_reverse]; omega), List.length_reverse] at hr
      obtain ⟨m, hm⟩ : ∃ m, j - (marksOf k l).length = m + 1 := ⟨j - (marksOf k l).length - 1, by omega⟩
      rw [hm, List.getElem?_cons_succ] at hr
      obtain ⟨u, hu, rfl⟩ := mem_marks (List.mem_of_getElem? hr)
      exact h4 u hu
    have ht : t ∈ rs := by rw [h2]; simp
    -- the search itself
    have key : ∃ N, ∀ fuel, N ≤ fuel → ∃ s' h, lazyLoop q k startLine endLine fuel ⟨s1, lineNo, l, t, r⟩ (if (k.reg t).isStart then 1 else -1) = some (s', h) ∧
        LoopOk k (if (k.reg t).isStart then after regs endLine ⟨lineNo, (marksOf k l).length⟩ else before regs startLine ⟨lineNo, (marksOf k l).length⟩)
          (if (k.reg t).isStart then 1 else -1) h := by
      cases hst : (k.reg t).isStart with
      | true =>
        obtain ⟨J, j1, j2⟩ := hf t ht h3 hst
        have hw := way_fwd (o := false) q k endLine endLine (Int.le_refl _) (fun _ => rfl) regs J j2 _ s1 lineNo (Nat.le_refl _) j1 l t r (by
          rw [← hm]; simp)
        rw [marksOf_cons_mark k t l hmk, List.length_cons] at hw
        rw [if_pos rfl, if_pos rfl, after_eq]
        exact loop_way q k startLine endLine (d := true) rfl hw 1 (by simp) (by simp)
      | false =>
        obtain ⟨J, j1, j2⟩ := hb t ht h3 hst
        have hw := way_back (o := false) q k startLine regs J j2 _ s1 lineNo (Nat.le_refl _) j1 l t r hm
        rw [if_neg (by simp), if_neg (by simp), before_eq]
        exact loop_way q k startLine endLine (d := false) rfl hw (-1) (by simp) (by simp)
    obtain ⟨N, hN⟩ := key
    refine ⟨N, ?_⟩
    intro fuel hfu
    obtain ⟨s', h, x1, x2⟩ := hN fuel hfu
    refine ⟨s', some (t, h), ?_, Or.inr ⟨(marksOf k l).length, t, h, rfl, hidx, h3, hlast, ?_⟩⟩
    · unfold lazySearch
      rw [h0.ask, Option.bind_some]
      simp only [h1]
      rw [x1]
      rfl
    · have hbn : (if (k.reg t).isStart = true then (1 : Int) else -1) ≠ 0 := by split <;> omega
      have hmem : ∀ q u, (q, k.reg u) ∈ (if (k.reg t).isStart then after regs endLine ⟨lineNo, (marksOf k l).length⟩ else
          before regs startLine ⟨lineNo, (marksOf k l).length⟩) → (regs q.line)[q.idx]? = some (k.reg u) := by
        intro q u hu
        split at hu
        · rw [after_eq] at hu
          rcases List.mem_append.1 hu with hu | hu
          · exact mem_places (List.mem_of_mem_drop hu)
          · exact mem_linesFrom hu
        · rw [before_eq] at hu
          rcases List.mem_append.1 hu with hu | hu
          · exact mem_places (List.mem_of_mem_take (List.mem_reverse.1 hu))
          · exact mem_linesDown hu
      dsimp only
      rcases x2 with ⟨y1, y2⟩ | ⟨q', u, y1, y2, y3⟩
      · left
        refine ⟨y1, ?_⟩
        intro q' hq
        rw [← scan_some _ _ _ hbn, y2] at hq
        simp at hq
      · right
        exact ⟨q', u, y1, hmem q' u y3, (scan_some _ _ _ hbn).1 y2⟩
  · refine ⟨0, ?_⟩
    intro fuel _
    refine ⟨s1, none, ?_, Or.inl ⟨rfl, ?_⟩⟩
    · unfold lazySearch
      rw [h0.ask, Option.bind_some]
      simp only [h1]
    · intro r hr
      rw [← h0.marks] at hr
      obtain ⟨t, ht, rfl⟩ := mem_marks hr
      exact h2 t ht

/-- the search downwards, when the lines up to `last` have the pair regions `regs`; nothing is known about the lines from `last` to `endLine` -/
theorem lazy_found (q : S → Int → Option (S × List A)) (k : Look A) (regs : Int → List PReg) (s s1 : S) (rs : List A) (lineNo pos startLine endLine last : Int)
    (hle : last ≤ endLine) (h0 : Served q k regs s lineNo s1 rs) (J : S → Int → Prop) (hj : J s1 lineNo)
    (hJ : ∀ s l, J s l → l < last → ∃ s' rs, q s (l + 1) = some (s', rs) ∧ J s' (l + 1) ∧ marksOf k rs = regs (l + 1))
    (i : Nat) (r : PReg) (hi : (regs lineNo)[i]? = some r) (hr : IsPairAt pos r) (hst : r.isStart = true)
    (hlast : ∀ j r', i < j → (regs lineNo)[j]? = some r' → ¬ IsPairAt pos r') (q' : Place) (hq : Partner (after regs last ⟨lineNo, i⟩) 1 q') :
    ∃ N, ∀ fuel, N ≤ fuel → ∃ s' t u, lazySearch q k fuel s lineNo pos startLine endLine = some (s', some (t, .at q'.line u)) ∧
      k.reg t = r ∧ (regs q'.line)[q'.idx]? = some (k.reg u) := by
  rcases pairSpot_spec k pos rs [] none with ⟨l, t, rr, h1, h2, h3, h4⟩ | ⟨h1, h2⟩
  · rw [List.reverse_nil, List.nil_append] at h2
    have hmk := isPairAt_mark h3
    have hm : marksOf k (l.reverse ++ t :: rr) = regs lineNo := by rw [← h2]; exact h0.marks
    have hreg : regs lineNo = (marksOf k l).reverse ++ k.reg t :: marksOf k rr := by
      rw [← hm, marksOf_append, marksOf_reverse, marksOf_cons_mark k t rr hmk]
    have hidx : (regs lineNo)[(marksOf k l).length]? = some (k.reg t) := by
      rw [hreg, List.getElem?_append_right (by rw [List.length_reverse]; exact Nat.le_refl _), List.length_reverse]
      simp
    have hlast' : ∀ j r', (marksOf k l).length < j → (regs lineNo)[j]? = some r' → ¬ IsPairAt pos r' := by
      intro j r' hj hr
      rw [hreg, List.getElem?_append_right (by rw [List.length_reverse]; omega), List.length_reverse] at hr
      obtain ⟨m, hm⟩ : ∃ m, j - (marksOf k l).length = m + 1 := ⟨j - (marksOf k l).length - 1, by omega⟩
      rw [hm, List.getElem?_cons_succ] at hr
      obtain ⟨u, hu, rfl⟩ := mem_marks (List.mem_of_getElem? hr)
      exact h4 u hu
    have hieq : i = (marksOf k l).length := by
      rcases Nat.lt_trichotomy i (marksOf k l).length with h | h | h
      · exact absurd h3 (hlast _ _ h hidx)
      · exact h
      · exact absurd hr (hlast' _ _ h hi)
    subst hieq
    rw [hidx, Option.some.injEq] at hi
    subst hi
    have hw := way_fwd (o := true) q k endLine last hle (by simp) regs J hJ _ s1 lineNo (Nat.le_refl _) hj l t rr (by
      rw [← hm]; simp)
    rw [marksOf_cons_mark k t l hmk, List.length_cons, ← after_eq regs last ⟨lineNo, (marksOf k l).length⟩] at hw
    have hsc := (scan_some _ 1 q' (by omega)).2 hq
    obtain ⟨N, hN⟩ := loop_way q k startLine endLine (d := true) rfl hw 1 (by simp) (by intro _; rw [hsc]; rfl)
    refine ⟨N, ?_⟩
    intro fuel hfu
    obtain ⟨s', h, x1, x2⟩ := hN fuel hfu
    rcases x2 with ⟨y1, y2⟩ | ⟨q2, u, y1, y2, y3⟩
    · rw [hsc] at y2; simp at y2
    · rw [hsc, Option.some.injEq] at y2
      subst y2
      refine ⟨s', t, u, ?_, rfl, ?_⟩
      · unfold lazySearch
        rw [h0.ask, Option.bind_some]
        simp only [h1]
        rw [if_pos hst, x1, y1]
        rfl
      · rw [after_eq] at y3
        rcases List.mem_append.1 y3 with hu | hu
        · exact mem_places (List.mem_of_mem_drop hu)
        · exact mem_linesFrom hu
  · exfalso
    have hr' := List.mem_of_getElem? hi
    rw [← h0.marks] at hr'
    obtain ⟨t, ht, rfl⟩ := mem_marks hr'
    exact h2 t ht hr

end Verif.Editor
