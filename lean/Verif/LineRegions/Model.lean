/-!
# Model of the line region stores

Models `handlers/LineRegionsSupport.cpp` (plain store) and
`handlers/LineRegionsCompactSupport.cpp` (compact store) of /repo/src/colorer.

Representation choices (simplifications):
* the doubly linked list of a line (`next`, and `prev` with `first->prev == last`) is a `List`;
* node identity (needed because `flowBackground` is a raw pointer into the list) is a ghost `id`;
  a pointer is the pair (slot, id) of the node it points to;
* `int` columns are unbounded `Int`, `size_t` line numbers unbounded `Nat`;
* regions and schemes are numbers, `RegionDefine` is an abstract type `RD`.
Undefined behaviour (null / dangling pointer, empty vector `back()`, node that is never linked)
is the outcome `none`.
-/
namespace Verif.LineRegions

/-- What a region shows: `region`, `scheme`, `rdef` fields of `class LineRegion`
(handlers/LineRegion.h:17-62). -/
structure Payload (RD : Type) where
  region : Option Nat
  scheme : Option Nat
  rdef   : Option RD
deriving DecidableEq, Repr

/-- `class LineRegion` (handlers/LineRegion.h:17-62); `stop` is the field `end`
(`-1` = to the end of line), `id` is the ghost node identity. -/
structure LR (RD : Type) where
  id      : Nat
  start   : Int
  stop    : Int
  special : Bool
  pay     : Payload RD
deriving DecidableEq, Repr

variable {RD : Type}

/-! ## Compact insertion -/

/-- The position loop of LineRegionsCompactSupport.cpp:26-59 once the "insert before first"
test (28-34) has failed: splits the list into the nodes before and after the new node.
`none`: the loop runs off the list and the node is never linked. -/
def findPosGo (ladd : LR RD) : List (LR RD) → List (LR RD) → Option (List (LR RD) × List (LR RD))
  | _,   []      => none
  | pre, ln :: r =>
    if ln.start = ladd.start then some (pre, ln :: r)                        -- 36-42
    else match r with
      | [] =>
        if ln.start < ladd.start then some (pre ++ [ln], [])                 -- 44-50
        else none
      | n :: r' =>
        if ln.start < ladd.start ∧ (n.start > ladd.start ∨ n.special = true) then
          some (pre ++ [ln], n :: r')                                        -- 52-58
        else findPosGo ladd (pre ++ [ln]) (n :: r')

/-- LineRegionsCompactSupport.cpp:26-59, whole loop. -/
def findPos (ladd : LR RD) : List (LR RD) → Option (List (LR RD) × List (LR RD))
  | []     => none
  | l :: r => if l.start ≥ ladd.start then some ([], l :: r)                 -- 28-34
              else findPosGo ladd [] (l :: r)

/-- Result of the "previous region intersection check". -/
structure PrevRes (RD : Type) where
  pre   : List (LR RD)
  post  : List (LR RD)
  flow  : Nat
  next  : Nat

/-- LineRegionsCompactSupport.cpp:81-92: deletion of a zero-width previous region
(`ladd->prev != lstart` first, then `ladd->prev == lstart`). -/
def dropZero (pre : List (LR RD)) : List (LR RD) :=
  let pre1 :=
    match pre.getLast? with
    | some p => if pre.length > 1 ∧ p.stop = p.start then pre.dropLast else pre
    | none => pre
  match pre1.getLast? with
  | some p => if pre1.length = 1 ∧ p.stop = p.start then [] else pre1
  | none => pre1

/-- LineRegionsCompactSupport.cpp:60-93: intersection with the previous node (splitting it in
two, moving `flowBackground` to the second half, trimming it, deleting it when it became empty). -/
def prevCheck (ladd : LR RD) (pre post : List (LR RD)) (flow next : Nat) : PrevRes RD :=
  match pre.getLast? with
  | none => { pre := pre, post := post, flow := flow, next := next }
  | some p =>
    if p.stop > ladd.start ∨ p.stop = -1 then
      let trimmed := pre.dropLast ++ [{ p with stop := ladd.start }]
      if (p.stop > ladd.stop ∨ p.stop = -1) ∧ ladd.stop ≠ -1 then
        { pre  := dropZero trimmed
          post := { p with id := next, start := ladd.stop } :: post
          flow := if p.id = flow then next else flow
          next := next + 1 }
      else
        { pre := dropZero trimmed, post := post, flow := flow, next := next }
    else { pre := pre, post := post, flow := flow, next := next }

/-- LineRegionsCompactSupport.cpp:95-114: forward intersections.  `kept` are the nodes between
`ladd` and the loop cursor; a deletion relinks `ladd->next` directly behind the deleted node
(104-111), so whatever was kept before is unlinked too. -/
def fwd (ladd : LR RD) : List (LR RD) → List (LR RD) → List (LR RD)
  | kept, [] => kept
  | kept, n :: r =>
    if n.special then fwd ladd (kept ++ [n]) r
    else
      let n' : LR RD :=
        if (n.stop = -1 ∨ n.stop > ladd.stop) ∧ ladd.stop ≠ -1 ∧ n.start < ladd.stop
        then { n with start := ladd.stop } else n
      if (n'.stop ≤ ladd.stop ∧ n'.stop ≠ -1) ∨ ladd.stop = -1 then fwd ladd [] r
      else fwd ladd (kept ++ [n']) r

/-- Result of adding a node: new list, new flow background id, next fresh id. -/
structure AddRes (RD : Type) where
  list : List (LR RD)
  flow : Nat
  next : Nat

/-- `LineRegionsCompactSupport::addLineRegion` (LineRegionsCompactSupport.cpp:3-116). -/
def compactAdd (ladd : LR RD) (l : List (LR RD)) (flow next : Nat) : Option (AddRes RD) :=
  if ladd.special then some ⟨l ++ [ladd], flow, next⟩                        -- 9-19
  else match l with
    | [] => some ⟨[ladd], flow, next⟩                                        -- 20-23
    | _ :: _ =>
      match findPos ladd l with
      | none => none
      | some (pre, post) =>
        let r := prevCheck ladd pre post flow next
        some ⟨r.pre ++ ladd :: fwd ladd [] r.post, r.flow, r.next⟩

/-- `LineRegionsSupport::addLineRegion` (LineRegionsSupport.cpp:200-212): append. -/
def plainAdd (ladd : LR RD) (l : List (LR RD)) (flow next : Nat) : Option (AddRes RD) :=
  some ⟨l ++ [ladd], flow, next⟩

/-! ## The store -/

/-- The collaborators of the store: `regionMapper` (may be null), `RegionDefine::assignParent` after
`clone`, `region->hasParent(special)`, and the background define (LineRegionsSupport.cpp:68-81). -/
structure Env (RD : Type) where
  mapper       : Option (Nat → Option RD)
  assignParent : RD → Option RD → RD
  isSpecial    : Nat → Bool
  background   : Option RD

/-- State of a `LineRegionsSupport` object (handlers/LineRegionsSupport.h:96-105).
`slots` models `lineRegions` (only indices `< n` exist), `stack` models `schemeStack`, top first,
`flow` models `flowBackground`, `next` is the ghost supply of node identities. -/
structure Store (RD : Type) where
  n     : Nat
  first : Nat
  slots : Nat → List (LR RD)
  stack : List (Payload RD)
  flow  : Option (Nat × Nat)
  next  : Nat

/-- Constructor, LineRegionsSupport.cpp:3-10. -/
def Store.init : Store RD :=
  { n := 0, first := 0, slots := fun _ => [], stack := [], flow := none, next := 0 }

/-- Calls a store can receive: `RegionHandler` events and window management. -/
inductive Op where
  | start  (lno : Nat)
  | clearLine (lno : Nat)
  | region (lno : Nat) (s e : Int) (r : Nat)
  | enter  (lno : Nat) (s e : Int) (r : Option Nat) (scheme : Nat)
  | leave  (lno : Nat) (s e : Int) (r : Option Nat) (scheme : Nat)
  | setFirst (first : Nat)
  | resize (n : Nat)
  | clear
deriving Repr

/-- `checkLine`, LineRegionsSupport.cpp:83-90. -/
def Store.inWindow (st : Store RD) (lno : Nat) : Bool :=
  decide (st.first ≤ lno) && decide (lno < st.first + st.n)

/-- `getLineIndex`, LineRegionsSupport.cpp:45-48 (`n = 0` is excluded by `checkLine` in every caller). -/
def Store.index (st : Store RD) (lno : Nat) : Nat :=
  (st.first % st.n + lno - st.first) % st.n

/-- `getLineRegions`, LineRegionsSupport.cpp:50-56 (null is the empty list). -/
def Store.lineRegions (st : Store RD) (lno : Nat) : List (LR RD) :=
  if st.inWindow lno then st.slots (st.index lno) else []

/-- Replacing the content of one slot. -/
def setSlot (f : Nat → List (LR RD)) (i : Nat) (l : List (LR RD)) : Nat → List (LR RD) :=
  fun j => if j = i then l else f j

/-- The region define computation shared by `addRegion` (136-145) and `enterScheme` (156-165):
the mapped define of the region, else the current background's, completed from the background. -/
def resolve (env : Env RD) (region : Option Nat) (back : Payload RD) : Option RD :=
  match env.mapper with
  | none => none
  | some f =>
    match (region.bind f).orElse (fun _ => back.rdef) with
    | none => none
    | some rd => some (env.assignParent rd back.rdef)

/-- `flowBackground->end = e` (174, 194): `none` when the pointer is null or dangles. -/
def Store.setFlowEnd (st : Store RD) (e : Int) : Option (Store RD) :=
  match st.flow with
  | none => none
  | some (i, id) =>
    if i < st.n ∧ (st.slots i).any (fun t => t.id == id) = true then
      let l := (st.slots i).map fun t => if t.id = id then { t with stop := e } else t
      some { st with slots := setSlot st.slots i l }
    else none

/-- Virtual call `addLineRegion` (handlers/LineRegionsSupport.h:90): append or compact insertion.
`ladd.id` must already be allocated. The pointer `flowBackground` can move only inside the same line. -/
def Store.addLine (compact : Bool) (st : Store RD) (lno : Nat) (ladd : LR RD) : Option (Store RD) :=
  let i := st.index lno
  -- value that no node identity equals when the flow background lies in another line
  let flowId := match st.flow with
    | some (j, id) => if j = i then id else st.next
    | none => st.next
  let next := st.next + 1
  match (if compact then compactAdd else plainAdd) ladd (st.slots i) flowId next with
  | none => none
  | some r =>
    some { st with
      slots := setSlot st.slots i r.list
      next := r.next
      flow := match st.flow with
        | some (j, id) => if j = i then some (i, r.flow) else some (j, id)
        | none => none }

/-- One call on the store. `none` is undefined behaviour. -/
def Store.step (compact : Bool) (env : Env RD) (st : Store RD) : Op → Option (Store RD)
  | .start _ =>                                                              -- 92-99
    some { st with stack := [⟨none, none, env.background⟩] }
  | .clearLine lno =>                                                        -- 101-120
    if st.inWindow lno then
      match st.stack with
      | [] => none
      | top :: _ =>
        let i := st.index lno
        some { st with
          slots := setSlot st.slots i
            [{ id := st.next, start := 0, stop := -1, special := false, pay := top }]
          flow := some (i, st.next)
          next := st.next + 1 }
    else some st
  | .region lno s e r =>                                                     -- 122-147
    if st.inWindow lno then
      match st.stack with
      | [] => none
      | top :: _ =>
        st.addLine compact lno
          { id := st.next, start := s, stop := e, special := env.isSpecial r
            pay := ⟨some r, top.scheme, resolve env (some r) top⟩ }
    else some st
  | .enter lno s _ r scheme =>                                               -- 149-178
    match st.stack, env.mapper with
    | [], some _ => none
    | stk, _ =>
      let back := stk.headD ⟨none, none, none⟩
      let pay : Payload RD := ⟨r, some scheme, resolve env r back⟩
      let st1 := { st with stack := pay :: stk }
      if st.inWindow lno then
        match r with
        | none => some st1
        | some _ =>
          match st1.setFlowEnd s with
          | none => none
          | some st2 =>
            let node : LR RD := { id := st2.next, start := s, stop := -1, special := false, pay := pay }
            ({ st2 with flow := some (st2.index lno, st2.next) } : Store RD).addLine compact lno node
      else some st1
  | .leave lno _ e _ _ =>                                                    -- 180-198
    match st.stack with
    | [] => none
    | [_] => none        -- would `delete &background`
    | old :: top :: rest =>
      let st1 := { st with stack := top :: rest }
      if st.inWindow lno then
        match old.region with
        | none => some st1
        | some _ =>
          match st1.setFlowEnd e with
          | none => none
          | some st2 =>
            let node : LR RD := { id := st2.next, start := e, stop := -1, special := false, pay := top }
            ({ st2 with flow := some (st2.index lno, st2.next) } : Store RD).addLine compact lno node
      else some st1
  | .setFirst f => some { st with first := f }                               -- 58-61
  | .resize n =>                                                             -- 21-25
    some { st with n := n, slots := fun i => if i < st.n then st.slots i else [] }
  | .clear => some { st with slots := fun _ => [] }                          -- 32-43

/-- A sequence of calls. -/
def Store.run (compact : Bool) (env : Env RD) (st : Store RD) : List Op → Option (Store RD)
  | [] => some st
  | op :: ops => (st.step compact env op).bind fun st' => st'.run compact env ops

end Verif.LineRegions
