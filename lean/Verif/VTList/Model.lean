/-!
# Model of the list of active virtual substitutions

Models `class VTList` (parsers/TextParserHelpers.h:19-45, parsers/TextParserHelpers.cpp:58-181 of /repo/src/colorer) and the
way `TextParser::Impl::searchIN` / `searchBL` use it (parsers/TextParserImpl.cpp:273-302, 328-452).

The doubly linked list with its cursor `last` is a zipper: `left` are the nodes from `last` back to (not including) the root
object, `right` the nodes behind `last` in forward order. Node identity is a number (needed for the pointer `shadowlast`).
Memory errors (null or dangling pointers, popping the root) are `none`.
A scheme is a number; a `VirtualEntry` is (virtScheme, substScheme) with `substScheme` possibly null.
-/
namespace Verif.VTList

/-- `VirtualEntryVector`: (virtScheme, substScheme) pairs. -/
abbrev VEntries := List (Nat × Option Nat)

/-- A node of the list; `shadow` is `shadowlast`. -/
structure Node where
  id     : Nat
  vlist  : VEntries
  shadow : Option Nat
deriving DecidableEq, Repr

/-- The root object: `left`/`right` of the cursor, `nodesnum`, and the ghost supply of node identities. -/
structure VT where
  left  : List Node
  right : List Node
  num   : Int
  fresh : Nat
deriving DecidableEq, Repr

/-- default constructor (TextParserHelpers.h:21-29) -/
def VT.empty (fresh : Nat) : VT := { left := [], right := [], num := 0, fresh := fresh }

/-- `push` (TextParserHelpers.cpp:75-91): `entries` is `node->virtualEntryVector`. -/
def VT.push (v : VT) (entries : VEntries) : Bool × VT :=
  if entries = [] then (false, v)
  else (true, { v with left := ⟨v.fresh, entries, none⟩ :: v.left, num := v.num + 1, fresh := v.fresh + 1 })

/-- `pop` (TextParserHelpers.cpp:93-105): unlinks the node at the cursor; on the root it dereferences a null `prev`. -/
def VT.pop (v : VT) : Option VT := match v.left with
  | [] => none
  | _ :: l => some { v with left := l, num := v.num - 1 }

/-- inner loop of `pushvirt` over one node's entries (113-118): the new `ret` and whether anything matched. -/
def substNode (ret : Nat) : VEntries → Nat × Bool
  | [] => (ret, false)
  | (virt, subst) :: r =>
    match subst with
    | some s => if ret = virt then ((substNode s r).1, true) else substNode ret r
    | none => substNode ret r

/-- outer loop of `pushvirt` (112-119), from the cursor towards the root: final `ret` and the number of nodes from the
cursor up to and including `curvl` (0 = `curvl` null). -/
def walk (ret : Nat) : List Node → Nat × Nat
  | [] => (ret, 0)
  | n :: l =>
    let (r, hit) := substNode ret n.vlist
    let (r', k) := walk r l
    (r', if k ≠ 0 then k + 1 else if hit then 1 else 0)

/-- moving the cursor back over `k` nodes -/
def moveBack : Nat → List Node → List Node → List Node × List Node
  | 0, l, r => (l, r)
  | k + 1, n :: l, r => moveBack k l (n :: r)
  | _ + 1, [], r => ([], r)

/-- `pushvirt` (TextParserHelpers.cpp:107-126). -/
def VT.pushvirt (v : VT) (scheme : Nat) : Option Nat × VT :=
  let (ret, k) := walk scheme v.left
  if k = 0 then (none, v)
  else
    let (l, r) := moveBack k v.left v.right
    -- `curvl` is the first node of `r`; `last` was the first node of `v.left`
    let r' := match r, v.left with
      | c :: rs, lst :: _ => { c with shadow := some lst.id } :: rs
      | r, _ => r
    (some ret, { v with left := l, right := r' })

/-- moving the cursor forward up to the node `id`: `none` if the pointer dangles -/
def moveTo (id : Nat) : List Node → List Node → Option (List Node × List Node)
  | _, [] => none
  | l, n :: r => if n.id = id then some (n :: l, r) else moveTo id (n :: l) r

/-- `popvirt` (TextParserHelpers.cpp:128-134). -/
def VT.popvirt (v : VT) : Option VT := match v.right with
  | [] => none
  | c :: r => match c.shadow with
    | none => none
    | some id => (moveTo id v.left ({ c with shadow := none } :: r)).map fun (l, r) => { v with left := l, right := r }

/-- `store` (TextParserHelpers.cpp:146-161): the entry vectors from the root up to the cursor; null when empty. -/
def VT.store (v : VT) : Option (List VEntries) :=
  if v.num = 0 ∨ v.left = [] then none else some (v.left.reverse.map (·.vlist))

/-- nodes created by `restore` for the stored vectors, in order -/
def mkNodes (fresh : Nat) : List VEntries → List Node
  | [] => []
  | e :: r => ⟨fresh, e, none⟩ :: mkNodes (fresh + 1) r

/-- `restore` (TextParserHelpers.cpp:163-181). -/
def VT.restore (v : VT) (store : Option (List VEntries)) : VT :=
  if v.left ≠ [] ∨ v.right ≠ [] then v
  else match store with
    | none => v
    | some l => { v with left := (mkNodes v.fresh l).reverse, num := v.num + l.length, fresh := v.fresh + l.length }

/-- `clear` (TextParserHelpers.cpp:136-144). -/
def VT.clear (v : VT) : VT := { v with left := [], right := [], num := 0 }

/-! ## How the parser uses the list -/

/-- The calls made during one search, abstracted from what the search does in between: an `<inherit>` node with its
scheme and virtual entries, or a `<block>` node with its scheme; the nested searches happen in `body`, what follows in
the same scheme is `rest`. Which nodes are tried is decided by the text; here it is arbitrary. -/
inductive Search where
  | done
  | inh (scheme : Nat) (entries : VEntries) (bodySubst bodyPlain rest : Search)
  | block (scheme : Nat) (body rest : Search)

/-- `searchIN` (TextParserImpl.cpp:282-300) and the list operations of `searchBL` (345-350, 440-442). -/
def run (v : VT) : Search → Option VT
  | .done => some v
  | .inh scheme entries bs bp rest =>
    match v.pushvirt scheme with
    | (none, v1) =>
      let (b, v2) := v1.push entries
      (run v2 bp).bind fun v3 => (if b then v3.pop else some v3).bind fun v4 => run v4 rest
    | (some _, v1) => (run v1 bs).bind fun v2 => v2.popvirt.bind fun v3 => run v3 rest
  | .block scheme body rest =>
    match v.pushvirt scheme with
    | (none, v1) => (run v1 body).bind fun v2 => run v2 rest
    | (some s, v1) => (run v1 body).bind fun v2 =>
        (if s ≠ scheme then v2.popvirt else some v2).bind fun v3 => run v3 rest

end Verif.VTList
