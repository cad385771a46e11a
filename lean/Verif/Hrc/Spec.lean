import Verif.Hrc.Model
import Mathlib.Data.List.Forall2
/-! Specification for type loading, names and entities. -/
namespace Verif.Hrc

/-- the type a qualified name belongs to: what stands before its first colon -/
def owner (n : Name) : Name := n.takeWhile (· ≠ 58)

/-- What the region table looks like to a user: numbers are positions, no name occurs twice, every parent has a smaller
number, every region has a qualified name and belongs to a type whose loading has begun. -/
structure Registry (L : Lib) : Prop where
  unique  : ∀ (i j : Nat) (ri rj : RegionRec), L.regs[i]? = some ri → L.regs[j]? = some rj → ri.name = rj.name → i = j
  parents : ∀ (i : Nat) (r : RegionRec) (p : Nat), L.regs[i]? = some r → r.parent = some p → p < i
  owners  : ∀ r ∈ L.regs, owner r.name ∈ L.started
  colons  : ∀ r ∈ L.regs, 58 ∈ r.name

/-- consistency of the loading flags and imports -/
structure Flags (L : Lib) : Prop where
  started : ∀ t ∈ L.started, t ∈ L.protos
  cur     : ∀ t, L.cur = some t → t ∈ L.started
  imports : ∀ x, ∀ t ∈ L.imports x, t ∈ L.protos
  plain   : ∀ t ∈ L.protos, 58 ∉ t

/-- a region number that exists, or none -/
def RegionOk (L : Lib) (r : Option Nat) : Prop := ∀ i, r = some i → i < L.regs.length

/-- the regions of the 16 groups: all of them exist -/
def SlotsOk (L : Lib) (rs : List (Option Nat)) : Prop := rs.length = 16 ∧ ∀ r ∈ rs, RegionOk L r

/-- the list that holds the given keywords, before sorting: their first characters (with the other cases if case is ignored), the least length -/
def filled (x : RegExp.Ctx) (matchCase : Bool) (num : Nat) (kws : List Keywords.KW) : KwArr :=
  ⟨num, kws, fun c => kws.any fun k => c = k.word.headD 0 || (!matchCase && (c = x.lower (k.word.headD 0) || c = x.upper (k.word.headD 0) || c = x.title (k.word.headD 0))),
    kws.foldl (fun m k => min m k.word.length) 2147483647⟩

/-- A node the parser can work with: its expressions were accepted by the compiler – an end expression knowing the named brackets of the start
expression –, its regions exist, the schemes it refers to exist, its keywords are not empty. -/
def SNode.Fine (W : World) (L : Lib) (nd : SNode) : Prop :=
  (∀ l ∈ nd.links, ∀ q, l.scheme = some q → ∃ s ∈ L.schemes, s.name = q) ∧
  match nd with
  | .inherit _ _ => True
  | .regexp n => (∃ t, RegExp.setRE W.ctx t = some (.ok n.start)) ∧ RegionOk L n.region ∧ SlotsOk L n.regions ∧ SlotsOk L n.regionsn
  | .block n => (∃ t u, RegExp.setRE W.ctx t = some (.ok n.start) ∧
      RegExp.setRE { W.ctx with back := some (bracketNames W.ctx t) } u = some (.ok n.stop)) ∧ RegionOk L n.region ∧
      SlotsOk L n.regions ∧ SlotsOk L n.regione ∧ SlotsOk L n.regionsn ∧ SlotsOk L n.regionen
  | .keywords n => ∃ kws : List Keywords.KW, (∀ k ∈ kws, k.word ≠ [] ∧ k.shorter = none ∧ RegionOk L k.region) ∧
      n.list = finishList W n.matchCase (filled W.ctx n.matchCase kws.length kws)

/-- the table of schemes: no name twice, every scheme belongs to the type its name says, which has been started, all nodes are fine -/
structure Schemes (W : World) (L : Lib) : Prop where
  unique : (L.schemes.map (·.name)).Nodup
  owners : ∀ s ∈ L.schemes, owner s.name = s.type ∧ s.type ∈ L.started ∧ 58 ∈ s.name
  nodes  : ∀ s ∈ L.schemes, ∀ nd ∈ s.nodes, nd.Fine W L

/-- a link later on: the same, or resolved (for good, with or without success) -/
def Link.Next (l l' : Link) : Prop := l' = l ∨ (l.pending = true ∧ l'.name = none)

/-- a node later on: the same except for its links -/
def SNode.Next : SNode → SNode → Prop
  | .inherit l v, .inherit l' v' => l.Next l' ∧ List.Forall₂ (fun a b : VEnt => a.virt.Next b.virt ∧ a.subst.Next b.subst) v v'
  | .block b, .block b' => b.link.Next b'.link ∧ b' = { b with link := b'.link }
  | .regexp n, .regexp n' => n' = n
  | .keywords n, .keywords n' => n' = n
  | _, _ => False

/-- a scheme later on -/
def Sch.Next (s s' : Sch) : Prop := s'.name = s.name ∧ s'.type = s.type ∧ List.Forall₂ SNode.Next s.nodes s'.nodes

/-- `a` is `e` itself or one of its ancestors -/
inductive Ancestor (regs : List RegionRec) (a : Nat) : Nat → Prop
  | self : Ancestor regs a a
  | up {e p r} : regs[e]? = some r → r.parent = some p → Ancestor regs a p → Ancestor regs a e

/-- Entity expansion as the HRC documentation has it, on the rest of the text after the character `prev`: an unescaped
`%name;` with a known name is replaced by its value (which is not expanded again), everything else is kept. -/
def expand (ent : Name → Option Name) (prev : Option Nat) : Name → Name
  | [] => []
  | c :: r =>
    if c = 37 ∧ prev ≠ some 92 then
      match r.idxOf? 59 with
      | some k => match ent (r.take k) with
        | some v => v ++ expand ent (some 59) (r.drop (k + 1))
        | none => c :: expand ent (some c) r
      | none => c :: expand ent (some c) r
    else c :: expand ent (some c) r
termination_by t => t.length
decreasing_by all_goals simp_wf <;> omega

/-- the object of kind `k` a name stands for inside the type `t` with imports `is`, in a settled library: a qualified name
stands for itself, an unqualified one for the first of `t:name`, `import1:name`, … that exists -/
def meaning (L : Lib) (k : Kind) (t : Name) (n : Name) : Option Name :=
  if 58 ∈ n then (if owner n ∈ L.protos ∧ L.has k n then some n else none)
  else ((t :: L.imports t).map (· ++ 58 :: n)).find? (L.has k)

end Verif.Hrc
