import Verif.VTList.Model
/-! Specification: what the active substitutions are and what they substitute. -/
namespace Verif.VTList

/-- The substitutions visible to the parser: entry vectors from the innermost inherit outwards. -/
def VT.active (v : VT) : List VEntries := v.left.map (·.vlist)

/-- One entry vector applied to a scheme: each entry in turn replaces its `virtScheme` by its `substScheme`. -/
def substLevel (e : VEntries) (scheme : Nat) : Nat :=
  e.foldl (fun r p => if r = p.1 then p.2.getD r else r) scheme

/-- Some entry of the vector fires on the way. -/
def fires : VEntries → Nat → Bool
  | [], _ => false
  | p :: e, r => (r = p.1 && p.2.isSome) || fires e (if r = p.1 then p.2.getD r else r)

/-- Resolving a virtual scheme through the levels (innermost first): `none` when nothing fires, else the final scheme and
the levels outside the outermost one that fired (the substituted scheme is searched under these only). -/
def resolve (scheme : Nat) : List VEntries → Option (Nat × List VEntries)
  | [] => none
  | e :: outer =>
    match resolve (substLevel e scheme) outer with
    | some r => some r
    | none => if fires e scheme then some (substLevel e scheme, outer) else none

/-- No block of the search is replaced, by a chain of substitutions, by its own scheme (`levels`: the active
substitutions where the search starts). -/
def Search.NoSelf (levels : List VEntries) : Search → Prop
  | .done => True
  | .inh scheme entries bs bp rest =>
    (match resolve scheme levels with
      | none => bp.NoSelf (if entries = [] then levels else entries :: levels)
      | some (_, outer) => bs.NoSelf outer) ∧ rest.NoSelf levels
  | .block scheme body rest =>
    (match resolve scheme levels with
      | none => body.NoSelf levels
      | some (s, outer) => s ≠ scheme ∧ body.NoSelf outer) ∧ rest.NoSelf levels

/-- List invariant: only nodes behind the cursor are shadowed, identities are unique and below the supply, and the counter
is right. -/
structure Ok (v : VT) : Prop where
  noshadow : ∀ n ∈ v.left, n.shadow = none
  nodup : (v.left ++ v.right).Pairwise fun a b => a.id ≠ b.id
  bound : ∀ n ∈ v.left ++ v.right, n.id < v.fresh
  num : v.num = v.left.length + v.right.length

end Verif.VTList
