import Verif.FileTypes.Model
/-! Specification for file types. -/
namespace Verif.FileTypes

/-- What is known about one parameter: nothing, or a default value, a user value, a description. -/
abbrev View := Option (Nat × Option Nat × Option Nat)

/-- the effect of a call on one parameter `n` -/
def viewStep (n : Nat) (v : View) : POp → View
  | .add m d => if m = n then (match v with | none => some (d, none, none) | some x => some x) else v
  | .setUser m u => if m = n then v.map fun (d, _, t) => (d, u, t) else v
  | .setDefault m (some d) => if m = n then v.map fun (_, u, t) => (d, u, t) else v
  | .setDefault _ none => v
  | .setDescr m t => if m = n then v.map fun (d, u, _) => (d, u, t) else v

/-- the parameter after a history of calls -/
def viewOf (n : Nat) (ops : List POp) : View := ops.foldl (viewStep n) none

/-- The file types after a history of registrations, packages included: each new registration removes an older one of the
same name and comes last. -/
def registered : List ROp → List (Nat × Bool)
  | ops => ops.foldl (fun acc o => match o with
    | .proto n p => acc.filter (fun x => x.1 ≠ n) ++ [(n, p)]
    | .scheme _ _ => acc) []

end Verif.FileTypes
