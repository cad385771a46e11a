import Verif.Styles.Model
/-! Specification of style lookup. -/
namespace Verif.Styles

/-- `d` is the style object of region `id`: its own, or that of the nearest ancestor that has one. -/
inductive Nearest (R : Nat → Reg) (defs : Nat → Option Nat) : Nat → Nat → Prop
  | own {id d} : defs (R id).name = some d → Nearest R defs id d
  | inherited {id p d} : defs (R id).name = none → (R id).parent = some p → Nearest R defs p d → Nearest R defs id d

/-- every region's parent was registered before it (see C14) -/
def ParentsFirst (R : Nat → Reg) : Prop := ∀ id p, (R id).parent = some p → p < id

/-- what a sequence of definitions leaves for a name: the last value given to it -/
def lastDef {V : Type} (name : Nat) : List (Op V) → Option V → Option V
  | [], acc => acc
  | .set n v :: r, acc => lastDef name r (if n = name then some v else acc)
  | .assign n v :: r, acc => lastDef name r (if n = name then some v else acc)
  | .get _ :: r, acc => lastDef name r acc

/-- The style value the user expects for region `id` after the definitions `ops`: the last value defined for its own name,
or else the one expected for its parent. -/
inductive Expected {V : Type} (R : Nat → Reg) (ops : List (Op V)) : Nat → V → Prop
  | own {id v} : lastDef (R id).name ops none = some v → Expected R ops id v
  | inherited {id p v} : lastDef (R id).name ops none = none → (R id).parent = some p → Expected R ops p v →
      Expected R ops id v

/-- a colour field: `none` when unset -/
def Styled.foreOpt (s : Styled) : Option (BitVec 32) := if s.isForeSet then some s.fore else none
def Styled.backOpt (s : Styled) : Option (BitVec 32) := if s.isBackSet then some s.back else none

/-- both halves of a markup pair are present -/
def Text.textOpt (t : Text) : Option (List Nat × List Nat) :=
  match t.startText, t.endText with
  | some a, some b => some (a, b)
  | _, _ => none
def Text.backOpt (t : Text) : Option (List Nat × List Nat) :=
  match t.startBack, t.endBack with
  | some a, some b => some (a, b)
  | _, _ => none

end Verif.Styles
