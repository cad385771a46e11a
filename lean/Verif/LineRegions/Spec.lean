import Verif.LineRegions.Model
/-!
# Specification of the line region store: a picture made of layers

A line is a picture: a stack of layers, the latest on top.  A region reported on `[s,e)` is a layer on
these columns, a scheme change at column `s` is a layer from `s` to the end of line.  Pair
("special") regions are not drawn, they are listed.  The specification also says which call
sequences are legal (`none` = the caller broke the `RegionHandler` protocol).
-/
namespace Verif.LineRegions.Spec
open Verif.LineRegions

variable {RD : Type}

/-- A layer of paint: columns `[lo, hi)`, `hi = none` is the end of line. -/
structure Layer (RD : Type) where
  lo  : Int
  hi  : Option Int
  pay : Payload RD

/-- Does the layer cover column `x`? -/
def Layer.covers (y : Layer RD) (x : Int) : Bool :=
  decide (y.lo ≤ x) && (match y.hi with | none => true | some h => decide (x < h))

/-- The picture of one line; `layers` latest first, `specials` oldest first. -/
structure Picture (RD : Type) where
  layers   : List (Layer RD)
  specials : List (Int × Int × Payload RD)

/-- What is seen at column `x`: the topmost layer that covers it. -/
def Picture.shown (p : Picture RD) (x : Int) : Option (Payload RD) :=
  (p.layers.find? (·.covers x)).map (·.pay)

/-- Style of a region seen against a background: the region's own style (or, if it has none, the
background's), completed by the background. Nothing if there is no style table. -/
def styleOn (env : Env RD) (region : Option Nat) (back : Option RD) : Option RD :=
  env.mapper.bind fun table =>
    let own := match region with | some r => table r | none => none
    match own, back with
    | some rd, b => some (env.assignParent rd b)
    | none, some b => some (env.assignParent b (some b))
    | none, none => none

/-- State of the specification: the window, the line being reported, the open backgrounds (innermost
first) and the known pictures of lines. -/
structure SpecSt (RD : Type) where
  n     : Nat
  first : Nat
  cur   : Option Nat
  stack : List (Payload RD)
  pics  : Nat → Option (Picture RD)

def SpecSt.init : SpecSt RD := { n := 0, first := 0, cur := none, stack := [], pics := fun _ => none }

def inWin (first n L : Nat) : Prop := first ≤ L ∧ L < first + n
instance (first n L : Nat) : Decidable (inWin first n L) := inferInstanceAs (Decidable (_ ∧ _))

/-- Redraw line `L` (only lines of the window are remembered). -/
def SpecSt.draw (sp : SpecSt RD) (L : Nat) (f : Picture RD → Picture RD) : Nat → Option (Picture RD) :=
  fun M => if M = L ∧ inWin sp.first sp.n L then (sp.pics M).map f else sp.pics M

/-- One legal call and its effect on the pictures. -/
def specStep (env : Env RD) (sp : SpecSt RD) : Op → Option (SpecSt RD)
  | .start _ => some { sp with cur := none, stack := [⟨none, none, env.background⟩] }
  | .clearLine L =>
    match sp.stack with
    | [] => none
    | bg :: _ => some { sp with
        cur := some L
        pics := fun M => if M = L ∧ inWin sp.first sp.n L
                         then some { layers := [⟨0, none, bg⟩], specials := [] } else sp.pics M }
  | .region L s e r =>
    match sp.stack with
    | [] => none
    | bg :: _ =>
      if sp.cur = some L ∧ 0 ≤ s ∧ s ≤ e then
        let pay : Payload RD := ⟨some r, bg.scheme, styleOn env (some r) bg.rdef⟩
        some { sp with pics := sp.draw L fun p =>
          if env.isSpecial r then { p with specials := p.specials ++ [(s, e, pay)] }
          else { p with layers := ⟨s, some e, pay⟩ :: p.layers } }
      else none
  | .enter L s _ r scheme =>
    match sp.stack with
    | [] => none
    | bg :: rest =>
      if sp.cur = some L ∧ 0 ≤ s then
        let pay : Payload RD := ⟨r, some scheme, styleOn env r bg.rdef⟩
        some { sp with
          stack := pay :: bg :: rest
          pics := if r.isSome then sp.draw L fun p => { p with layers := ⟨s, none, pay⟩ :: p.layers }
                  else sp.pics }
      else none
  | .leave L _ e _ _ =>
    match sp.stack with
    | old :: bg :: rest =>
      if sp.cur = some L ∧ 0 ≤ e then
        some { sp with
          stack := bg :: rest
          pics := if old.region.isSome then sp.draw L fun p => { p with layers := ⟨e, none, bg⟩ :: p.layers }
                  else sp.pics }
      else none
    | _ => none
  | .setFirst f => some { sp with
      cur := none, first := f
      pics := fun M => if inWin f sp.n M then sp.pics M else none }
  | .resize n => some { sp with cur := none, n := n, pics := fun _ => none }
  | .clear => some { sp with cur := none, pics := fun _ => none }

def specRun (env : Env RD) (sp : SpecSt RD) : List Op → Option (SpecSt RD)
  | [] => some sp
  | op :: ops => (specStep env sp op).bind fun sp' => specRun env sp' ops

end Verif.LineRegions.Spec
