import Verif.Hrc.Spec
/-! Specification of scheme bodies: what an element stands for, once it is known what the names in it stand for. -/
namespace Verif.Hrc
open Verif.Keywords (KW)

/-- what the names used in an element stand for: regions, entities, schemes -/
structure Look where
  region : Name → Option Nat
  entity : Name → Option Name
  scheme : Name → Option Name

/-- the region named by an attribute -/
def Look.attr (k : Look) (el : Elem) (key : Name) : Option Nat := (el.attr? key).bind k.region

/-- the regions named by `prefix0` … `prefixf` -/
def Look.slots (k : Look) (el : Elem) (pre : Name) : List (Option Nat) :=
  ("0123456789abcdef".toList.map Char.toNat).map fun c => k.attr el (pre ++ [c])

/-- named brackets give the region of that name, if there is one -/
def Look.named (k : Look) (names : List Name) : List (Option Nat) := (List.range 16).map fun i => (names[i]?).bind k.region

/-- a text with its entities replaced -/
def Look.text (k : Look) (v : Name) : Name := expand k.entity none v

/-- `<inherit scheme="…"><virtual scheme="…" subst-scheme="…"/>…</inherit>`: a scheme that is known is linked at once -/
def readInherit (k : Look) (el : Elem) : Option SNode :=
  if el.attr (lit "scheme") = [] then none
  else some (.inherit (match k.scheme (el.attr (lit "scheme")) with
    | some q => ⟨some q, some q⟩
    | none => ⟨some (el.attr (lit "scheme")), none⟩)
    ((el.kids.filter fun v => v.tag = lit "virtual" ∧ v.attr (lit "scheme") ≠ [] ∧ v.attr (lit "subst-scheme") ≠ []).map fun v =>
      ⟨⟨some (v.attr (lit "scheme")), none⟩, ⟨some (v.attr (lit "subst-scheme")), none⟩⟩))

/-- `<regexp match="…" region="…" region0="…" …/>`, the expression in the attribute or in the text -/
def readRegexp (W : World) (k : Look) (el : Elem) : Option SNode :=
  let v := if el.attr (lit "match") = [] then el.text else el.attr (lit "match")
  if v = [] then none
  else (compile W.ctx (k.text v)).map fun e => .regexp
    { low := el.attr (lit "priority") = lit "low", start := e, region := k.attr el (lit "region"),
      regions := match k.attr el (lit "region") with
        | some r => some r :: (k.slots el (lit "region")).tail
        | none => k.slots el (lit "region"),
      regionsn := k.named (bracketNames W.ctx (k.text v)) }

/-- the element `<start>` or `<end>` of a block: it is looked at only if the block has neither attribute; the last one counts -/
def edge (el : Elem) (tag : Name) : Option Elem :=
  if el.attr (lit "start") = [] ∧ el.attr (lit "end") = [] then (el.kids.filter fun v => v.tag = tag).getLast? else none

/-- the expression of that edge -/
def edgeText (el : Elem) (tag : Name) : Name := match edge el tag with
  | some v => (v.attr? (lit "match")).getD v.text
  | none => el.attr tag

/-- the regions of that edge: from its element, if it has one -/
def edgeSlots (k : Look) (el : Elem) (tag pre : Name) : List (Option Nat) := match edge el tag with
  | some v => k.slots v (lit "region")
  | none => k.slots el pre

/-- the first region there is -/
def firstOf : List (Option Nat) → Option Nat
  | [] => none
  | some r :: _ => some r
  | none :: l => firstOf l

/-- `<block start="…" end="…" scheme="…" region="…" region00="…" … region10="…" …/>`, or with elements `<start>` and `<end>` -/
def readBlock (W : World) (k : Look) (el : Elem) : Option SNode :=
  let v := edgeText el (lit "start")
  let w := edgeText el (lit "end")
  if v = [] ∨ w = [] ∨ el.attr (lit "scheme") = [] then none
  else (compile W.ctx (k.text v)).bind fun e =>
    (compile { W.ctx with back := some (bracketNames W.ctx (k.text v)) } (k.text w)).map fun e' => .block
      { inner := el.attr (lit "inner-region") = lit "yes", low := el.attr (lit "priority") = lit "low",
        lowContent := el.attr (lit "content-priority") = lit "low", link := ⟨some (el.attr (lit "scheme")), none⟩, start := e, stop := e',
        region := firstOf [k.attr el (lit "region"), (edge el (lit "start")).bind fun v => k.attr v (lit "region"),
          (edge el (lit "end")).bind fun v => k.attr v (lit "region")],
        regions := edgeSlots k el (lit "start") (lit "region0"), regione := edgeSlots k el (lit "end") (lit "region1"),
        regionsn := k.named (bracketNames W.ctx (k.text v)),
        regionen := k.named (bracketNames { W.ctx with back := some (bracketNames W.ctx (k.text v)) } (k.text w)) }

/-- `<keywords region="…" ignorecase="yes" worddiv="…"><word name="…" region="…"/><symb …/>…</keywords>` -/
def readKeywords (W : World) (k : Look) (el : Elem) : Option SNode :=
  (k.attr el (lit "region")).map fun r =>
    let words := (el.kids.filter fun v => (v.tag = lit "word" ∨ v.tag = lit "symb") ∧ v.attr (lit "name") ≠ []).map fun v =>
      (⟨v.attr (lit "name"), if v.attr (lit "region") = [] then some r else k.attr v (lit "region"), v.tag = lit "symb", none⟩ : KW)
    let mc : Bool := el.attr (lit "ignorecase") ≠ lit "yes"
    .keywords ⟨mc, finishList W mc (filled W.ctx mc words.length words),
      if el.attr (lit "worddiv") = [] then none else wordDiv W.ctx (k.text (el.attr (lit "worddiv")))⟩

/-- the node an element stands for; `none`: it is skipped -/
def readNode (W : World) (k : Look) (el : Elem) : Option SNode :=
  if el.tag = lit "inherit" then readInherit k el
  else if el.tag = lit "regexp" then readRegexp W k el
  else if el.tag = lit "block" then readBlock W k el
  else if el.tag = lit "keywords" then readKeywords W k el
  else none

/-- what names stand for inside the type `t` (`meaning`, C26); a region whose name ends in `:default` is no region -/
def Lib.look (L : Lib) (t : Name) : Look where
  region n := if n = [] then none else (meaning L .region t n).bind fun q => if isDefault q then none else L.findReg q
  entity n := (meaning L .entity t n).bind L.findEnt
  scheme n := meaning L .scheme t n

/-- the name of a scheme declared as `n` in the type `t`; a name qualified with another type is no good -/
def OwnName (t n q : Name) : Prop := (58 ∉ n ∧ q = t ++ 58 :: n) ∨ (58 ∈ n ∧ owner n = t ∧ q = n)

/-- `if="p"` where the parameter `p` is not `true`, or `unless="p"` where it is -/
def Skipped (W : World) (t : Name) (el : Elem) : Prop :=
  (el.attr (lit "if") ≠ [] ∧ ∃ v, W.param t (el.attr (lit "if")) = some v ∧ v ≠ lit "true") ∨
  (el.attr (lit "unless") ≠ [] ∧ W.param t (el.attr (lit "unless")) = some (lit "true"))

/-- all types known have been started, `t` is being read -/
structure Ready (L : Lib) (t : Name) : Prop where
  flags : Flags L
  cur   : L.cur = some t
  all   : ∀ i ∈ L.protos, i ∈ L.started

end Verif.Hrc
