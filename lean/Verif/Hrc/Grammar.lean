import Verif.RegExp.Compile
import Verif.Keywords.Model
/-!
# What a scheme is written as, and what it is loaded as

Models `XMLNode` (xml/XMLNode.h, XMLNode.cpp), `SchemeNode` and its kinds (parsers/SchemeNode.h), `VirtualEntry` (parsers/VirtualEntry.h),
`SchemeImpl` (parsers/SchemeImpl.h) of /repo/src/colorer, and what the loader asks of an expression: `CRegExp::setRE` with the names of its
brackets (`getBracketName`, cregexp.cpp 1544-1549).
-/
namespace Verif.Hrc
open Verif.RegExp (Expr Ctx Cls)
open Verif.Keywords (KW KWList)

abbrev Name := List Nat

/-- the names of elements and attributes (base/XmlTagDefs.h 66-130) -/
def lit (s : String) : Name := s.toList.map Char.toNat

/-- `XMLNode`: tag, attributes, text, children -/
inductive Elem where
  | mk (tag : Name) (attrs : List (Name × Name)) (text : Name) (kids : List Elem)

def Elem.tag : Elem → Name | .mk t _ _ _ => t
def Elem.attrs : Elem → List (Name × Name) | .mk _ a _ _ => a
def Elem.text : Elem → Name | .mk _ _ t _ => t
def Elem.kids : Elem → List Elem | .mk _ _ _ k => k

/-- `attributes.find(key)` -/
def Elem.attr? (e : Elem) (key : Name) : Option Name := (e.attrs.find? (·.1 = key)).map (·.2)

/-- `getAttrValue` (XMLNode.cpp 3-12): the empty string if there is none -/
def Elem.attr (e : Elem) (key : Name) : Name := (e.attr? key).getD []

/-- a reference to a scheme: the fields `schemeName` and `scheme`. The scheme is given by its qualified name. -/
structure Link where
  name   : Option Name
  scheme : Option Name
deriving DecidableEq, Repr

/-- still to be resolved (updateSchemeLink 856) -/
def Link.pending (l : Link) : Bool := l.name.isSome && l.scheme.isNone

/-- `VirtualEntry` -/
structure VEnt where
  virt  : Link
  subst : Link
deriving DecidableEq, Repr

/-- `SchemeNodeRegexp`: regions by number -/
structure ReNode where
  low      : Bool
  start    : Expr
  region   : Option Nat
  regions  : List (Option Nat)
  regionsn : List (Option Nat)

/-- `SchemeNodeBlock` -/
structure BlockNode where
  inner    : Bool
  low      : Bool
  lowContent : Bool
  link     : Link
  start    : Expr
  stop     : Expr
  region   : Option Nat
  regions  : List (Option Nat)
  regione  : List (Option Nat)
  regionsn : List (Option Nat)
  regionen : List (Option Nat)

/-- `SchemeNodeKeywords` -/
structure KwNode where
  matchCase : Bool
  list    : KWList
  worddiv : Option Cls

/-- `SchemeNode` -/
inductive SNode where
  | inherit (link : Link) (virt : List VEnt)
  | regexp (n : ReNode)
  | block (n : BlockNode)
  | keywords (n : KwNode)

/-- `SchemeImpl`: name, type (`fileType`), nodes -/
structure Sch where
  name  : Name
  type  : Name
  nodes : List SNode

/-- the links of a node, in the order in which updateLinks resolves them (881-894) -/
def VEnt.links (v : VEnt) : List Link := [v.virt, v.subst]
def SNode.links : SNode → List Link
  | .inherit l virt => l :: virt.flatMap VEnt.links
  | .block b => [b.link]
  | .regexp _ => []
  | .keywords _ => []

/-! ## Expressions -/

/-- `brnames` after `setRE` (cregexp.cpp 503-514): the names of the named brackets, in order. (`setRE` in Verif.RegExp.Compile keeps only their
number.) -/
def bracketNames (x : Ctx) (t : Name) : List Name :=
  match t.dropWhile x.isSpace with
  | 47 :: t2 => match RegExp.lastSlash t2 with
    | none => []
    | some (b, fl) =>
      match RegExp.scan { x with ignoreCase := fl.contains 105, extend := fl.contains 120 } (b.length + 1) ⟨1, []⟩ b with
      | .ok _ st _ => st.names
      | _ => []
  | _ => []

/-- `CRegExp re(text)` and `isOk()`: `none` is a faulty expression. (setRE ends for every text, C55.) -/
def compile (x : Ctx) (t : Name) : Option Expr := match RegExp.setRE x t with
  | some (.ok e) => some e
  | _ => none

end Verif.Hrc
