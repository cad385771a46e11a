import Verif.Factory.Model
import Mathlib.Data.List.Forall2
/-! Specification for catalogue, prototypes and colour schemes: what the documents say, by lists of elements. -/
namespace Verif.Factory
open Verif.Hrc (Name lit Elem)

/-- the children with a tag, in order -/
def kidsOf (tag : String) (el : Elem) : List Elem := el.kids.filter (·.tag = lit tag)

/-- the links of the `<location>` children, in order; empty ones do not count -/
def linksOf (el : Elem) : List Name := ((kidsOf "location" el).map (·.attr (lit "link"))).filter (· ≠ [])

/-! ## Catalogue -/

/-- the HRC locations of a catalogue -/
def hrcLinks (root : Elem) : List Name := (kidsOf "hrc-sets" root).flatMap linksOf

/-- an `<hrd>` that counts: it has a class, a name and a location -/
def HrdOk (el : Elem) : Prop := el.attr (lit "class") ≠ [] ∧ el.attr (lit "name") ≠ [] ∧ linksOf el ≠ []

instance (el : Elem) : Decidable (HrdOk el) := inferInstanceAs (Decidable (_ ∧ _ ∧ _))

/-- the colour schemes of a catalogue -/
def hrdEntries (root : Elem) : List Elem := ((kidsOf "hrd-sets" root).flatMap (kidsOf "hrd")).filter HrdOk

/-- the colour scheme an `<hrd>` describes -/
def hrdOf (el : Elem) : HrdNode := ⟨el.attr (lit "class"), el.attr (lit "name"), el.attr (lit "description"), linksOf el⟩

/-! ## Prototypes -/

/-- a prototype or package with a name -/
def isProto (el : Elem) : Bool := (el.tag = lit "prototype" || el.tag = lit "package") && el.attr (lit "name") ≠ []

/-- what stands in for a missing attribute -/
def orName (el : Elem) (key : String) : Name := if el.attr (lit key) = [] then el.attr (lit "name") else el.attr (lit key)

/-- all the places a prototype names exist -/
def PlacesExist (O : Outside) (file : Name) (el : Elem) : Prop := ∀ l ∈ linksOf el, ∃ p, O.locate (some file) l = .ok p

/-- the weight a `<filename>` or `<firstline>` has: the attribute, if it is a number that is not negative, otherwise 2 or 1 -/
def Weighs (O : Outside) (el : Elem) (w : Int) : Prop :=
  (∃ d, el.attr (lit "weight") ≠ [] ∧ O.weight (el.attr (lit "weight")) = some d ∧ 0 ≤ d ∧ w = d) ∨
  ((el.attr (lit "weight") = [] ∨ ∀ d, O.weight (el.attr (lit "weight")) = some d → d < 0) ∧ w = (if el.tag = lit "filename" then 2 else 1) * O.unit)

/-- a `<filename>` or `<firstline>` with a text that is an expression -/
def Detects (O : Outside) (el : Elem) (c : Chooser) : Prop :=
  el.text ≠ [] ∧ RegExp.setRE O.ctx el.text = some (.ok c.re) ∧ (c.isFileName = true ↔ el.tag = lit "filename") ∧ Weighs O el c.prio

/-- the elements by which a prototype is detected -/
def detectors (O : Outside) (el : Elem) : List Elem :=
  if el.tag = lit "package" then []
  else el.kids.filter fun k => (k.tag = lit "filename" || k.tag = lit "firstline") && k.text ≠ [] && (Hrc.compile O.ctx k.text).isSome

/-- the `<param>` elements of a prototype that have a name and a value -/
def paramElems (el : Elem) : List Elem :=
  if el.tag = lit "package" then []
  else ((kidsOf "parameters" el).flatMap (kidsOf "param")).filter fun k => k.attr (lit "name") ≠ [] && k.attr (lit "value") ≠ []

/-- What a `<prototype>` or `<package>` in the source `file` says: names; the last place named; the detectors in order; the parameters, each with its first
value and its last description. -/
structure Says (O : Outside) (file : Name) (el : Elem) (P : Proto) : Prop where
  name   : P.name = el.attr (lit "name")
  group  : P.group = orName el "group"
  descr  : P.descr = orName el "description"
  package : P.isPackage = true ↔ el.tag = lit "package"
  source : match (linksOf el).getLast? with
    | some l => ∃ p, O.locate (some file) l = .ok p ∧ P.source = some p
    | none => P.source = none
  choosers : List.Forall₂ (Detects O) (detectors O el) P.choosers
  params : ∀ n, (P.params.find? (·.name = n)).map (·.value) = ((paramElems el).find? (·.attr (lit "name") = n)).map (·.attr (lit "value"))
  descrs : ∀ n, (P.params.find? (·.name = n)).bind (·.descr) =
    (((paramElems el).filter fun k => k.attr (lit "name") = n && k.attr (lit "description") ≠ []).map (·.attr (lit "description"))).getLast?

/-- The types after a history of declarations: a new one removes an older one of the same name and comes last. -/
def declare (old : List Proto) (new : List Proto) : List Proto := new.foldl (fun acc P => acc.filter (·.name ≠ P.name) ++ [P]) old

/-- the prototypes a source declares, in order -/
def Declares (O : Outside) (file : Name) (ps : List Proto) : Prop :=
  ∃ root, O.root file = some root ∧ root.tag = lit "hrc" ∧ List.Forall₂ (Says O file) (root.kids.filter isProto) ps

/-- a file that is not an HRC document -/
def NotHrc (O : Outside) (file : Name) : Prop := ∀ root, O.root file = some root → root.tag ≠ lit "hrc"

/-- what a source that can be located contributes -/
def Gives (O : Outside) (file : Name) (ps : List Proto) : Prop := Declares O file ps ∨ (NotHrc O file ∧ ps = [])

/-- all the places a source names exist -/
def SourceSound (O : Outside) (file : Name) : Prop := ∀ root, O.root file = some root → ∀ el ∈ root.kids, isProto el = true → PlacesExist O file el

/-- it is inside an archive -/
def InArchive (base loc : Name) : Prop := lit "jar:" <+: base ∨ lit "jar:" <+: loc

/-- The sources a location of the catalogue `base` leads to: the file or the files of the directory, or the place in an archive; none if there is no such
file. -/
inductive Leads (O : Outside) (base loc : Name) : List Name → Prop
  | files {fs srcs : List Name} : ¬ InArchive base loc → O.files base loc = .ok fs → List.Forall₂ (fun f p => O.locate none f = .ok p) fs srcs →
      Leads O base loc srcs
  | missing {f : Name} : ¬ InArchive base loc → O.files base loc = .ok [f] → O.locate none f = .error .lib → Leads O base loc []
  | archive {p : Name} : InArchive base loc → O.locate (some base) loc = .ok p → Leads O base loc [p]
  | noArchive : InArchive base loc → O.locate (some base) loc = .error .lib → Leads O base loc []

/-- what the library lists (`enumerateFileTypes`): the names of the types that are no packages -/
def listing (ps : List Proto) : List Name := (ps.filter (!·.isPackage)).map (·.name)

/-- a factory whose types have different names and are listed in the order of registration (as a new one) -/
structure Tidy (F : Fac) : Prop where
  names  : (F.types.map (·.name)).Nodup
  listed : F.listed = listing F.types

/-! ## Colour schemes -/

/-- the `<assign>` elements of a colour scheme file that have a name -/
def assignElems (root : Elem) : List Elem := (kidsOf "assign" root).filter (·.attr (lit "name") ≠ [])

end Verif.Factory
