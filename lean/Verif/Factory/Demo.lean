import Verif.Factory.Start
import Verif.Factory.Hrd
import Verif.Hrc.Props
/-! # Concrete start-ups: premises met, and where C65 to C67 do not hold -/
namespace Verif.Factory
open Verif.Hrc (Name lit Elem Lib)

/-- an element -/
def xe (tag : String) (attrs : List (String × String)) (kids : List Dom) : Dom := .elem (lit tag) (attrs.map fun p => (lit p.1, lit p.2)) kids
def xt (s : String) : Dom := .text (lit s)

/-- surroundings with these files; weights are whole numbers of one digit -/
def disk (fs : List (String × Dom)) : Outside where
  read p := (fs.find? (fun f => lit f.1 = p)).map (·.2)
  space c := c = 32 || c = 10
  locate _ l := if fs.any (fun f => lit f.1 = l) then .ok l else .error .lib
  files _ l := .ok [l]
  normal p := .ok p
  env _ := none
  weight s := match s with
    | [c] => if 48 ≤ c ∧ c ≤ 57 then some (c - 48 : Int) else none
    | _ => none
  unit := 1
  ctx := RegExp.Demo.cx
  order l := l.reverse
  qsort _ l := l
  order_perm l := l.reverse_perm
  qsort_perm _ l := .refl l
  fuel := 9

/-- a catalogue with two sources and a colour scheme of two files -/
def catalogue : Dom := xe "catalog" [] [.other,
  xe "hrc-sets" [] [xe "location" [("link", "one.hrc")] [], xe "location" [("link", "gone.hrc")] [], xe "location" [("link", "two.hrc")] []],
  xe "hrd-sets" [] [xe "hrd" [("class", "rgb"), ("name", "default")] [xe "location" [("link", "a.hrd")] [], xe "location" [("link", "b.hrd")] []]]]

/-- the files of the demonstration -/
def files : List (String × Dom) := [
  ("cat", catalogue),
  ("one.hrc", xe "hrc" [] [
    xe "prototype" [("name", "t"), ("group", "g")] [xe "location" [("link", "t.hrc")] [], xe "filename" [("weight", "3")] [xt " /t$/ "],
      xe "firstline" [] [xt "/(/"], xe "parameters" [] [xe "param" [("name", "p"), ("value", "1")] []]],
    xe "package" [("name", "k")] [xe "filename" [] [xt "/k/"]]]),
  ("two.hrc", xe "hrc" [] [xe "prototype" [("name", "u"), ("description", "U")] [],
    xe "prototype" [("name", "t")] [xe "location" [("link", "t.hrc")] [], xe "firstline" [] [xt "/x/"]]]),
  ("t.hrc", xe "hrc" [] [xe "type" [("name", "t")] [xe "region" [("name", "A")] [],
    xe "scheme" [("name", "t")] [xe "block" [("start", "/a/"), ("end", "/b/"), ("scheme", "t"), ("region", "A")] []]]]),
  ("a.hrd", xe "hrd" [] [xe "assign" [("name", "t:A"), ("fore", "#ff0000")] [], xe "assign" [("name", "t:B"), ("back", "#00ff00"), ("style", "1")] []]),
  ("b.hrd", xe "hrd" [] [xe "define" [("name", "t:B")] [], xe "assign" [("name", "t:A"), ("fore", "#0000FF")] []])]

def demo : Outside := disk files

/-- what can be compared of a type -/
structure PShape where
  name : Name
  group : Name
  descr : Name
  isPackage : Bool
  source : Option Name
  choosers : List (Bool × Int)
  params : List Param
deriving DecidableEq

def Proto.shape (p : Proto) : PShape :=
  ⟨p.name, p.group, p.descr, p.isPackage, p.source, p.choosers.map fun c => (c.isFileName, c.prio), p.params⟩

/-- `t` has been replaced by the later declaration, `k` is not listed -/
example : (loadCatalog demo (some (lit "cat")) Fac.new).2 = none ∧
    (loadCatalog demo (some (lit "cat")) Fac.new).1.types.map Proto.shape =
      [⟨lit "k", lit "k", lit "k", true, none, [], []⟩, ⟨lit "u", lit "u", lit "U", false, none, [], []⟩,
       ⟨lit "t", lit "t", lit "t", false, some (lit "t.hrc"), [(false, 1)], []⟩] ∧
    (loadCatalog demo (some (lit "cat")) Fac.new).1.listed = [lit "u", lit "t"] := by decide +kernel

/-- the document of the catalogue -/
def catRoot : Elem := ((demo.root (lit "cat")).getD (.mk [] [] [] []))

theorem links_decide {O : Outside} {file : Name} {el : Elem} (h : (linksOf el).all (fun l => (O.locate (some file) l).isOk) = true) : PlacesExist O file el := by
  intro l hl
  have := List.all_eq_true.1 h l hl
  cases hc : O.locate (some file) l with
  | ok p => exact ⟨p, rfl⟩
  | error e => rw [hc] at this; cases this

/-- decides whether a source is sound and has no types -/
def okSource (O : Outside) (file : Name) : Bool := match O.root file with
  | none => true
  | some r => r.kids.all fun el => !(el.tag = lit "type") && (!isProto el || (linksOf el).all (fun l => (O.locate (some file) l).isOk))

theorem okSource_sound {O : Outside} {file : Name} (h : okSource O file = true) : SourceSound O file ∧ NoTypes O file := by
  unfold okSource at h
  constructor
  · intro root hr el hel hi
    rw [hr] at h
    have := List.all_eq_true.1 h el hel
    simp only [hi, Bool.not_true, Bool.false_or, Bool.and_eq_true] at this
    exact links_decide this.2
  · intro root hr el hel ht
    rw [hr] at h
    have := List.all_eq_true.1 h el hel
    simp [ht] at this

/-- C65, C66 and C67 speak of this start-up -/
example : ∃ F pss, loadCatalog demo (some (lit "cat")) Fac.new = (F, none) ∧ List.Forall₂ (Gives demo) [lit "one.hrc", lit "two.hrc"] pss ∧
    F.types = declare [] pss.flatten ∧ F.listed = listing F.types ∧ F.lib = Lib.init (F.types.map (·.name)) := by
  have hn : ∀ l : Name, (¬ InArchive (lit "cat") l) ↔ isFs (lit "cat") l = true := fun l => (isFs_iff _ _).symm
  exact C66_start_up_of_a_new_factory_partial demo (lit "cat") (lit "cat") (lit "cat") catRoot (by decide) (by decide +kernel) (by decide +kernel) (by rfl) (by decide +kernel)
    [[lit "one.hrc"], [], [lit "two.hrc"]]
    (by
      have : hrcLinks catRoot = [lit "one.hrc", lit "gone.hrc", lit "two.hrc"] := by decide +kernel
      rw [this]
      refine .cons (.files ((hn _).2 (by decide +kernel)) (fs := [lit "one.hrc"]) rfl (.cons (by rfl) .nil))
        (.cons (.missing ((hn _).2 (by decide +kernel)) (f := lit "gone.hrc") rfl (by rfl))
        (.cons (.files ((hn _).2 (by decide +kernel)) (fs := [lit "two.hrc"]) rfl (.cons (by rfl) .nil)) .nil)))
    (by
      intro s hs
      have : s = lit "one.hrc" ∨ s = lit "two.hrc" := by simpa using hs
      rcases this with h | h <;> subst h <;> exact okSource_sound (by decide +kernel))

/-- the colours: `t:A` from the second file, `t:B` from the first -/
example : (createStyledMapper demo (loadCatalog demo (some (lit "cat")) Fac.new).1 none none).toOption.map (fun m => (look m (lit "t:A"), look m (lit "t:B"), look m (lit "t:C"))) =
    some (some ⟨true, false, 0x0000FF#32, 0, 0⟩, some ⟨false, true, 0, 0x00FF00#32, 1⟩, none) := by decide +kernel

example := C67_colours_of_a_catalogue (V := Styles.Styled) demo (lit "cat") (lit "cat") (lit "cat") catRoot ((hrdEntries catRoot).headD catRoot) Fac.new (by decide) (by decide +kernel)
  (by decide +kernel) (by rfl) (by decide +kernel) (lit "rgb") (lit "default") (by rfl)

/-! ## Where they do not hold -/

/-- the same with a source in which a place is missing -/
def faulty : Outside := disk (files.map fun f => if f.1 = "two.hrc" then
  ("two.hrc", xe "hrc" [] [xe "prototype" [("name", "k")] [], xe "prototype" [("name", "t")] [xe "location" [("link", "gone")] []], xe "prototype" [("name", "v")] []]) else f)

/-- C66 does not hold for sources with a missing place: the rest of the source is not read (`v` is unknown), and the type `t`, known from another source and
intact there, has disappeared. -/
theorem C66_violated_missing_place :
    (loadCatalog faulty (some (lit "cat")) Fac.new).2 = none ∧
    (loadCatalog faulty (some (lit "cat")) Fac.new).1.listed = [lit "k"] ∧
    (loadCatalog faulty (some (lit "cat")) Fac.new).1.types.map (·.name) = [lit "k"] := by decide +kernel

/-- the sources of `faulty` in the other order: `t` is declared again afterwards -/
def stuck : Outside := disk (files.map fun f => if f.1 = "one.hrc" then
  ("one.hrc", xe "hrc" [] [xe "prototype" [("name", "t")] [xe "location" [("link", "gone")] []]]) else f)

/-- the links of the schemes after loading `t`: name still to be resolved, scheme -/
def linksAfter (O : Outside) : Option (List (Option Name × Option Name)) :=
  (Hrc.acts (worldOf O (loadCatalog O (some (lit "cat")) Fac.new).1.types) 9 (loadCatalog O (some (lit "cat")) Fac.new).1.lib [.load (lit "t")]).map
    fun L => L.schemes.flatMap fun s => (s.nodes.flatMap Hrc.SNode.links).map fun l => (l.name, l.scheme)

/-- C66, C61 do not hold after such a source: the library believes for ever that a load is under way, so the links of blocks are never resolved. Here `t`
itself is all right and known, but its block leads nowhere, while without the faulty source it leads to the scheme `t:t`. -/
theorem C66_violated_links_are_never_resolved :
    (loadCatalog stuck (some (lit "cat")) Fac.new).2 = none ∧ linksAfter stuck = some [(some (lit "t"), none)] ∧
    linksAfter demo = some [(none, some (lit "t:t"))] := by decide +kernel

/-- C66 does not hold when the file system fails: the exception is none of the library's and leaves `loadCatalog`; the locations after it are not read. -/
def failing : Outside := { demo with files := fun b l => if l = lit "gone.hrc" then .error .std else demo.files b l }
theorem C66_violated_by_the_file_system :
    (loadCatalog failing (some (lit "cat")) Fac.new).2 = some .std ∧ (loadCatalog failing (some (lit "cat")) Fac.new).1.types.map (·.name) = [lit "t", lit "k"] := by
  decide +kernel

/-- the source of a type that another source declares anew -/
def stale : Outside := disk [
  ("cat", xe "catalog" [] [xe "hrc-sets" [] [xe "location" [("link", "one.hrc")] [], xe "location" [("link", "two.hrc")] []]]),
  ("one.hrc", xe "hrc" [] [xe "prototype" [("name", "t")] [], xe "type" [("name", "t")] [xe "entity" [("name", "e"), ("value", "old")] [],
    xe "region" [("name", "A"), ("parent", "")] []]]),
  ("two.hrc", xe "hrc" [] [xe "prototype" [("name", "t")] [xe "location" [("link", "t.hrc")] []]]),
  ("t.hrc", xe "hrc" [] [xe "type" [("name", "t")] [xe "entity" [("name", "e"), ("value", "new")] []]])]

/-- C66 does not hold for a type whose first declaration is already loaded: what it defined stays. Its region is still there, and an entity the new source
defines otherwise has its old value. -/
theorem C66_violated_a_replaced_type_stays_in_part :
    ((Hrc.acts (worldOf stale (loadCatalog stale (some (lit "cat")) Fac.new).1.types) 9 (loadCatalog stale (some (lit "cat")) Fac.new).1.lib [.load (lit "t")]).map
      fun L => (L.regs.map (·.name), L.findEnt (lit "t:e"), L.ents.map (·.2))) = some ([lit "t:A"], some (lit "old"), [lit "old", lit "new"]) := by
  decide +kernel

/-- a second catalogue that is no catalogue -/
def noCatalogue : Outside := disk (files ++ [("bad", xe "html" [] [])])

/-- C65 ends where loading a catalogue fails: the call throws, and a catalogue loaded before is left in part. Its colour schemes are still known, but their
files are now looked for from the place of the new catalogue. -/
theorem C65_violated_a_failed_load_changes_the_base :
    (loadCatalog noCatalogue (some (lit "bad")) (loadCatalog noCatalogue (some (lit "cat")) Fac.new).1).2 = some .lib ∧
    (loadCatalog noCatalogue (some (lit "bad")) (loadCatalog noCatalogue (some (lit "cat")) Fac.new).1).1.base = some (lit "bad") ∧
    (loadCatalog noCatalogue (some (lit "bad")) (loadCatalog noCatalogue (some (lit "cat")) Fac.new).1).1.hrcs = [lit "one.hrc", lit "gone.hrc", lit "two.hrc"] := by
  decide +kernel

end Verif.Factory
