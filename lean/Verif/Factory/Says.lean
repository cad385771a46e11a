import Verif.Factory.Start
import Verif.Factory.Hrd
/-!
# C66, C67: what the elements of sources and colour schemes say

The values of `<assign>` in the two kinds of colour schemes (HRDMappers: /repo/src/colorer/handlers/StyledHRDMapper.cpp, TextHRDMapper.cpp), the items of a
`<type>` (HrcLibraryImpl.cpp 347-402) and the state of a type that is declared again (52-73, 230-260), said attribute by attribute.
-/
namespace Verif.Factory
open Verif.Hrc (Elem Lib lit Item TypeDecl Name)

/-- an attribute that is there and not empty -/
def given (el : Elem) (key : String) : Option Name := if el.attr (lit key) = [] then none else some (el.attr (lit key))

/-- C67. After the start-up with a catalogue document a text scheme asked for by name gives each region the four texts of the last `<assign>` for it: `stext` before and
`etext` behind it, `sback` and `eback` for the background; an attribute that is missing or empty gives no text. -/
theorem C67_texts_of_a_catalogue (O : Outside) (path p q : Name) (root el : Elem) (F : Fac) (hp : path ≠ []) (hn : O.normal path = .ok p)
    (hl : O.locate none p = .ok q) (hr : O.root q = some root) (ht : root.tag = lit "catalog") (name : Name)
    (hel : (hrdEntries root).find? (fun el => el.attr (lit "class") = lit "text" ∧ el.attr (lit "name") = name) = some el) (roots : List Elem)
    (ho : List.Forall₂ (Opens O (some p)) (linksOf el) roots) :
    ∃ m, createTextMapper O (loadCatalog O (some path) F).1 (some name) = .ok m ∧ ∀ r, look m r = (lastAssign id roots r).map fun a =>
      { startText := given a "stext", endText := given a "etext", startBack := given a "sback", endBack := given a "eback" } := by
  obtain ⟨m, h1, h2⟩ := C67_colours_of_a_catalogue O path p q root el F hp hn hl hr ht (lit "text") name hel roots ho textOf
  refine ⟨m, h1, fun r => ?_⟩
  rw [h2 r]
  unfold lastAssign
  rw [Option.map_map]
  rfl

/-- C67. The same for colours: `fore`, `back` and `style` of the last `<assign>`, each a hexadecimal number; a colour that is missing or no number is not set, a style is 0. -/
theorem C67_colours_and_styles_of_a_catalogue (O : Outside) (path p q : Name) (root el : Elem) (F : Fac) (hp : path ≠ []) (hn : O.normal path = .ok p)
    (hl : O.locate none p = .ok q) (hr : O.root q = some root) (ht : root.tag = lit "catalog") (cls name : Name)
    (hel : (hrdEntries root).find? (fun el => el.attr (lit "class") = cls ∧ el.attr (lit "name") = name) = some el) (roots : List Elem)
    (ho : List.Forall₂ (Opens O (some p)) (linksOf el) roots) :
    ∃ m, createStyledMapper O (loadCatalog O (some path) F).1 (some cls) (some name) = .ok m ∧ ∀ r, look m r = (lastAssign id roots r).map fun a =>
      { isForeSet := ((given a "fore").bind hexToUInt).isSome, isBackSet := ((given a "back").bind hexToUInt).isSome,
        fore := ((given a "fore").bind hexToUInt).getD 0, back := ((given a "back").bind hexToUInt).getD 0,
        style := ((given a "style").bind hexToUInt).getD 0 } := by
  obtain ⟨m, h1, h2⟩ := C67_colours_of_a_catalogue O path p q root el F hp hn hl hr ht cls name hel roots ho styledOf
  refine ⟨m, h1, fun r => ?_⟩
  rw [h2 r]
  unfold lastAssign
  rw [Option.map_map]
  refine congrArg (fun f => Option.map f _) (funext fun a => ?_)
  have e : ∀ k : String, (given a k).bind hexToUInt = colourAttr a (lit k) := by
    intro k
    unfold given colourAttr
    by_cases h : a.attr (lit k) = []
    · rw [if_pos h, if_pos h]; rfl
    · rw [if_neg h, if_neg h]; rfl
  show styledOf a = ⟨((given a "fore").bind hexToUInt).isSome, ((given a "back").bind hexToUInt).isSome, ((given a "fore").bind hexToUInt).getD 0,
    ((given a "back").bind hexToUInt).getD 0, ((given a "style").bind hexToUInt).getD 0⟩
  rw [e "fore", e "back", e "style"]
  rfl

/-- what an element inside `<type>` declares -/
inductive Stands : Elem → Item → Prop
  | region {k : Elem} : k.tag = lit "region" → Stands k (.region (k.attr (lit "name")) (k.attr? (lit "parent")))
  | entity {k : Elem} {v : Name} : k.tag = lit "entity" → k.attr? (lit "value") = some v → Stands k (.entity (k.attr (lit "name")) v)
  | import_ {k : Elem} : k.tag = lit "import" → Stands k (.import_ (k.attr (lit "type")))
  | scheme {k : Elem} : k.tag = lit "scheme" → Stands k (.scheme k)

/-- C66. A type is what its element says: its name, and one item for each region, entity with a value, import and scheme, in their order; other elements
declare nothing. -/
theorem C66_a_type_is_what_its_element_says (el : Elem) : (declOf el).name = el.attr (lit "name") ∧
    ∃ ks, ks.Sublist el.kids ∧ List.Forall₂ Stands ks (declOf el).items ∧ ∀ k i, k ∈ el.kids → Stands k i → k ∈ ks := by
  refine ⟨rfl, ?_⟩
  show ∃ ks, ks.Sublist el.kids ∧ List.Forall₂ Stands ks (el.kids.filterMap itemOf) ∧ _
  have some_of : ∀ {k : Elem} {i : Item}, Stands k i → itemOf k = some i := by
    intro k i h
    unfold itemOf
    cases h with
    | region h => rw [if_pos h]
    | entity h hv => rw [if_neg (by rw [h]; decide), if_pos h, hv]
    | import_ h => rw [if_neg (by rw [h]; decide), if_neg (by rw [h]; decide), if_pos h]
    | scheme h => rw [if_neg (by rw [h]; decide), if_neg (by rw [h]; decide), if_neg (by rw [h]; decide), if_pos h]
  have of_some : ∀ {k : Elem} {i : Item}, itemOf k = some i → Stands k i := by
    intro k i h
    unfold itemOf at h
    by_cases h1 : k.tag = lit "region"
    · rw [if_pos h1] at h; injection h with h; rw [← h]; exact .region h1
    rw [if_neg h1] at h
    by_cases h2 : k.tag = lit "entity"
    · rw [if_pos h2] at h
      cases hv : k.attr? (lit "value") with
      | none => rw [hv] at h; cases h
      | some v => rw [hv] at h; injection h with h; rw [← h]; exact .entity h2 hv
    rw [if_neg h2] at h
    by_cases h3 : k.tag = lit "import"
    · rw [if_pos h3] at h; injection h with h; rw [← h]; exact .import_ h3
    rw [if_neg h3] at h
    by_cases h4 : k.tag = lit "scheme"
    · rw [if_pos h4] at h; injection h with h; rw [← h]; exact .scheme h4
    rw [if_neg h4] at h; cases h
  generalize el.kids = kids
  refine ⟨kids.filter fun k => (itemOf k).isSome, List.filter_sublist, ?_, fun k i hk hd => List.mem_filter.2 ⟨hk, by rw [some_of hd]; rfl⟩⟩
  induction kids with
  | nil => exact .nil
  | cons k r ih =>
    cases hi : itemOf k with
    | none => rw [List.filter_cons_of_neg (by rw [hi]; decide), List.filterMap_cons_none hi]; exact ih
    | some i => rw [List.filter_cons_of_pos (by rw [hi]; rfl), List.filterMap_cons_some hi]; exact .cons (of_some hi) ih

/-- C66. A type that is declared again is not loaded: nothing is left of the state of the type of that name, its imports and schemes are gone, and no other
type is changed. (Its regions and entities stay: `C66_violated_a_replaced_type_stays_in_part`.) -/
theorem C66_a_type_declared_again_is_not_loaded (O : Outside) (file : Name) (el : Elem) (F F' : Fac) (hn : el.attr (lit "name") ≠ [])
    (hk : el.attr (lit "name") ∈ F.types.map (·.name)) (h : addPrototype O file el F = (F', none)) :
    (el.attr (lit "name") ∉ F'.lib.started ∧ el.attr (lit "name") ∉ F'.lib.busy ∧ el.attr (lit "name") ∉ F'.lib.broken ∧ el.attr (lit "name") ∉ F'.lib.done ∧
      F'.lib.imports (el.attr (lit "name")) = [] ∧ ∀ s ∈ F'.lib.schemes, s.type ≠ el.attr (lit "name")) ∧
    ∀ t, t ≠ el.attr (lit "name") → ((t ∈ F'.lib.started ↔ t ∈ F.lib.started) ∧ (t ∈ F'.lib.busy ↔ t ∈ F.lib.busy) ∧ (t ∈ F'.lib.broken ↔ t ∈ F.lib.broken) ∧
      (t ∈ F'.lib.done ↔ t ∈ F.lib.done) ∧ F'.lib.imports t = F.lib.imports t ∧ ∀ s, s.type = t → (s ∈ F'.lib.schemes ↔ s ∈ F.lib.schemes)) := by
  unfold addPrototype at h
  rw [if_neg hn] at h
  cases hP : protoBlock O file el.kids (protoInit el) with
  | error e => rw [hP] at h; cases h
  | ok P =>
    rw [hP] at h
    injection h with h _
    rw [← h]
    generalize el.attr (lit "name") = n at hk
    have hf : F.forget n = F.unload n := by
      obtain ⟨P, hP, e⟩ := List.mem_map.1 hk
      exact if_pos (List.any_eq_true.2 ⟨P, hP, by simpa using e⟩)
    rw [hf]
    refine ⟨⟨?_, ?_, ?_, ?_, ?_, ?_⟩, fun t ht => ⟨?_, ?_, ?_, ?_, ?_, ?_⟩⟩
    · show n ∉ F.lib.started.filter (· ≠ n)
      simp
    · show n ∉ F.lib.busy.filter (· ≠ n)
      simp
    · show n ∉ F.lib.broken.filter (· ≠ n)
      simp
    · show n ∉ F.lib.done.filter (· ≠ n)
      simp
    · show (if n = n then [] else F.lib.imports n) = []
      exact if_pos rfl
    · intro s hs
      have := (List.mem_filter.1 (show s ∈ F.lib.schemes.filter (·.type ≠ n) from hs)).2
      simpa using this
    · show t ∈ F.lib.started.filter (· ≠ n) ↔ _
      simp [ht]
    · show t ∈ F.lib.busy.filter (· ≠ n) ↔ _
      simp [ht]
    · show t ∈ F.lib.broken.filter (· ≠ n) ↔ _
      simp [ht]
    · show t ∈ F.lib.done.filter (· ≠ n) ↔ _
      simp [ht]
    · show (if t = n then [] else F.lib.imports t) = _
      exact if_neg ht
    · intro s hs
      show s ∈ F.lib.schemes.filter (·.type ≠ n) ↔ _
      simp [hs, ht]

/-! ## Witnesses -/

def demoType : Elem := .mk (lit "type") [(lit "name", lit "t")] []
  [.mk (lit "region") [(lit "name", lit "A"), (lit "parent", lit "def:B")] [] [], .mk (lit "annotation") [] [] [], .mk (lit "entity") [(lit "name", lit "e")] [] [],
    .mk (lit "import") [(lit "type", lit "def")] [] []]

example : (declOf demoType).items = [.region (lit "A") (some (lit "def:B")), .import_ (lit "def")] := rfl

/-- a type declared again -/
example (O : Outside) (F : Fac) (P : Proto) (h : F.types = [P]) (hP : P.name = lit "t") : ∃ F', addPrototype O (lit "f") (.mk (lit "prototype") [(lit "name", lit "t")] [] []) F = (F', none) ∧
    (Elem.mk (lit "prototype") [(lit "name", lit "t")] [] []).attr (lit "name") ∈ F.types.map (·.name) :=
  ⟨_, rfl, by rw [h, List.map_cons, hP]; exact List.mem_cons_self⟩

end Verif.Factory
