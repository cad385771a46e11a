import Verif.Factory.Spec
import Verif.Hrc.Props
/-! # Start-up: the catalogue and the prototypes (C65, C66) -/
namespace Verif.Factory
open Verif.Hrc (Name lit Elem Lib)

/-! ## C65: the catalogue -/

theorem addLocations_eq (ks : List Elem) : ∀ acc, addLocations ks acc =
    acc ++ ((ks.filter (·.tag = lit "location")).map (·.attr (lit "link"))).filter (· ≠ []) := by
  induction ks with
  | nil => intro acc; simp [addLocations]
  | cons k r ih =>
    intro acc
    unfold addLocations
    by_cases h : k.tag = lit "location"
    · by_cases h2 : k.attr (lit "link") = []
      · rw [if_pos h, if_pos h2, ih]; simp [h, h2]
      · rw [if_pos h, if_neg h2, ih]; simp [h, h2]
    · rw [if_neg h, ih]; simp [h]

theorem locations_eq (el : Elem) : addLocations el.kids [] = linksOf el := by
  rw [addLocations_eq]; rfl

theorem parseHrd_eq (el : Elem) : parseHrd el = if HrdOk el then some (hrdOf el) else none := by
  unfold parseHrd HrdOk hrdOf
  rw [locations_eq]
  grind

theorem addHrdSets_eq (ks : List Elem) : ∀ acc, addHrdSets ks acc = acc ++ ((ks.filter (·.tag = lit "hrd")).filter HrdOk).map hrdOf := by
  induction ks with
  | nil => intro acc; simp [addHrdSets]
  | cons k r ih =>
    intro acc
    unfold addHrdSets
    by_cases h : k.tag = lit "hrd"
    · rw [if_pos h, parseHrd_eq]
      by_cases h2 : HrdOk k
      · rw [if_pos h2]; dsimp only; rw [ih]; simp [h, h2]
      · rw [if_neg h2]; dsimp only; rw [ih]; simp [h, h2]
    · rw [if_neg h, ih]; simp [h]

theorem lit_sets : lit "hrc-sets" ≠ lit "hrd-sets" := by decide

theorem addCatalog_eq (ks : List Elem) : ∀ c : Cat, addCatalog ks c =
    ⟨c.hrcs ++ (ks.filter (·.tag = lit "hrc-sets")).flatMap linksOf,
     c.hrds ++ (((ks.filter (·.tag = lit "hrd-sets")).flatMap (kidsOf "hrd")).filter HrdOk).map hrdOf⟩ := by
  induction ks with
  | nil => intro c; simp [addCatalog]
  | cons k r ih =>
    intro c
    unfold addCatalog
    by_cases h : k.tag = lit "hrc-sets"
    · rw [if_pos h, ih, addLocations_eq]
      have hne : k.tag ≠ lit "hrd-sets" := fun e => lit_sets (h.symm.trans e)
      simp only [List.filter_cons, h, hne, decide_true, decide_false, if_true, Bool.false_eq_true, if_false, List.flatMap_cons, List.append_assoc, lit_sets]
      rfl
    · rw [if_neg h]
      by_cases h2 : k.tag = lit "hrd-sets"
      · rw [if_pos h2, ih, addHrdSets_eq]
        simp only [List.filter_cons, h, h2, decide_true, decide_false, if_true, Bool.false_eq_true, if_false, List.flatMap_cons, List.filter_append, List.map_append,
          List.append_assoc, lit_sets.symm]
        rfl
      · rw [if_neg h2, ih]; simp [h, h2]

theorem catalogue_eq (root : Elem) : addCatalog root.kids ⟨[], []⟩ = ⟨hrcLinks root, (hrdEntries root).map hrdOf⟩ := by
  rw [addCatalog_eq]; simp [hrcLinks, hrdEntries, kidsOf]

/-- looking up in the table of classes -/
def lookHrd (C : List (Name × List HrdNode)) (cls name : Name) : Option HrdNode :=
  match C.find? (·.1 = cls) with
  | none => none
  | some (_, l) => l.find? (·.name = name)

theorem lookHrd_add (cls name : Name) (h : HrdNode) : ∀ C, lookHrd (addHrd C h) cls name =
    (lookHrd C cls name).or (if h.cls = cls ∧ h.name = name then some h else none) := by
  intro C
  induction C with
  | nil =>
    unfold lookHrd addHrd
    by_cases h1 : h.cls = cls
    · by_cases h2 : h.name = name
      · simp [h1, h2]
      · simp [h1, h2]
    · simp [h1]
  | cons p r ih =>
    obtain ⟨c, l⟩ := p
    unfold addHrd
    by_cases hc : c = h.cls
    · rw [if_pos hc]
      unfold lookHrd
      by_cases h1 : c = cls
      · simp only [List.find?_cons, h1, decide_true]
        rw [List.find?_append]
        have : h.cls = cls := hc.symm.trans h1
        by_cases h2 : h.name = name
        · simp [h2, this]
        · simp [h2]
      · simp only [List.find?_cons, h1, decide_false]
        have : ¬ h.cls = cls := fun e => h1 (hc.trans e)
        simp only [this, false_and, if_false, Option.or_none]
    · rw [if_neg hc]
      unfold lookHrd at ih ⊢
      by_cases h1 : c = cls
      · have : ¬ h.cls = cls := fun e => hc (h1.trans e.symm)
        simp only [List.find?_cons, h1, decide_true, this, false_and, if_false, Option.or_none]
      · simp only [List.find?_cons, h1, decide_false]
        exact ih

theorem lookHrd_fold (cls name : Name) (hs : List HrdNode) : ∀ C, lookHrd (hs.foldl addHrd C) cls name =
    (lookHrd C cls name).or (hs.find? fun h => h.cls = cls ∧ h.name = name) := by
  induction hs with
  | nil => intro C; simp
  | cons h r ih =>
    intro C
    rw [List.foldl_cons, ih, lookHrd_add, List.find?_cons, Option.or_assoc]
    by_cases h1 : h.cls = cls ∧ h.name = name
    · simp [h1]
    · simp [h1]

/-- what the loading of sources leaves alone -/
structure Same (F F' : Fac) : Prop where
  base : F'.base = F.base
  hrcs : F'.hrcs = F.hrcs
  hrds : F'.hrds = F.hrds

theorem Same.refl (F : Fac) : Same F F := ⟨rfl, rfl, rfl⟩
theorem Same.trans {A B C : Fac} (h : Same A B) (g : Same B C) : Same A C := ⟨g.1.trans h.1, g.2.trans h.2, g.3.trans h.3⟩

theorem steps_same {α : Type} {f : α → Fac → Res} (hf : ∀ a F, Same F (f a F).1) (l : List α) : ∀ F, Same F (steps f l F).1 := by
  induction l with
  | nil => intro F; exact .refl F
  | cons a r ih =>
    intro F
    unfold steps
    have h := hf a F
    split
    · rename_i F1 e he; rw [he] at h; exact h
    · rename_i F1 he; rw [he] at h; exact h.trans (ih F1)

theorem swallow_fst (r : Res) : (swallow r).1 = r.1 := by
  obtain ⟨F, e⟩ := r
  rcases e with _ | e
  · rfl
  · cases e <;> rfl

theorem forget_same (F : Fac) (t : Name) : Same F (F.forget t) := by
  unfold Fac.forget; split <;> exact ⟨rfl, rfl, rfl⟩

theorem loading_same (F : Fac) (r : Option Lib) : Same F (F.loading r).1 := by
  cases r <;> exact ⟨rfl, rfl, rfl⟩

theorem hrcChild_same (O : Outside) (file : Name) (k : Elem) (F : Fac) : Same F (hrcChild O file k F).1 := by
  unfold hrcChild
  split
  · unfold addPrototype
    split
    · exact .refl F
    · split
      · exact forget_same F _
      · exact (forget_same F _).trans ⟨rfl, rfl, rfl⟩
  · split
    · exact loading_same F _
    · exact .refl F

theorem loadSource_same (O : Outside) (file : Name) (F : Fac) : Same F (loadSource O file F).1 := by
  unfold loadSource
  split
  · exact .refl F
  · split
    · rename_i r _ _
      have h := steps_same (hrcChild_same O file) r.kids { F with lib := { F.lib with updating := true } }
      split
      · rename_i F1 e he; rw [he] at h; exact Same.trans (B := { F with lib := { F.lib with updating := true } }) ⟨rfl, rfl, rfl⟩ h
      · rename_i F1 he; rw [he] at h
        refine Same.trans (Same.trans (B := { F with lib := { F.lib with updating := true } }) ⟨rfl, rfl, rfl⟩ h) ?_
        unfold finishHrc
        split
        · exact loading_same F1 _
        · exact ⟨rfl, rfl, rfl⟩
    · exact .refl F

theorem loadHrc_same (O : Outside) (base : Option Name) (path : Name) (F : Fac) : Same F (loadHrc O base path F).1 := by
  unfold loadHrc
  split
  · exact .refl F
  · rw [swallow_fst]; exact loadSource_same O _ F

theorem loadHrcPath_same (O : Outside) (loc : Name) (F : Fac) : Same F (loadHrcPath O loc F).1 := by
  unfold loadHrcPath
  split
  · exact .refl F
  · rw [swallow_fst]
    unfold loadHrcIn
    split
    · split
      · exact .refl F
      · exact steps_same (loadHrc_same O none) _ F
    · exact loadHrc_same O _ _ F

/-- C65. Loading a catalogue whose document can be read gives exactly what the document says: the HRC locations in order, and under a class and a name the
first colour scheme with these – whatever was loaded before, and however the loading of the HRC sources goes. -/
theorem C65_the_catalogue_is_what_its_document_says (O : Outside) (path p q : Name) (root : Elem) (F : Fac) (hp : path ≠ []) (hn : O.normal path = .ok p)
    (hl : O.locate none p = .ok q) (hr : O.root q = some root) (ht : root.tag = lit "catalog") :
    (loadCatalog O (some path) F).1.base = some p ∧ (loadCatalog O (some path) F).1.hrcs = hrcLinks root ∧
    ∀ cls name, getHrdNode (loadCatalog O (some path) F).1 cls name =
      ((hrdEntries root).find? fun el => el.attr (lit "class") = cls ∧ el.attr (lit "name") = name).map hrdOf := by
  have hc : catalogPath O (some path) = .ok p := by
    cases path with
    | nil => exact absurd rfl hp
    | cons c r => exact hn
  have hcat : parseCat O p = .ok ⟨hrcLinks root, (hrdEntries root).map hrdOf⟩ := by
    unfold parseCat; rw [hl]; dsimp only; rw [hr]; dsimp only; rw [if_pos ht, catalogue_eq]
  have hs := steps_same (loadHrcPath_same O) (hrcLinks root)
    { F with base := some p, hrcs := hrcLinks root, hrds := ((hrdEntries root).map hrdOf).foldl addHrd [] }
  have he : loadCatalog O (some path) F = steps (loadHrcPath O) (hrcLinks root)
      { F with base := some p, hrcs := hrcLinks root, hrds := ((hrdEntries root).map hrdOf).foldl addHrd [] } := by
    unfold loadCatalog; rw [hc]; dsimp only; rw [hcat]
  rw [he]
  refine ⟨hs.base, hs.hrcs, fun cls name => ?_⟩
  have hg : getHrdNode (steps (loadHrcPath O) (hrcLinks root)
      { F with base := some p, hrcs := hrcLinks root, hrds := ((hrdEntries root).map hrdOf).foldl addHrd [] }).1 cls name =
      lookHrd (((hrdEntries root).map hrdOf).foldl addHrd []) cls name := by
    unfold getHrdNode lookHrd; rw [hs.hrds]; rfl
  rw [hg, lookHrd_fold]
  have h0 : lookHrd [] cls name = none := rfl
  rw [h0, Option.none_or, List.find?_map]
  rfl

/-- C65. Without a path the catalogue is the one the environment names; if it names none, nothing changes. -/
theorem C65_the_default_catalogue (O : Outside) (path : Option Name) (F : Fac) (hp : path = none ∨ path = some []) :
    (∀ v, O.env (lit "COLORER_CATALOG") = some v → v ≠ [] → loadCatalog O path F = loadCatalog O (some v) F) ∧
    ((O.env (lit "COLORER_CATALOG") = none ∨ O.env (lit "COLORER_CATALOG") = some []) → loadCatalog O path F = (F, some .lib)) := by
  have hc : catalogPath O path = match O.env (lit "COLORER_CATALOG") with
      | some (c :: p) => O.normal (c :: p)
      | _ => .error .lib := by
    rcases hp with rfl | rfl <;> rfl
  constructor
  · intro v hv hne
    cases v with
    | nil => exact absurd rfl hne
    | cons c r =>
      have : catalogPath O path = catalogPath O (some (c :: r)) := by rw [hc, hv]; rfl
      unfold loadCatalog
      rw [this]
  · intro h
    have : catalogPath O path = .error .lib := by
      rw [hc]
      rcases h with h | h <;> rw [h]
    unfold loadCatalog
    rw [this]

/-! ## C66: prototypes -/

/-! ### parameters -/

/-- a `<param>` that counts -/
def isParam (k : Elem) : Bool := k.tag = lit "param" && (k.attr (lit "name") ≠ [] && k.attr (lit "value") ≠ [])

/-- adding the parameter an element describes -/
def addElem (ps : List Param) (k : Elem) : List Param := addParam ps (k.attr (lit "name")) (k.attr (lit "value")) (k.attr (lit "description"))

theorem addParams_eq (ks : List Elem) : ∀ ps, addParams ks ps = (ks.filter isParam).foldl addElem ps := by
  induction ks with
  | nil => intro ps; rfl
  | cons k r ih =>
    intro ps
    unfold addParams
    by_cases h : k.tag = lit "param"
    · rw [if_pos h]
      by_cases h2 : k.attr (lit "name") = [] ∨ k.attr (lit "value") = []
      · have hf : isParam k = false := by unfold isParam; rcases h2 with h2 | h2 <;> simp [h2]
        rw [if_pos h2, ih, List.filter_cons, if_neg (by simp [hf])]
      · have hf : isParam k = true := by
          unfold isParam
          have h3 : ¬ k.attr (lit "name") = [] := fun e => h2 (.inl e)
          have h4 : ¬ k.attr (lit "value") = [] := fun e => h2 (.inr e)
          simp [h, h3, h4]
        rw [if_neg h2, ih, List.filter_cons, if_pos hf, List.foldl_cons]; rfl
    · have hf : isParam k = false := by unfold isParam; simp [h]
      rw [if_neg h, ih, List.filter_cons, if_neg (by simp [hf])]

theorem any_find {ps : List Param} {n : Name} : ps.any (·.name = n) = (ps.find? (·.name = n)).isSome := by
  rw [Bool.eq_iff_iff, List.find?_isSome]; simp

theorem find_map_descr (ps : List Param) (m n d : Name) :
    (ps.map fun p => if p.name = m then { p with descr := some d } else p).find? (·.name = n) =
    (ps.find? (·.name = n)).map fun p => if m = n then { p with descr := some d } else p := by
  induction ps with
  | nil => rfl
  | cons p r ih =>
    rw [List.map_cons, List.find?_cons, List.find?_cons, ih]
    by_cases h : p.name = m
    · by_cases h2 : p.name = n
      · have : m = n := h.symm.trans h2
        simp [h, this]
      · have : ¬ m = n := fun e => h2 (h.trans e)
        simp [h, this]
    · by_cases h2 : p.name = n
      · have : ¬ m = n := fun e => h (h2.trans e.symm)
        have h3 : ¬ n = m := fun e => this e.symm
        simp [h2, this, h3]
      · simp [h, h2]

theorem find_addElem (ps : List Param) (k : Elem) (n : Name) : (addElem ps k).find? (·.name = n) =
    if k.attr (lit "name") = n then
      match ps.find? (·.name = n) with
      | some p => some (if k.attr (lit "description") = [] then p else { p with descr := some (k.attr (lit "description")) })
      | none => some ⟨n, k.attr (lit "value"), if k.attr (lit "description") = [] then none else some (k.attr (lit "description"))⟩
    else ps.find? (·.name = n) := by
  unfold addElem addParam
  by_cases hd : k.attr (lit "description") = []
  · by_cases ha : ps.any (fun p => decide (p.name = k.attr (lit "name"))) = true
    · rw [if_pos ha, if_pos hd]
      by_cases hn : k.attr (lit "name") = n
      · rw [if_pos hn]
        rw [hn, any_find] at ha
        obtain ⟨p, hp⟩ := Option.isSome_iff_exists.1 ha
        rw [hp]; dsimp only; rw [if_pos hd]
      · rw [if_neg hn]
    · rw [if_neg ha, List.find?_append]
      by_cases hn : k.attr (lit "name") = n
      · rw [if_pos hn]
        rw [hn, any_find] at ha
        have hp : ps.find? (fun p => decide (p.name = n)) = none := by simpa using ha
        rw [hp]; simp [hn, hd]
      · rw [if_neg hn]; simp [hn]
  · by_cases ha : ps.any (fun p => decide (p.name = k.attr (lit "name"))) = true
    · rw [if_pos ha, if_neg hd, find_map_descr]
      by_cases hn : k.attr (lit "name") = n
      · rw [if_pos hn]
        rw [hn, any_find] at ha
        obtain ⟨p, hp⟩ := Option.isSome_iff_exists.1 ha
        rw [hp]; simp [hn, hd]
      · rw [if_neg hn]; simp [hn]
    · rw [if_neg ha, List.find?_append]
      by_cases hn : k.attr (lit "name") = n
      · rw [if_pos hn]
        rw [hn, any_find] at ha
        have hp : ps.find? (fun p => decide (p.name = n)) = none := by simpa using ha
        rw [hp]; simp [hn, hd]
      · rw [if_neg hn]; simp [hn]

theorem params_value (es : List Elem) (n : Name) : ∀ ps, ((es.foldl addElem ps).find? (·.name = n)).map (·.value) =
    ((ps.find? (·.name = n)).map (·.value)).or ((es.find? (·.attr (lit "name") = n)).map (·.attr (lit "value"))) := by
  induction es with
  | nil => intro ps; simp
  | cons k r ih =>
    intro ps
    rw [List.foldl_cons, ih, find_addElem, List.find?_cons]
    by_cases hn : k.attr (lit "name") = n
    · rw [if_pos hn]
      cases hp : ps.find? (fun p => decide (p.name = n)) with
      | some p => simp only [Option.map_some, Option.some_or]; split <;> rfl
      | none => simp [hn]
    · rw [if_neg hn]; simp [hn]

theorem params_descr (es : List Elem) (n : Name) : ∀ ps, ((es.foldl addElem ps).find? (·.name = n)).bind (·.descr) =
    ((es.filter fun k => k.attr (lit "name") = n && k.attr (lit "description") ≠ []).map (·.attr (lit "description"))).getLast?.or
      ((ps.find? (·.name = n)).bind (·.descr)) := by
  induction es with
  | nil => intro ps; simp
  | cons k r ih =>
    intro ps
    rw [List.foldl_cons, ih, find_addElem, List.filter_cons]
    by_cases hn : k.attr (lit "name") = n
    · rw [if_pos hn]
      by_cases hd : k.attr (lit "description") = []
      · cases hp : ps.find? (fun p => decide (p.name = n)) with
        | some p => simp [hn, hd]
        | none => simp [hn, hd]
      · have ht : (decide (k.attr (lit "name") = n) && decide (k.attr (lit "description") ≠ [])) = true := by simp [hn, hd]
        rw [if_pos ht, List.map_cons, List.getLast?_cons]
        cases hl : ((r.filter fun k => decide (k.attr (lit "name") = n) && decide (k.attr (lit "description") ≠ [])).map (·.attr (lit "description"))).getLast? with
        | some x => simp
        | none =>
          cases hp : ps.find? (fun p => decide (p.name = n)) with
          | some p => simp [hd]
          | none => simp [hd]
    · rw [if_neg hn, if_neg (by simp [hn])]

/-! ### one prototype -/

theorem hrcTags : lit "filename" ≠ lit "location" ∧ lit "firstline" ≠ lit "location" ∧ lit "parameters" ≠ lit "location" ∧
    lit "parameters" ≠ lit "filename" ∧ lit "parameters" ≠ lit "firstline" ∧ lit "filename" ≠ lit "firstline" := by decide

/-- the links among the children -/
def links (ks : List Elem) : List Name := ((ks.filter (·.tag = lit "location")).map (·.attr (lit "link"))).filter (· ≠ [])

/-- a child by which the type may be detected -/
def isDetector (k : Elem) : Bool := k.tag = lit "filename" || k.tag = lit "firstline"

/-- what the children make of a prototype, once the places are known -/
def protoAfter (O : Outside) (place : Name → Name) (ks : List Elem) (P : Proto) : Proto :=
  { P with
    source := ((links ks).map place).getLast?.or P.source
    choosers := P.choosers ++ if P.isPackage then [] else (ks.filter isDetector).filterMap (chooserOf O)
    params := if P.isPackage then P.params else (((ks.filter (·.tag = lit "parameters")).flatMap (·.kids)).filter isParam).foldl addElem P.params }

theorem links_cons (k : Elem) (r : List Elem) : links (k :: r) =
    if k.tag = lit "location" ∧ k.attr (lit "link") ≠ [] then k.attr (lit "link") :: links r else links r := by
  unfold links
  rw [List.filter_cons]
  by_cases h : k.tag = lit "location"
  · by_cases h2 : k.attr (lit "link") = []
    · simp [h, h2]
    · simp [h, h2]
  · simp [h]

theorem protoChild_ok (O : Outside) (file : Name) (place : Name → Name) (k : Elem) (P : Proto)
    (hp : ∀ l ∈ links [k], O.locate (some file) l = .ok (place l)) : protoChild O file P k = .ok (protoAfter O place [k] P) := by
  obtain ⟨t1, t2, t3, t4, t5, t6⟩ := hrcTags
  obtain ⟨pn, pg, pd, ppk, psrc, pcs, pps⟩ := P
  unfold protoChild protoAfter
  dsimp only
  by_cases h1 : k.tag = lit "location"
  · have hd : isDetector k = false := by
      unfold isDetector
      rw [h1]
      simp [t1.symm, t2.symm]
    have hpar : ¬ k.tag = lit "parameters" := by rw [h1]; exact t3.symm
    by_cases h2 : k.attr (lit "link") = []
    · rw [if_pos h1, if_pos h2, links_cons, if_neg (fun c => c.2 h2)]
      simp [links, hd, hpar]
    · rw [if_pos h1, if_neg h2]
      have hl : links [k] = [k.attr (lit "link")] := by rw [links_cons, if_pos ⟨h1, h2⟩]; rfl
      rw [hl] at hp ⊢
      rw [hp _ (by simp)]
      simp [hd, hpar]
  · have hl : links [k] = [] := by rw [links_cons, if_neg (fun c => h1 c.1)]; rfl
    rw [if_neg h1, hl]
    by_cases hd : isDetector k = true
    · have hd' := hd
      unfold isDetector at hd'
      have hpar : ¬ k.tag = lit "parameters" := by
        intro e
        rw [e] at hd'
        simp [t4, t5] at hd'
      cases ppk with
      | true => simp [hpar]
      | false =>
        simp only [hd', Bool.not_false, Bool.and_self, if_true]
        cases hc : chooserOf O k with
        | none => simp [hd, hpar, hc]
        | some c => simp [hd, hpar, hc]
    · have hd' : (decide (k.tag = lit "filename") || decide (k.tag = lit "firstline")) = false := by
        unfold isDetector at hd; simpa using hd
      rw [hd', Bool.and_false]
      simp only [Bool.false_eq_true, if_false]
      cases ppk with
      | true => simp
      | false =>
        by_cases hpar : k.tag = lit "parameters"
        · simp only [hpar, Bool.not_false, Bool.true_and, decide_true, if_true, addParams_eq]
          simp [hd, hpar]
        · simp [hd, hpar]

theorem protoAfter_cons (O : Outside) (place : Name → Name) (k : Elem) (r : List Elem) (P : Proto) :
    protoAfter O place r (protoAfter O place [k] P) = protoAfter O place (k :: r) P := by
  unfold protoAfter
  dsimp only
  congr 1
  · rw [← Option.or_assoc]
    congr 1
    have : links (k :: r) = links [k] ++ links r := by unfold links; rw [show k :: r = [k] ++ r from rfl]; simp only [List.filter_append, List.map_append]
    rw [this, List.map_append, List.getLast?_append]
  · have : (k :: r).filter isDetector = [k].filter isDetector ++ r.filter isDetector := by rw [← List.filter_append]; rfl
    rw [this, List.filterMap_append]
    cases P.isPackage <;> simp [List.append_assoc]
  · have : (k :: r).filter (fun x => decide (x.tag = lit "parameters")) =
        [k].filter (fun x => decide (x.tag = lit "parameters")) ++ r.filter (fun x => decide (x.tag = lit "parameters")) := by rw [← List.filter_append]; rfl
    rw [this, List.flatMap_append, List.filter_append, List.foldl_append]
    cases P.isPackage <;> simp

theorem protoBlock_ok (O : Outside) (file : Name) (place : Name → Name) (ks : List Elem) : ∀ P, (∀ l ∈ links ks, O.locate (some file) l = .ok (place l)) →
    protoBlock O file ks P = .ok (protoAfter O place ks P) := by
  induction ks with
  | nil => intro P _; simp [protoBlock, protoAfter, links]
  | cons k r ih =>
    intro P hp
    have hk : links (k :: r) = links [k] ++ links r := by unfold links; rw [show k :: r = [k] ++ r from rfl]; simp only [List.filter_append, List.map_append]
    rw [hk] at hp
    unfold protoBlock
    rw [protoChild_ok O file place k P fun l hl => hp l (by simp [hl])]
    dsimp only
    rw [ih _ fun l hl => hp l (by simp [hl]), protoAfter_cons]

theorem chooser_spec {O : Outside} {el : Elem} (ht : isDetector el = true) (hne : el.text ≠ []) (hc : (Hrc.compile O.ctx el.text).isSome) :
    ∃ c, chooserOf O el = some c ∧ Detects O el c := by
  obtain ⟨re, hre⟩ := Option.isSome_iff_exists.1 hc
  refine ⟨⟨el.tag = lit "filename", prioOf O (el.tag = lit "filename") (el.attr (lit "weight")), re⟩, ?_, hne, Hrc.compile_some hre, by simp, ?_⟩
  · unfold chooserOf; rw [if_neg hne, hre]
  · have hif : (if decide (el.tag = lit "filename") = true then 2 * O.unit else O.unit) = (if el.tag = lit "filename" then (2 : Int) else 1) * O.unit := by
      by_cases h : el.tag = lit "filename" <;> simp [h]
    unfold Weighs prioOf
    dsimp only
    rw [hif]
    by_cases hw : el.attr (lit "weight") = []
    · rw [if_pos hw]; exact .inr ⟨.inl hw, rfl⟩
    · rw [if_neg hw]
      cases hd : O.weight (el.attr (lit "weight")) with
      | none => exact .inr ⟨.inr (by simp), rfl⟩
      | some d =>
        by_cases h0 : d < 0
        · refine .inr ⟨.inr ?_, by simp [h0]⟩
          intro d' hd'; cases hd'; exact h0
        · exact .inl ⟨d, hw, rfl, by omega, by simp [h0]⟩

theorem choosers_spec (O : Outside) (ks : List Elem) : List.Forall₂ (Detects O)
    (ks.filter fun k => (k.tag = lit "filename" || k.tag = lit "firstline") && k.text ≠ [] && (Hrc.compile O.ctx k.text).isSome)
    ((ks.filter isDetector).filterMap (chooserOf O)) := by
  induction ks with
  | nil => exact .nil
  | cons k r ih =>
    rw [List.filter_cons, List.filter_cons]
    by_cases hd : isDetector k = true
    · have hd' := hd
      unfold isDetector at hd'
      rw [if_pos hd, List.filterMap_cons]
      by_cases hne : k.text = []
      · rw [if_neg (by simp [hne])]
        have : chooserOf O k = none := by unfold chooserOf; rw [if_pos hne]
        rw [this]; exact ih
      · cases hc : Hrc.compile O.ctx k.text with
        | none =>
          rw [if_neg (by simp)]
          have : chooserOf O k = none := by unfold chooserOf; rw [if_neg hne, hc]
          rw [this]; exact ih
        | some re =>
          obtain ⟨c, h1, h2⟩ := chooser_spec (O := O) hd hne (by rw [hc]; rfl)
          rw [if_pos (by rw [hd']; simp [hne]), h1]
          exact .cons h2 ih
    · have hd' := hd
      unfold isDetector at hd'
      rw [if_neg hd, if_neg (by simp only [Bool.not_eq_true] at hd'; rw [hd']; simp)]
      exact ih

theorem paramElems_eq (el : Elem) : ((kidsOf "parameters" el).flatMap (kidsOf "param")).filter (fun k => decide (k.attr (lit "name") ≠ []) && decide (k.attr (lit "value") ≠ [])) =
    ((el.kids.filter (·.tag = lit "parameters")).flatMap (·.kids)).filter isParam := by
  unfold kidsOf
  generalize el.kids.filter (fun x => decide (x.tag = lit "parameters")) = l
  induction l with
  | nil => rfl
  | cons k r ih =>
    rw [List.flatMap_cons, List.flatMap_cons, List.filter_append, List.filter_append, ih]
    congr 1
    rw [List.filter_filter]
    apply List.filter_congr
    intro x _
    unfold isParam
    rw [Bool.and_comm]

/-- C66. A `<prototype>` or `<package>` whose places exist is read as it is written. -/
theorem C66_a_prototype_is_what_its_element_says (O : Outside) (file : Name) (el : Elem) (h : PlacesExist O file el) :
    ∃ P, protoBlock O file el.kids (protoInit el) = .ok P ∧ Says O file el P := by
  obtain ⟨place, hp⟩ : ∃ place : Name → Name, ∀ l ∈ links el.kids, O.locate (some file) l = .ok (place l) := by
    refine ⟨fun l => match O.locate (some file) l with | .ok p => p | .error _ => [], fun l hl => ?_⟩
    obtain ⟨p, hp⟩ := h l hl
    dsimp only
    rw [hp]
  refine ⟨_, protoBlock_ok O file place el.kids _ hp, ?_⟩
  have hlk : links el.kids = linksOf el := rfl
  refine ⟨rfl, rfl, rfl, by simp [protoAfter, protoInit], ?_, ?_, ?_, ?_⟩
  · cases hg : (linksOf el).getLast? with
    | none =>
      dsimp only
      unfold protoAfter protoInit
      rw [hlk, List.getLast?_eq_none_iff.1 hg]
      rfl
    | some l =>
      dsimp only
      refine ⟨place l, hp l (List.mem_of_getLast? hg), ?_⟩
      unfold protoAfter protoInit
      dsimp only
      rw [hlk, List.getLast?_map, hg]
      rfl
  · unfold protoAfter protoInit detectors
    dsimp only
    by_cases hpk : el.tag = lit "package"
    · simp [hpk]
    · simp only [hpk, decide_false, Bool.false_eq_true, if_false, List.nil_append]
      exact choosers_spec O el.kids
  · intro n
    unfold protoAfter protoInit paramElems
    dsimp only
    by_cases hpk : el.tag = lit "package"
    · simp [hpk]
    · simp only [hpk, decide_false, Bool.false_eq_true, if_false]
      rw [params_value, paramElems_eq]; simp
  · intro n
    unfold protoAfter protoInit paramElems
    dsimp only
    by_cases hpk : el.tag = lit "package"
    · simp [hpk]
    · simp only [hpk, decide_false, Bool.false_eq_true, if_false]
      rw [params_descr, paramElems_eq]; simp

end Verif.Factory
