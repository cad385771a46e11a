import Verif.Factory.Props
/-! # Colour schemes (C67) and what they are saved as (C68) -/
namespace Verif.Factory
open Verif.Hrc (Name lit Elem)

variable {V : Type}

/-- what a mapper defines for a name -/
def look (m : List (Name × V)) (n : Name) : Option V := (m.find? (·.1 = n)).map (·.2)

theorem look_define (m : List (Name × V)) (k n : Name) (v : V) : look (define m k v) n = if k = n then some v else look m n := by
  unfold look define
  rw [List.find?_append]
  by_cases h : k = n
  · subst h
    have : (m.filter fun x => decide (x.1 ≠ k)).find? (fun x => decide (x.1 = k)) = none := by
      rw [List.find?_eq_none]
      intro x hx
      have := (List.mem_filter.1 hx).2
      simpa using this
    rw [this]; simp
  · rw [if_neg h, List.find?_filter]
    have : m.find? (fun a => decide (decide (a.1 ≠ k) = true ∧ decide (a.1 = n) = true)) = m.find? (fun x => decide (x.1 = n)) := by
      congr 1
      funext x
      by_cases hx : x.1 = n
      · have : ¬ n = k := fun e => h e.symm
        simp [hx, this]
      · simp [hx]
    rw [this]
    simp [h]

theorem assigns_look (val : Elem → V) (ks : List Elem) (n : Name) : ∀ m, look (assigns val ks m) n =
    ((((ks.filter (·.tag = lit "assign")).filter (·.attr (lit "name") ≠ [])).reverse.find? (·.attr (lit "name") = n)).map val).or (look m n) := by
  induction ks with
  | nil => intro m; simp [assigns]
  | cons k r ih =>
    intro m
    unfold assigns
    by_cases h : k.tag = lit "assign"
    · rw [if_pos h]
      by_cases h2 : k.attr (lit "name") = []
      · rw [if_pos h2, ih]
        simp [h, h2]
      · rw [if_neg h2, ih, look_define]
        have e : ((k :: r).filter (fun x => decide (x.tag = lit "assign"))).filter (fun x => decide (x.attr (lit "name") ≠ [])) =
            k :: (r.filter (fun x => decide (x.tag = lit "assign"))).filter (fun x => decide (x.attr (lit "name") ≠ [])) := by
          rw [List.filter_cons_of_pos (by simpa using h), List.filter_cons_of_pos (by simpa using h2)]
        rw [e, List.reverse_cons, List.find?_append]
        generalize (List.find? (fun x : Elem => decide (x.attr (lit "name") = n)) _) = y
        cases y with
        | some a => simp
        | none =>
          by_cases h3 : k.attr (lit "name") = n <;> simp [h3]
    · rw [if_neg h, ih, List.filter_cons_of_neg (by simpa using h)]

/-- a location of the scheme leads to a colour scheme document -/
def Opens (O : Outside) (base : Option Name) (loc : Name) (root : Elem) : Prop :=
  ∃ p, O.locate base loc = .ok p ∧ O.root p = some root ∧ root.tag = lit "hrd"

/-- the value the last `<assign>` for a name gives -/
def lastAssign (val : Elem → V) (roots : List Elem) (n : Name) : Option V :=
  ((roots.flatMap assignElems).reverse.find? (·.attr (lit "name") = n)).map val

theorem loadMappings_ok (O : Outside) (val : Elem → V) (p : Name) (m m' : List (Name × V)) (h : loadMappings O val p m = .ok m') :
    ∃ root, O.root p = some root ∧ root.tag = lit "hrd" ∧ m' = assigns val root.kids m := by
  unfold loadMappings at h
  split at h
  · cases h
  · rename_i r hr
    split at h
    · rename_i ht; cases h; exact ⟨r, hr, ht, rfl⟩
    · cases h

theorem fillAll_ok (O : Outside) (val : Elem → V) (base : Option Name) (locs : List Name) : ∀ m m', fillAll O val base locs m = .ok m' →
    ∃ roots, List.Forall₂ (Opens O base) (locs.filter (· ≠ [])) roots ∧ ∀ n, look m' n = (lastAssign val roots n).or (look m n) := by
  induction locs with
  | nil => intro m m' h; cases h; exact ⟨[], .nil, fun n => by simp [lastAssign]⟩
  | cons l r ih =>
    intro m m' h
    unfold fillAll at h
    by_cases hl : l = []
    · rw [if_pos hl] at h
      rw [List.filter_cons_of_neg (by simpa using hl)]
      exact ih m m' h
    · rw [if_neg hl] at h
      rw [List.filter_cons_of_pos (by simpa using hl)]
      split at h
      · cases h
      · rename_i p hp
        split at h
        · cases h
        · rename_i m1 hm
          obtain ⟨root, h1, h2, h3⟩ := loadMappings_ok O val p m m1 hm
          obtain ⟨roots, h4, h5⟩ := ih m1 m' h
          refine ⟨root :: roots, .cons ⟨p, hp, h1, h2⟩ h4, fun n => ?_⟩
          rw [h5 n, h3, assigns_look val root.kids n]
          unfold lastAssign
          rw [List.flatMap_cons, List.reverse_append, List.find?_append]
          unfold assignElems kidsOf
          generalize (List.find? (fun x : Elem => decide (x.attr (lit "name") = n)) (List.flatMap _ roots).reverse) = y
          cases y <;> simp

theorem fillAll_opens (O : Outside) (val : Elem → V) (base : Option Name) (locs : List Name) : ∀ roots m,
    List.Forall₂ (Opens O base) (locs.filter (· ≠ [])) roots → ∃ m', fillAll O val base locs m = .ok m' := by
  induction locs with
  | nil => intro roots m _; exact ⟨m, rfl⟩
  | cons l r ih =>
    intro roots m h
    unfold fillAll
    by_cases hl : l = []
    · rw [if_pos hl]
      rw [List.filter_cons_of_neg (by simpa using hl)] at h
      exact ih roots m h
    · rw [if_neg hl]
      rw [List.filter_cons_of_pos (by simpa using hl)] at h
      cases h with
      | cons h1 h2 =>
        obtain ⟨p, a, b, c⟩ := h1
        rw [a]
        dsimp only
        unfold loadMappings
        rw [b]
        dsimp only
        rw [if_pos c]
        exact ih _ _ h2

/-- C67. Making the colours of a scheme: it succeeds exactly if the scheme exists and all its files are colour scheme documents; then each region name has
the value of the last `<assign>` for it, over the files in the order of the catalogue, and no other name has one. -/
theorem C67_a_scheme_is_what_its_files_say (O : Outside) (val : Elem → V) (F : Fac) (cls n : Name) :
    ((∃ m, createMapper O val F cls (some n) = .ok m) ↔
      ∃ h roots, getHrdNode F cls n = some h ∧ List.Forall₂ (Opens O F.base) (h.locs.filter (· ≠ [])) roots) ∧
    ∀ m, createMapper O val F cls (some n) = .ok m → ∃ h roots, getHrdNode F cls n = some h ∧
      List.Forall₂ (Opens O F.base) (h.locs.filter (· ≠ [])) roots ∧ ∀ r, look m r = lastAssign val roots r := by
  have e : createMapper O val F cls (some n) = match getHrdNode F cls n with
    | none => .error .lib
    | some h => fillAll O val F.base h.locs [] := rfl
  have key : ∀ m, createMapper O val F cls (some n) = .ok m → ∃ h roots, getHrdNode F cls n = some h ∧
      List.Forall₂ (Opens O F.base) (h.locs.filter (· ≠ [])) roots ∧ ∀ r, look m r = lastAssign val roots r := by
    intro m h
    rw [e] at h
    split at h
    · cases h
    · rename_i hd hh
      obtain ⟨roots, h1, h2⟩ := fillAll_ok O val F.base hd.locs [] m h
      exact ⟨hd, roots, hh, h1, fun r => by rw [h2 r]; simp [look]⟩
  refine ⟨⟨fun ⟨m, h⟩ => ?_, fun ⟨h, roots, h1, h2⟩ => ?_⟩, key⟩
  · obtain ⟨hd, roots, h1, h2, _⟩ := key m h
    exact ⟨hd, roots, h1, h2⟩
  · obtain ⟨m, hm⟩ := fillAll_opens O val F.base h.locs roots [] h2
    exact ⟨m, by rw [e, h1]; exact hm⟩

theorem links_filter (el : Elem) : (linksOf el).filter (· ≠ []) = linksOf el := by
  unfold linksOf
  rw [List.filter_filter]
  congr 1
  funext x
  simp

theorem opens_unique {O : Outside} {base : Option Name} {ls : List Name} {rs rs' : List Elem} (h : List.Forall₂ (Opens O base) ls rs)
    (h' : List.Forall₂ (Opens O base) ls rs') : rs' = rs := by
  induction h generalizing rs' with
  | nil => cases h'; rfl
  | cons x _ ih =>
    cases h' with
    | cons y z =>
      obtain ⟨p1, a1, b1, _⟩ := x
      obtain ⟨p2, a2, b2, _⟩ := y
      rw [a1] at a2; cases a2
      rw [b1] at b2; cases b2
      rw [ih z]

/-- C67. From the catalogue to the colours: after the start-up with a catalogue document, asking for a scheme of a class and a name gives, if the files of
the first such entry of the catalogue are colour scheme documents, the last value they assign to each region name. -/
theorem C67_colours_of_a_catalogue (O : Outside) (path p q : Name) (root el : Elem) (F : Fac) (hp : path ≠ []) (hn : O.normal path = .ok p)
    (hl : O.locate none p = .ok q) (hr : O.root q = some root) (ht : root.tag = lit "catalog") (cls name : Name)
    (hel : (hrdEntries root).find? (fun el => el.attr (lit "class") = cls ∧ el.attr (lit "name") = name) = some el) (roots : List Elem)
    (ho : List.Forall₂ (Opens O (some p)) (linksOf el) roots) (val : Elem → V) :
    ∃ m, createMapper O val (loadCatalog O (some path) F).1 cls (some name) = .ok m ∧ ∀ r, look m r = lastAssign val roots r := by
  obtain ⟨hb, _, hg⟩ := C65_the_catalogue_is_what_its_document_says O path p q root F hp hn hl hr ht
  have hh : getHrdNode (loadCatalog O (some path) F).1 cls name = some (hrdOf el) := by rw [hg, hel]; rfl
  have hloc : List.Forall₂ (Opens O (loadCatalog O (some path) F).1.base) ((hrdOf el).locs.filter (· ≠ [])) roots := by
    rw [hb]
    show List.Forall₂ _ ((linksOf el).filter (· ≠ [])) roots
    rw [links_filter]; exact ho
  obtain ⟨h1, h2⟩ := C67_a_scheme_is_what_its_files_say O val (loadCatalog O (some path) F).1 cls name
  obtain ⟨m, hm⟩ := h1.2 ⟨_, roots, hh, hloc⟩
  refine ⟨m, hm, fun r => ?_⟩
  obtain ⟨h, roots', a, b, c⟩ := h2 m hm
  rw [hh] at a; cases a
  rw [c r, opens_unique hloc b]

/-- C67. Without a name, and without the variable COLORER_HRD, the scheme "default" is taken; without a class, "rgb". -/
theorem C67_the_default_scheme (O : Outside) (F : Fac) (he : O.env (lit "COLORER_HRD") = none) (cls : Option Name) :
    createStyledMapper O F cls none = createMapper O styledOf F (cls.getD (lit "rgb")) (some (lit "default")) ∧
    createStyledMapper O F none none = createStyledMapper O F (some (lit "rgb")) (some (lit "default")) ∧
    createTextMapper O F none = createMapper O textOf F (lit "text") (some (lit "default")) := by
  have h : hrdName O none = .ok (lit "default") := by unfold hrdName; rw [he]
  refine ⟨?_, ?_, ?_⟩ <;> (first | unfold createStyledMapper | unfold createTextMapper) <;> unfold createMapper <;> rw [h] <;> rfl

/-- C67 does not hold with the variable COLORER_HRD: whatever its value, and whatever the catalogue, the scheme's name is read through a pointer to a string
that is gone. -/
theorem C67_violated_by_the_environment (O : Outside) (val : Elem → V) (F : Fac) (cls v : Name) (he : O.env (lit "COLORER_HRD") = some v) :
    createMapper O val F cls none = .error .ub := by
  unfold createMapper hrdName
  rw [he]

end Verif.Factory
