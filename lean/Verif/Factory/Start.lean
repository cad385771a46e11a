import Verif.Factory.Props
/-! # Start-up: which types are known afterwards (C66) -/
namespace Verif.Factory
open Verif.Hrc (Name lit Elem Lib)

theorem forget_types (F : Fac) (t : Name) : (F.forget t).types = F.types.filter (·.name ≠ t) := by
  unfold Fac.forget
  split
  · rfl
  · rename_i h
    symm
    rw [List.filter_eq_self]
    intro p hp
    simp only [List.any_eq_true, not_exists, not_and] at h
    simpa using h p hp

theorem erase_listing (ps : List Proto) (t : Name) (hn : (ps.map (·.name)).Nodup) : (listing ps).erase t = listing (ps.filter (·.name ≠ t)) := by
  unfold listing
  have hd : ((ps.filter (!·.isPackage)).map (·.name)).Nodup := hn.sublist (List.filter_sublist.map _)
  rw [hd.erase_eq_filter, List.filter_map, List.filter_filter, List.filter_filter]
  congr 1
  apply List.filter_congr
  intro x _
  rw [Bool.and_comm]
  congr 1
  by_cases h : x.name = t <;> simp [h]

theorem forget_tidy {F : Fac} (h : Tidy F) (t : Name) : Tidy (F.forget t) ∧ t ∉ (F.forget t).types.map (·.name) := by
  refine ⟨⟨?_, ?_⟩, ?_⟩
  · rw [forget_types]; exact h.names.sublist (List.filter_sublist.map _)
  · rw [forget_types]
    unfold Fac.forget
    split
    · show F.listed.erase t = _
      rw [h.listed, erase_listing _ _ h.names]
    · rename_i hf
      rw [h.listed]
      congr 1
      symm
      rw [List.filter_eq_self]
      intro p hp
      simp only [List.any_eq_true, not_exists, not_and] at hf
      simpa using hf p hp
  · rw [forget_types]; simp

theorem register_tidy {F : Fac} (h : Tidy F) (P : Proto) (hn : P.name ∉ F.types.map (·.name)) : Tidy (F.register P) := by
  refine ⟨?_, ?_⟩
  · show ((F.types ++ [P]).map (·.name)).Nodup
    rw [List.map_append]
    exact List.nodup_append.2 ⟨h.names, by simp, fun a ha b hb => by
      simp at hb; subst hb; exact fun e => hn (e ▸ ha)⟩
  · show (if P.isPackage then F.listed else F.listed ++ [P.name]) = listing (F.types ++ [P])
    rw [h.listed]
    unfold listing
    cases hp : P.isPackage <;> simp [hp]

/-- what a piece of start-up does with the types -/
structure Adds (F F' : Fac) (ps : List Proto) : Prop where
  types : F'.types = declare F.types ps
  tidy  : Tidy F'

theorem Adds.none {F : Fac} (h : Tidy F) : Adds F F [] := ⟨rfl, h⟩

theorem Adds.trans {A B C : Fac} {ps qs : List Proto} (h : Adds A B ps) (g : Adds B C qs) : Adds A C (ps ++ qs) :=
  ⟨by rw [g.types, h.types]; unfold declare; rw [List.foldl_append], g.tidy⟩

theorem Adds.lib {F F' : Fac} {ps : List Proto} (h : Adds F F' ps) (L : Lib) : Adds F { F' with lib := L } ps := ⟨h.types, ⟨h.tidy.names, h.tidy.listed⟩⟩

theorem addPrototype_adds (O : Outside) (file : Name) (el : Elem) (F : Fac) (ht : Tidy F) (hn : el.attr (lit "name") ≠ [])
    (hp : PlacesExist O file el) : ∃ P, Says O file el P ∧ addPrototype O file el F = ((F.forget P.name).register P, none) ∧ Adds F ((F.forget P.name).register P) [P] := by
  obtain ⟨P, h1, h2⟩ := C66_a_prototype_is_what_its_element_says O file el hp
  obtain ⟨t1, t2⟩ := forget_tidy ht P.name
  refine ⟨P, h2, ?_, ?_, register_tidy t1 P t2⟩
  · unfold addPrototype
    rw [if_neg hn, h1, ← h2.name]
  · show (F.forget P.name).types ++ [P] = _
    rw [forget_types]; rfl

/-- a child of `<hrc>` -/
theorem hrcChild_adds (O : Outside) (file : Name) (k : Elem) (F : Fac) (ht : Tidy F) (hp : isProto k = true → PlacesExist O file k) :
    (hrcChild O file k F).2 = some .ub ∨
    ((hrcChild O file k F).2 = none ∧ ∃ ps, List.Forall₂ (Says O file) ([k].filter isProto) ps ∧ Adds F (hrcChild O file k F).1 ps) := by
  unfold hrcChild
  by_cases h : k.tag = lit "prototype" ∨ k.tag = lit "package"
  · rw [if_pos h]
    by_cases hn : k.attr (lit "name") = []
    · have : isProto k = false := by unfold isProto; simp [hn]
      refine .inr ⟨?_, [], ?_, ?_⟩
      · unfold addPrototype; rw [if_pos hn]
      · simp [this]
      · unfold addPrototype; rw [if_pos hn]; exact .none ht
    · have hi : isProto k = true := by unfold isProto; rcases h with h | h <;> simp [h, hn]
      obtain ⟨P, h1, h2, h3⟩ := addPrototype_adds O file k F ht hn (hp hi)
      refine .inr ⟨by rw [h2], [P], ?_, by rw [h2]; exact h3⟩
      simp only [List.filter_cons, hi, if_true, List.filter_nil]
      exact .cons h1 .nil
  · have hi : isProto k = false := by
      unfold isProto
      have h1 : ¬ k.tag = lit "prototype" := fun e => h (.inl e)
      have h2 : ¬ k.tag = lit "package" := fun e => h (.inr e)
      simp [h1, h2]
    rw [if_neg h]
    by_cases h2 : k.tag = lit "type"
    · rw [if_pos h2]
      unfold Fac.loading
      split
      · exact .inr ⟨rfl, [], by simp [hi], (Adds.none ht).lib _⟩
      · exact .inl rfl
    · rw [if_neg h2]
      exact .inr ⟨rfl, [], by simp [hi], .none ht⟩

theorem children_adds (O : Outside) (file : Name) (ks : List Elem) : ∀ F, Tidy F → (∀ k ∈ ks, isProto k = true → PlacesExist O file k) →
    (steps (hrcChild O file) ks F).2 = some .ub ∨
    ((steps (hrcChild O file) ks F).2 = none ∧ ∃ ps, List.Forall₂ (Says O file) (ks.filter isProto) ps ∧ Adds F (steps (hrcChild O file) ks F).1 ps) := by
  induction ks with
  | nil => intro F ht _; exact .inr ⟨rfl, [], .nil, .none ht⟩
  | cons k r ih =>
    intro F ht hp
    unfold steps
    rcases hrcChild_adds O file k F ht (hp k (by simp)) with h | ⟨h, ps, h1, h2⟩
    · left
      generalize hrcChild O file k F = x at h
      obtain ⟨F1, e⟩ := x
      cases h; rfl
    · generalize hrcChild O file k F = x at h h2
      obtain ⟨F1, e⟩ := x
      cases h
      dsimp only at h2 ⊢
      rcases ih F1 h2.tidy fun k hk => hp k (by simp [hk]) with h' | ⟨h', qs, g1, g2⟩
      · exact .inl h'
      · refine .inr ⟨h', ps ++ qs, ?_, h2.trans g2⟩
        rw [show k :: r = [k] ++ r from rfl, List.filter_append]
        exact List.rel_append h1 g1

theorem finishHrc_adds (O : Outside) (b : Bool) {F F1 : Fac} {ps : List Proto} (h : Adds F F1 ps) :
    (finishHrc O b F1).2 = some .ub ∨ ((finishHrc O b F1).2 = none ∧ Adds F (finishHrc O b F1).1 ps) := by
  unfold finishHrc
  split
  · unfold Fac.loading
    split
    · exact .inr ⟨rfl, h.lib _⟩
    · exact .inl rfl
  · exact .inr ⟨rfl, h.lib _⟩

/-- one source -/
theorem loadSource_adds (O : Outside) (file : Name) (F : Fac) (ht : Tidy F) (hs : SourceSound O file) :
    (swallow (loadSource O file F)).2 = some .ub ∨
    ((swallow (loadSource O file F)).2 = none ∧ ∃ ps, Gives O file ps ∧ Adds F (swallow (loadSource O file F)).1 ps) := by
  unfold loadSource
  cases hr : O.root file with
  | none => exact .inr ⟨rfl, [], .inr ⟨(fun root h => by rw [hr] at h; cases h), rfl⟩, .none ht⟩
  | some root =>
    dsimp only
    by_cases hh : root.tag = lit "hrc"
    · rw [if_pos hh]
      have ht' : Tidy { F with lib := { F.lib with updating := true } } := ⟨ht.names, ht.listed⟩
      rcases children_adds O file root.kids _ ht' (fun k hk => hs root hr k hk) with h | ⟨h, ps, h1, h2⟩
      · left
        generalize steps (hrcChild O file) root.kids { F with lib := { F.lib with updating := true } } = x at h
        obtain ⟨F1, e⟩ := x
        cases h; rfl
      · generalize steps (hrcChild O file) root.kids { F with lib := { F.lib with updating := true } } = x at h h2
        obtain ⟨F1, e⟩ := x
        cases h
        dsimp only at h2 ⊢
        have h3 : Adds F F1 ps := ⟨h2.types, h2.tidy⟩
        rcases finishHrc_adds O (!F.lib.updating) h3 with g | ⟨g1, g2⟩
        · left
          generalize finishHrc O (!F.lib.updating) F1 = y at g
          obtain ⟨F2, e⟩ := y
          cases g; rfl
        · right
          generalize finishHrc O (!F.lib.updating) F1 = y at g1 g2
          obtain ⟨F2, e⟩ := y
          cases g1
          exact ⟨rfl, ps, .inl ⟨root, hr, hh, h1⟩, g2⟩
    · rw [if_neg hh]
      exact .inr ⟨rfl, [], .inr ⟨(fun root' h => by rw [hr] at h; cases h; exact hh), rfl⟩, .none ht⟩

theorem files_adds (O : Outside) {fs srcs : List Name} (h : List.Forall₂ (fun f p => O.locate none f = .ok p) fs srcs) : ∀ F, Tidy F →
    (∀ s ∈ srcs, SourceSound O s) →
    (steps (loadHrc O none) fs F).2 = some .ub ∨
    ((steps (loadHrc O none) fs F).2 = none ∧ ∃ pss, List.Forall₂ (Gives O) srcs pss ∧ Adds F (steps (loadHrc O none) fs F).1 pss.flatten) := by
  induction h with
  | nil => intro F ht _; exact .inr ⟨rfl, [], .nil, .none ht⟩
  | @cons f p fs srcs hl _ ih =>
    intro F ht hs
    unfold steps
    have he : loadHrc O none f F = swallow (loadSource O p F) := by unfold loadHrc; rw [hl]
    rw [he]
    rcases loadSource_adds O p F ht (hs p (by simp)) with g | ⟨g, ps, g1, g2⟩
    · left
      generalize swallow (loadSource O p F) = x at g
      obtain ⟨F1, e⟩ := x
      cases g; rfl
    · generalize swallow (loadSource O p F) = x at g g2
      obtain ⟨F1, e⟩ := x
      cases g
      dsimp only at g2 ⊢
      rcases ih F1 g2.tidy fun s hm => hs s (by simp [hm]) with h' | ⟨h', qs, k1, k2⟩
      · exact .inl h'
      · exact .inr ⟨h', ps :: qs, .cons g1 k1, by rw [List.flatten_cons]; exact g2.trans k2⟩

theorem isFs_iff (base loc : Name) : isFs base loc = true ↔ ¬ InArchive base loc := by
  unfold isFs InArchive jarP
  rw [← List.isPrefixOf_iff_prefix, ← List.isPrefixOf_iff_prefix]
  cases List.isPrefixOf (lit "jar:") base <;> cases List.isPrefixOf (lit "jar:") loc <;> decide

/-- one location of the catalogue -/
theorem location_adds (O : Outside) (base loc : Name) (F : Fac) (hb : F.base = some base) (ht : Tidy F) (srcs : List Name) (hl : Leads O base loc srcs)
    (hs : ∀ s ∈ srcs, SourceSound O s) :
    (loadHrcPath O loc F).2 = some .ub ∨
    ((loadHrcPath O loc F).2 = none ∧ ∃ pss, List.Forall₂ (Gives O) srcs pss ∧ Adds F (loadHrcPath O loc F).1 pss.flatten) := by
  unfold loadHrcPath
  rw [hb]
  dsimp only
  unfold loadHrcIn
  cases hl with
  | files ha hf h2 =>
    rw [if_pos ((isFs_iff base loc).2 ha), hf]
    dsimp only
    rcases files_adds O h2 F ht hs with g | ⟨g, ps, g1, g2⟩
    · left
      generalize steps (loadHrc O none) _ F = x at g
      obtain ⟨F1, e⟩ := x
      cases g; rfl
    · right
      generalize steps (loadHrc O none) _ F = x at g g2
      obtain ⟨F1, e⟩ := x
      cases g
      exact ⟨rfl, ps, g1, g2⟩
  | @missing f ha hf h2 =>
    rw [if_pos ((isFs_iff base loc).2 ha), hf]
    dsimp only
    have : steps (loadHrc O none) [f] F = (F, some .lib) := by unfold steps loadHrc; rw [h2]
    rw [this]
    exact .inr ⟨rfl, [], .nil, .none ht⟩
  | @archive p ha h2 =>
    rw [if_neg (fun c => (isFs_iff base loc).1 c ha)]
    have he : loadHrc O (some base) loc F = swallow (loadSource O p F) := by unfold loadHrc; rw [h2]
    rw [he]
    rcases loadSource_adds O p F ht (hs p (by simp)) with g | ⟨g, ps, g1, g2⟩
    · left
      generalize swallow (loadSource O p F) = x at g
      obtain ⟨F1, e⟩ := x
      cases g; rfl
    · right
      generalize swallow (loadSource O p F) = x at g g2
      obtain ⟨F1, e⟩ := x
      cases g
      refine ⟨rfl, [ps], .cons g1 .nil, ?_⟩
      rw [List.flatten_cons, List.flatten_nil, List.append_nil]
      exact g2
  | noArchive ha h2 =>
    rw [if_neg (fun c => (isFs_iff base loc).1 c ha)]
    have he : loadHrc O (some base) loc F = (F, some .lib) := by unfold loadHrc; rw [h2]
    rw [he]
    exact .inr ⟨rfl, [], .nil, .none ht⟩

theorem locations_adds (O : Outside) (base : Name) {locs : List Name} {srcss : List (List Name)} (h : List.Forall₂ (Leads O base) locs srcss) :
    ∀ F, F.base = some base → Tidy F → (∀ s ∈ srcss.flatten, SourceSound O s) →
    (steps (loadHrcPath O) locs F).2 = some .ub ∨
    ((steps (loadHrcPath O) locs F).2 = none ∧ ∃ pss, List.Forall₂ (Gives O) srcss.flatten pss ∧ Adds F (steps (loadHrcPath O) locs F).1 pss.flatten) := by
  induction h with
  | nil => intro F _ ht _; exact .inr ⟨rfl, [], .nil, .none ht⟩
  | @cons loc srcs locs srcss hl _ ih =>
    intro F hb ht hs
    unfold steps
    have hsame := loadHrcPath_same O loc F
    rcases location_adds O base loc F hb ht srcs hl (fun s hm => hs s (by simp [hm])) with g | ⟨g, ps, g1, g2⟩
    · left
      generalize loadHrcPath O loc F = x at g
      obtain ⟨F1, e⟩ := x
      cases g; rfl
    · generalize loadHrcPath O loc F = x at g g2 hsame
      obtain ⟨F1, e⟩ := x
      cases g
      dsimp only at g2 hsame ⊢
      rcases ih F1 (hsame.base.trans hb) g2.tidy (fun s hm => hs s (by simp at hm ⊢; exact .inr hm)) with h' | ⟨h', qs, k1, k2⟩
      · exact .inl h'
      · refine .inr ⟨h', ps ++ qs, ?_, by rw [List.flatten_append]; exact g2.trans k2⟩
        rw [List.flatten_cons]
        exact List.rel_append g1 k1

/-- C66. After the start-up with a catalogue, the types are those known before and, in the order of the catalogue, all those the sources declare: each as
its element says, a later one replacing an older one of the same name; those that are no packages are listed in this order. Sources that are missing or
are no HRC documents contribute nothing and do no harm. Partial: the places named by the prototypes of the sources have to exist; a directory is
read as a whole only if all its files can be located. The call either returns, or the loading of types contained in the sources does something undefined
or does not end (excluded below for sources of prototypes). -/
theorem C66_start_up_registers_what_the_sources_declare_partial (O : Outside) (path p q : Name) (root : Elem) (F : Fac) (ht : Tidy F) (hp : path ≠ [])
    (hn : O.normal path = .ok p) (hl : O.locate none p = .ok q) (hr : O.root q = some root) (htag : root.tag = lit "catalog") (srcss : List (List Name))
    (hsrc : List.Forall₂ (Leads O p) (hrcLinks root) srcss) (hs : ∀ s ∈ srcss.flatten, SourceSound O s) :
    (loadCatalog O (some path) F).2 = some .ub ∨
    ((loadCatalog O (some path) F).2 = none ∧ Tidy (loadCatalog O (some path) F).1 ∧
      ∃ pss, List.Forall₂ (Gives O) srcss.flatten pss ∧ (loadCatalog O (some path) F).1.types = declare F.types pss.flatten) := by
  have hc : catalogPath O (some path) = .ok p := by
    cases path with
    | nil => exact absurd rfl hp
    | cons c r => exact hn
  have hcat : parseCat O p = .ok ⟨hrcLinks root, (hrdEntries root).map hrdOf⟩ := by
    unfold parseCat; rw [hl]; dsimp only; rw [hr]; dsimp only; rw [if_pos htag, catalogue_eq]
  have he : loadCatalog O (some path) F = steps (loadHrcPath O) (hrcLinks root)
      { F with base := some p, hrcs := hrcLinks root, hrds := ((hrdEntries root).map hrdOf).foldl addHrd [] } := by
    unfold loadCatalog; rw [hc]; dsimp only; rw [hcat]
  rw [he]
  rcases locations_adds O p hsrc { F with base := some p, hrcs := hrcLinks root, hrds := ((hrdEntries root).map hrdOf).foldl addHrd [] } rfl
    ⟨ht.names, ht.listed⟩ hs with h | ⟨h, pss, h1, h2⟩
  · exact .inl h
  · exact .inr ⟨h, h2.tidy, pss, h1, h2.types⟩

theorem find_declare (n : Name) (new : List Proto) : ∀ old, (declare old new).find? (·.name = n) = (new.reverse.find? (·.name = n)).or (old.find? (·.name = n)) := by
  induction new with
  | nil => intro old; simp [declare]
  | cons P r ih =>
    intro old
    have hd : declare old (P :: r) = declare (old.filter (·.name ≠ P.name) ++ [P]) r := rfl
    rw [hd, ih, List.reverse_cons, List.find?_append (xs := r.reverse), Option.or_assoc, List.find?_append]
    congr 1
    by_cases h : P.name = n
    · have : (old.filter (fun x => decide (x.name ≠ P.name))).find? (fun x => decide (x.name = n)) = none := by
        rw [List.find?_eq_none]
        intro x hx
        have := (List.mem_filter.1 hx).2
        rw [h] at this
        simpa using this
      rw [this]; simp [h]
    · rw [List.find?_filter]
      have : old.find? (fun a => decide (decide (a.name ≠ P.name) = true ∧ decide (a.name = n) = true)) = old.find? (fun x => decide (x.name = n)) := by
        congr 1
        funext x
        by_cases hx : x.name = n
        · have : ¬ n = P.name := fun e => h e.symm
          simp [hx, this]
        · simp [hx]
      rw [this]; simp [h]

/-- C66. So `getFileType` gives the last prototype declared under the name, or else the one known before. -/
theorem C66_the_last_declaration_counts (F F' : Fac) (pss : List (List Proto)) (h : F'.types = declare F.types pss.flatten) (n : Name) :
    F'.getFileType n = (pss.flatten.reverse.find? (·.name = n)).or (F.getFileType n) := by
  unfold Fac.getFileType findType
  rw [h, find_declare]

/-! ## Sources of prototypes only -/

/-- nothing is loaded yet -/
def Idle (u : Bool) (F : Fac) : Prop := F.lib = { Lib.init (F.types.map (·.name)) with updating := u }

/-- a source without types -/
def NoTypes (O : Outside) (file : Name) : Prop := ∀ root, O.root file = some root → ∀ el ∈ root.kids, el.tag ≠ lit "type"

theorem forget_idle {u : Bool} {F : Fac} (h : Idle u F) (t : Name) : Idle u (F.forget t) := by
  unfold Fac.forget
  split
  · unfold Idle at h ⊢
    unfold Fac.unload
    dsimp only
    rw [h]
    unfold forgetLib Lib.init
    have : (F.types.map (·.name)).filter (fun x => decide (x ≠ t)) = (F.types.filter (fun p => decide (p.name ≠ t))).map (·.name) := by
      rw [List.filter_map]; rfl
    simp only [List.filter_nil, ite_self]
    rw [this]
  · exact h

theorem hrcChild_idle {O : Outside} {file : Name} {u : Bool} {k : Elem} {F : Fac} (h : Idle u F) (hk : k.tag ≠ lit "type")
    (hp : isProto k = true → PlacesExist O file k) : Idle u (hrcChild O file k F).1 ∧ (hrcChild O file k F).2 = none := by
  unfold hrcChild
  split
  · rename_i ht
    unfold addPrototype
    split
    · exact ⟨h, rfl⟩
    · rename_i hn
      have hi : isProto k = true := by unfold isProto; rcases ht with h | h <;> simp [h, hn]
      obtain ⟨P, h1, h2⟩ := C66_a_prototype_is_what_its_element_says O file k (hp hi)
      rw [h1]
      refine ⟨?_, rfl⟩
      have hf := forget_idle h (k.attr (lit "name"))
      unfold Idle at hf ⊢
      unfold Fac.register
      dsimp only
      rw [hf]
      unfold Lib.init
      simp
  · exact ⟨h, rfl⟩

theorem steps_idle {α : Type} {f : α → Fac → Res} {u : Bool} (as : List α) (hf : ∀ a ∈ as, ∀ F, Idle u F → Idle u (f a F).1 ∧ (f a F).2 = none) :
    ∀ F, Idle u F → Idle u (steps f as F).1 ∧ (steps f as F).2 = none := by
  induction as with
  | nil => intro F h; exact ⟨h, rfl⟩
  | cons a r ih =>
    intro F h
    unfold steps
    obtain ⟨h1, h2⟩ := hf a (by simp) F h
    generalize f a F = x at h1 h2
    obtain ⟨F1, e⟩ := x
    cases h2
    exact ih (fun b hb => hf b (by simp [hb])) F1 h1

theorem finishHrc_idle {O : Outside} {F : Fac} (h : Idle true F) : Idle false (finishHrc O true F).1 ∧ (finishHrc O true F).2 = none := by
  unfold finishHrc
  rw [if_pos rfl]
  unfold Idle at h
  have ho : O.order [] = [] := List.Perm.eq_nil (O.order_perm [])
  have key : ∀ (W : Hrc.World) (g : Lib → Name → Option Lib) (n : Nat), W.order [] = [] →
      Hrc.links W g (n + 1) { F.lib with changed := true } = some F.lib := by
    intro W g n hw
    rw [h]
    unfold Hrc.links Lib.init
    dsimp only
    rw [if_pos rfl, List.map_nil, hw]
    unfold Hrc.pass
    rw [Option.bind_some]
    cases n <;> rfl
  rw [key _ _ _ ho]
  refine ⟨?_, rfl⟩
  show ({ F.lib with updating := false } : Lib) = _
  rw [h]; rfl

/-- a source that can be read without harm -/
def Harmless (O : Outside) (file : Name) : Prop := SourceSound O file ∧ NoTypes O file

theorem loadSource_idle {O : Outside} {file : Name} {F : Fac} (h : Idle false F) (hs : Harmless O file) :
    Idle false (swallow (loadSource O file F)).1 ∧ (swallow (loadSource O file F)).2 = none := by
  unfold loadSource
  cases hr : O.root file with
  | none => exact ⟨h, rfl⟩
  | some root =>
    dsimp only
    split
    · have h1 : Idle true { F with lib := { F.lib with updating := true } } := by
        unfold Idle at h ⊢
        dsimp only
        rw [h]
      obtain ⟨h2, h3⟩ := steps_idle (f := hrcChild O file) root.kids
        (fun k hk F hF => hrcChild_idle hF (hs.2 root hr k hk) (hs.1 root hr k hk)) _ h1
      generalize steps (hrcChild O file) root.kids { F with lib := { F.lib with updating := true } } = x at h2 h3
      obtain ⟨F1, e⟩ := x
      cases h3
      dsimp only at h2 ⊢
      have hu : F.lib.updating = false := by unfold Idle at h; rw [h]
      rw [hu]
      have h45 := finishHrc_idle (O := O) h2
      rw [show (!false) = true from rfl]
      generalize finishHrc O true F1 = y at h45
      obtain ⟨F2, e⟩ := y
      obtain ⟨h4, h5⟩ := h45
      cases h5
      exact ⟨h4, rfl⟩
    · exact ⟨h, rfl⟩

theorem loadHrc_idle {O : Outside} {base : Option Name} {f p : Name} (hl : O.locate base f = .ok p) (hs : Harmless O p) {F : Fac} (h : Idle false F) :
    Idle false (loadHrc O base f F).1 ∧ (loadHrc O base f F).2 = none := by
  unfold loadHrc
  rw [hl]
  exact loadSource_idle h hs

theorem location_idle {O : Outside} {base loc : Name} {srcs : List Name} (hl : Leads O base loc srcs) (hs : ∀ s ∈ srcs, Harmless O s) {F : Fac}
    (hb : F.base = some base) (h : Idle false F) : Idle false (loadHrcPath O loc F).1 ∧ (loadHrcPath O loc F).2 = none := by
  unfold loadHrcPath
  rw [hb]
  dsimp only
  have fin : ∀ x : Res, Idle false x.1 ∧ x.2 = none → Idle false (swallow x).1 ∧ (swallow x).2 = none := by
    intro x hx
    obtain ⟨F1, e⟩ := x
    obtain ⟨h4, h5⟩ := hx
    cases h5
    exact ⟨h4, rfl⟩
  unfold loadHrcIn
  cases hl with
  | files ha hf h2 =>
    rw [if_pos ((isFs_iff base loc).2 ha), hf]
    refine fin _ (steps_idle _ ?_ F h)
    intro f hm F1 h1
    have : ∃ p ∈ srcs, O.locate none f = .ok p := by
      clear hf hs
      induction h2 with
      | nil => cases hm
      | cons hd _ ih =>
        rcases List.mem_cons.1 hm with e | e
        · subst e; exact ⟨_, by simp, hd⟩
        · obtain ⟨p, hp, hq⟩ := ih e; exact ⟨p, by simp [hp], hq⟩
    obtain ⟨p, hp, hq⟩ := this
    exact loadHrc_idle hq (hs p hp) h1
  | @missing f ha hf h2 =>
    rw [if_pos ((isFs_iff base loc).2 ha), hf]
    have : steps (loadHrc O none) [f] F = (F, some .lib) := by unfold steps loadHrc; rw [h2]
    dsimp only
    rw [this]
    exact ⟨h, rfl⟩
  | @archive p ha h2 =>
    rw [if_neg (fun c => (isFs_iff base loc).1 c ha)]
    exact fin _ (loadHrc_idle h2 (hs p (by simp)) h)
  | noArchive ha h2 =>
    rw [if_neg (fun c => (isFs_iff base loc).1 c ha)]
    have he : loadHrc O (some base) loc F = (F, some .lib) := by unfold loadHrc; rw [h2]
    rw [he]
    exact ⟨h, rfl⟩

theorem locations_idle {O : Outside} {base : Name} {locs : List Name} {srcss : List (List Name)} (h : List.Forall₂ (Leads O base) locs srcss) :
    ∀ F, F.base = some base → Idle false F → (∀ s ∈ srcss.flatten, Harmless O s) →
    Idle false (steps (loadHrcPath O) locs F).1 ∧ (steps (loadHrcPath O) locs F).2 = none := by
  induction h with
  | nil => intro F _ h _; exact ⟨h, rfl⟩
  | @cons loc srcs locs srcss hl _ ih =>
    intro F hb hi hs
    unfold steps
    have hsame := loadHrcPath_same O loc F
    obtain ⟨h1, h2⟩ := location_idle hl (fun s hm => hs s (by simp [hm])) hb hi
    generalize loadHrcPath O loc F = x at h1 h2 hsame
    obtain ⟨F1, e⟩ := x
    cases h2
    exact ih F1 (hsame.base.trans hb) h1 (fun s hm => hs s (by simp at hm ⊢; exact .inr hm))

/-- C66. A catalogue whose sources declare prototypes and contain no types: the start-up of a new factory returns, the types are exactly those the sources
declare, in order and each as its element says, and nothing of them has been loaded yet: the library is the one that the statements about loading and
colouring (C14, C44, C61 to C64) begin with. -/
theorem C66_start_up_of_a_new_factory_partial (O : Outside) (path p q : Name) (root : Elem) (hp : path ≠ [])
    (hn : O.normal path = .ok p) (hl : O.locate none p = .ok q) (hr : O.root q = some root) (htag : root.tag = lit "catalog") (srcss : List (List Name))
    (hsrc : List.Forall₂ (Leads O p) (hrcLinks root) srcss) (hs : ∀ s ∈ srcss.flatten, SourceSound O s ∧ NoTypes O s) :
    ∃ F pss, loadCatalog O (some path) Fac.new = (F, none) ∧ List.Forall₂ (Gives O) srcss.flatten pss ∧ F.types = declare [] pss.flatten ∧
      F.listed = listing F.types ∧ F.lib = Lib.init (F.types.map (·.name)) := by
  have hc : catalogPath O (some path) = .ok p := by
    cases path with
    | nil => exact absurd rfl hp
    | cons c r => exact hn
  have hcat : parseCat O p = .ok ⟨hrcLinks root, (hrdEntries root).map hrdOf⟩ := by
    unfold parseCat; rw [hl]; dsimp only; rw [hr]; dsimp only; rw [if_pos htag, catalogue_eq]
  have he : loadCatalog O (some path) Fac.new = steps (loadHrcPath O) (hrcLinks root)
      { Fac.new with base := some p, hrcs := hrcLinks root, hrds := ((hrdEntries root).map hrdOf).foldl addHrd [] } := by
    unfold loadCatalog; rw [hc]; dsimp only; rw [hcat]
  have hi := locations_idle hsrc { Fac.new with base := some p, hrcs := hrcLinks root, hrds := ((hrdEntries root).map hrdOf).foldl addHrd [] } rfl rfl hs
  rw [← he] at hi
  have ht : Tidy Fac.new := ⟨by unfold Fac.new; simp, rfl⟩
  rcases C66_start_up_registers_what_the_sources_declare_partial O path p q root Fac.new ht hp hn hl hr htag srcss hsrc (fun s hm => (hs s hm).1) with h | ⟨h, h2, pss, h3, h4⟩
  · rw [hi.2] at h; cases h
  · exact ⟨_, pss, by rw [← h], h3, h4, h2.listed, hi.1⟩

end Verif.Factory
