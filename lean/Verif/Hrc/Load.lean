import Verif.Hrc.Lemmas
import Mathlib.Data.List.Nodup
/-! Loading keeps the invariant, and ends. -/
namespace Verif.Hrc

variable {W : World} {n : Nat} {loadF : Lib → Name → Option Lib}

/-! ### changing one scheme -/

/-- unresolved links of some nodes -/
def npend (ns : List SNode) : Nat := ((ns.flatMap SNode.links).filter Link.pending).length

theorem npend_append (a b : List SNode) : npend (a ++ b) = npend a + npend b := by
  simp [npend, List.flatMap_append, List.filter_append]

theorem pendings_eq (L : Lib) : pendings L = (L.schemes.map fun s => npend s.nodes).sum := rfl

/-- schemes with the nodes of one of them replaced -/
def change (g : List SNode → List SNode) (q : Name) (l : List Sch) : List Sch :=
  l.map fun s => if s.name = q then { s with nodes := g s.nodes } else s

theorem change_names (g : List SNode → List SNode) (q : Name) (l : List Sch) : (change g q l).map (·.name) = l.map (·.name) := by
  unfold change
  rw [List.map_map]
  apply List.map_congr_left
  intro s _
  dsimp only [Function.comp]
  split <;> rfl

theorem change_sum (g : List SNode → List SNode) (q : Name) (l : List Sch) (hn : (l.map (·.name)).Nodup) (s : Sch) (hs : s ∈ l) (hq : s.name = q) :
    ((change g q l).map fun s => npend s.nodes).sum + npend s.nodes = (l.map fun s => npend s.nodes).sum + npend (g s.nodes) := by
  induction l with
  | nil => cases hs
  | cons a r ih =>
    rw [List.map_cons, List.nodup_cons] at hn
    have hc : change g q (a :: r) = (if a.name = q then { a with nodes := g a.nodes } else a) :: change g q r := rfl
    rw [hc]
    simp only [List.map_cons, List.sum_cons]
    rcases List.mem_cons.1 hs with rfl | hs
    · have hr : change g q r = r := by
        unfold change
        conv => rhs; rw [← List.map_id r]
        apply List.map_congr_left
        intro x hx
        rw [if_neg]
        · rfl
        · intro e
          apply hn.1
          rw [hq, ← e]
          exact List.mem_map_of_mem (f := (·.name)) hx
      rw [hr, if_pos hq]
      dsimp only
      omega
    · have ha : a.name ≠ q := by
        intro e
        apply hn.1
        rw [e, ← hq]
        exact List.mem_map_of_mem (f := (·.name)) hs
      rw [if_neg ha]
      have := ih hn.2 hs
      omega

theorem change_mem {g : List SNode → List SNode} {q : Name} {l : List Sch} {s : Sch} (hs : s ∈ change g q l) :
    ∃ s0 ∈ l, s.name = s0.name ∧ s.type = s0.type ∧ ((s0.name ≠ q ∧ s = s0) ∨ (s0.name = q ∧ s.nodes = g s0.nodes)) := by
  obtain ⟨s0, h0, rfl⟩ := List.mem_map.1 hs
  refine ⟨s0, h0, ?_⟩
  split
  · rename_i h; exact ⟨rfl, rfl, .inr ⟨h, rfl⟩⟩
  · rename_i h; exact ⟨rfl, rfl, .inl ⟨h, rfl⟩⟩

theorem change_of_mem {g : List SNode → List SNode} {q : Name} {l : List Sch} {s : Sch} (hs : s ∈ l) :
    ∃ s' ∈ change g q l, s'.name = s.name ∧ s'.type = s.type ∧ (s.name ≠ q → s' = s) ∧ (s.name = q → s'.nodes = g s.nodes) := by
  refine ⟨_, List.mem_map_of_mem (f := fun s => if s.name = q then { s with nodes := g s.nodes } else s) hs, ?_⟩
  split
  · rename_i h; exact ⟨rfl, rfl, fun h' => absurd h h', fun _ => rfl⟩
  · rename_i h; exact ⟨rfl, rfl, fun _ => rfl, fun h' => absurd h' h⟩

theorem names_more {L L' : Lib} (hr : L.regs.length ≤ L'.regs.length) (h : ∃ new, L'.schemes.map (·.name) = L.schemes.map (·.name) ++ new) : More L L' := by
  refine ⟨hr, fun q ⟨s, hs, hq⟩ => ?_⟩
  obtain ⟨new, h⟩ := h
  have : q ∈ L'.schemes.map (·.name) := by
    rw [h]
    exact List.mem_append_left _ (hq ▸ List.mem_map_of_mem (f := (·.name)) hs)
  obtain ⟨s', h1, h2⟩ := List.mem_map.1 this
  exact ⟨s', h1, h2⟩

theorem push_good {q : Name} {nd : SNode} {L : Lib} (o : Option Name) (hi : Inv W L) (hu : L.updating = true) (hf : nd.Fine W L)
    (hq : ∃ s ∈ L.schemes, s.name = q) : Inv W (L.push q nd) ∧ Ext W true o (some q) nd.links.length L (L.push q nd) := by
  have hsch : (L.push q nd).schemes = change (· ++ [nd]) q L.schemes := rfl
  have hmore : More L (L.push q nd) := names_more (Nat.le_refl _) ⟨[], by rw [hsch, change_names]; simp⟩
  constructor
  · refine ⟨⟨hi.reg.unique, hi.reg.parents, hi.reg.owners, hi.reg.colons⟩, ⟨hi.flags.started, hi.flags.cur, hi.flags.imports, hi.flags.plain⟩,
      ⟨?_, ?_, ?_⟩, hi.done, ?_⟩
    · rw [hsch, change_names]; exact hi.schemes.unique
    · rw [hsch]
      intro s hs
      obtain ⟨s0, h0, h1, h2, _⟩ := change_mem hs
      rw [h1, h2]
      exact hi.schemes.owners s0 h0
    · rw [hsch]
      intro s hs x hx
      obtain ⟨s0, h0, h1, h2, h3⟩ := change_mem hs
      rcases h3 with ⟨_, rfl⟩ | ⟨_, h3⟩
      · exact (hi.schemes.nodes _ h0 x hx).more hmore
      · rw [h3] at hx
        rcases List.mem_append.1 hx with hx | hx
        · exact (hi.schemes.nodes _ h0 x hx).more hmore
        · simp only [List.mem_singleton] at hx
          subst hx
          exact hf.more hmore
    · intro h
      rw [show (L.push q nd).updating = L.updating from rfl, hu] at h
      cases h
  · refine ⟨rfl, rfl, rfl, rfl, fun _ h => h, fun _ h => h, fun _ h => .inl h, ⟨[], by simp [Lib.push], by simp⟩, fun _ _ _ => rfl,
      ⟨[], by simp [Lib.push]⟩, ⟨[], by rw [hsch, change_names]; simp, by simp⟩, ?_, ?_⟩
    · rw [hsch]
      intro s hs
      obtain ⟨s', h1, h2, h3, h4, _⟩ := change_of_mem (g := (· ++ [nd])) (q := q) hs
      refine ⟨s', h1, h2, h3, fun hne => ?_⟩
      have : s' = s := h4 (fun e => hne (by rw [e]))
      rw [this]
      exact ⟨.refl _, fun _ => rfl⟩
    · obtain ⟨s, hs, hsq⟩ := hq
      have h := change_sum (· ++ [nd]) q L.schemes hi.schemes.unique s hs hsq
      rw [npend_append] at h
      have hb : npend [nd] ≤ nd.links.length := by
        simp only [npend, List.flatMap_cons, List.flatMap_nil, List.append_nil]
        exact List.length_filter_le _ _
      unfold rounds
      rw [pendings_eq, pendings_eq, hsch]
      show _ + (W.linkBound L.protos + 1) * (L.protos.filter fun t => decide (t ∉ L.started)).length ≤ _
      omega

/-! ### bodies -/

theorem Ext.hole {k : Bool} {o h : Option Name} {b : Nat} {L L' : Lib} (e : Ext W k o none b L L') : Ext W k o h b L L' :=
  ⟨e.protos, e.cur, e.busy, e.updating, e.started, e.done, e.fresh, e.regs, e.imports, e.ents, e.names, fun s hs => by
    obtain ⟨s', a, b, c, d⟩ := e.old s hs
    exact ⟨s', a, b, c, fun _ => d (by simp)⟩, e.rounds⟩

theorem Ext.unhole {k : Bool} {o : Option Name} {q : Name} {b : Nat} {L L' : Lib} (e : Ext W k o (some q) b L L') (h : ∀ s ∈ L.schemes, s.name ≠ q) :
    Ext W k o none b L L' :=
  ⟨e.protos, e.cur, e.busy, e.updating, e.started, e.done, e.fresh, e.regs, e.imports, e.ents, e.names, fun s hs => by
    obtain ⟨s', a, b, c, d⟩ := e.old s hs
    exact ⟨s', a, b, c, fun _ => d (by simp only [ne_eq, Option.some.injEq]; exact h s hs)⟩, e.rounds⟩

/-- a step taken while a source is read leaves the schemes as they are -/
theorem Step.ext' {L L' : Lib} (h : Step W L L') (hu : L.updating = true) : Ext W true none none 0 L L' := by
  have := h.ext
  rwa [hu] at this

theorem parseBody_good (hg : Good W n loadF) (o : Option Name) (q : Name) (kids : List Elem) : ∀ L : Lib, Inv W L → measure L < n → L.updating = true →
    (∃ s ∈ L.schemes, s.name = q) → ∃ L', parseBody W loadF q kids L = some L' ∧ Inv W L' ∧
      Ext W true o (some q) (kids.map fun k => 1 + 2 * k.kids.length).sum L L' := by
  induction kids with
  | nil => intro L hi _ _ _; exact ⟨L, rfl, hi, Ext.refl ..⟩
  | cons k r ih =>
    intro L hi hm hu hq
    unfold parseBody
    obtain ⟨x, L1, h1, h2, h3, h4⟩ := nodeOf_does hg k L hi hm
    have e1 := h3.ext' hu
    have m1 := h3.measure
    have u1 : L1.updating = true := e1.updating.trans hu
    rw [h1]
    simp only [List.map_cons, List.sum_cons]
    cases x with
    | none =>
      dsimp only
      obtain ⟨L', g1, g2, g3⟩ := ih L1 h2 (by omega) u1 (e1.schemes hq)
      exact ⟨L', g1, g2, (e1.weaken (Nat.le_refl 0)).trans g3 (by omega)⟩
    | some nd =>
      dsimp only
      obtain ⟨f1, f2⟩ := h4 nd rfl
      obtain ⟨p1, p2⟩ := push_good o h2 u1 f1 (e1.schemes hq)
      have m2 := p2.measure
      obtain ⟨L', g1, g2, g3⟩ := ih (L1.push q nd) p1 (by omega) u1 (p2.schemes (e1.schemes hq))
      exact ⟨L', g1, g2, ((e1.weaken (Nat.le_refl 0)).trans p2 (d := nd.links.length) (by omega)).trans g3 (by omega)⟩

theorem addScheme_good (hg : Good W n loadF) (t : Name) (el : Elem) (L : Lib) (hi : Inv W L) (hm : measure L < n) (hu : L.updating = true)
    (ht : t ∈ L.started) : ∃ L', addScheme W loadF t el L = some L' ∧ Inv W L' ∧ Ext W true (some t) none el.linkBound L L' := by
  unfold addScheme
  cases hq : qualifyOwn t (el.attr (lit "name")) with
  | none => exact ⟨L, rfl, hi, Ext.refl ..⟩
  | some q =>
    dsimp only
    by_cases hh : L.has .scheme q = true
    · rw [if_pos hh]; exact ⟨L, rfl, hi, Ext.refl ..⟩
    · rw [if_neg hh]
      have hnew : ∀ s ∈ L.schemes, s.name ≠ q := fun s hs e => hh (has_scheme.2 ⟨s, hs, e⟩)
      have ho := owner_of_own (hi.flags.plain t (hi.flags.started t ht)) hq
      have hcol := colon_of_own hq
      generalize hL1 : ({ L with schemes := L.schemes ++ [⟨q, t, []⟩] } : Lib) = L1
      have hs1 : L1.schemes = L.schemes ++ [⟨q, t, []⟩] := by rw [← hL1]
      have hmore : More L L1 := names_more (by rw [← hL1]; exact Nat.le_refl _) ⟨[q], by rw [hs1]; simp⟩
      have hi1 : Inv W L1 := by
        refine ⟨?_, ?_, ⟨?_, ?_, ?_⟩, ?_, ?_⟩
        · subst hL1; exact ⟨hi.reg.unique, hi.reg.parents, hi.reg.owners, hi.reg.colons⟩
        · subst hL1; exact ⟨hi.flags.started, hi.flags.cur, hi.flags.imports, hi.flags.plain⟩
        · rw [hs1, List.map_append, List.map_cons, List.map_nil]
          rw [List.nodup_append]
          refine ⟨hi.schemes.unique, by simp, ?_⟩
          intro a ha b hb e
          simp only [List.mem_singleton] at hb
          obtain ⟨s, h1, h2⟩ := List.mem_map.1 ha
          exact hnew s h1 (by rw [h2, e, hb])
        · rw [hs1]
          intro s hs
          have hst : L1.started = L.started := by subst hL1; rfl
          rw [hst]
          rcases List.mem_append.1 hs with hs | hs
          · exact hi.schemes.owners s hs
          · simp only [List.mem_singleton] at hs
            subst hs
            exact ⟨ho, ht, hcol⟩
        · rw [hs1]
          intro s hs nd hnd
          rcases List.mem_append.1 hs with hs | hs
          · exact (hi.schemes.nodes s hs nd hnd).more hmore
          · simp only [List.mem_singleton] at hs
            subst hs
            cases hnd
        · subst hL1; exact hi.done
        · intro h
          have hu1 : L1.updating = L.updating := by subst hL1; rfl
          rw [hu1, hu] at h
          cases h
      have he1 : Ext W true (some t) none 0 L L1 := by
        refine ⟨by rw [← hL1], by rw [← hL1], by rw [← hL1], by rw [← hL1], fun x h => by rw [← hL1]; exact h, fun x h => by rw [← hL1]; exact h,
          fun x h => .inl (by rw [← hL1] at h; exact h), ⟨[], by rw [← hL1]; simp, by simp⟩, fun _ _ _ => by rw [← hL1], ⟨[], by rw [← hL1]; simp⟩,
          ⟨[q], by rw [hs1]; simp, ?_⟩, ?_, ?_⟩
        · intro x hx
          simp only [List.mem_singleton] at hx
          subst hx
          exact .inr (by rw [ho])
        · intro s hs
          exact ⟨s, by rw [hs1]; exact List.mem_append_left _ hs, rfl, rfl, fun _ => ⟨.refl _, fun _ => rfl⟩⟩
        · unfold rounds
          rw [pendings_eq, pendings_eq, hs1, ← hL1]
          simp [npend]
      split
      · exact ⟨L1, rfl, hi1, he1.trans (Ext.refl ..) (c := el.linkBound) (by omega)⟩
      · obtain ⟨L', g1, g2, g3⟩ := parseBody_good hg (some t) q el.kids L1 hi1 (by rw [he1.measure]; exact hm) (he1.updating.trans hu)
          ⟨⟨q, t, []⟩, by rw [hs1]; simp, rfl⟩
        refine ⟨L', g1, g2, ?_⟩
        exact (he1.hole.trans g3 (d := el.linkBound) (by unfold Elem.linkBound; omega)).unhole hnew

/-! ### types -/

theorem findReg_none {L : Lib} {q : Name} (h : L.findReg q = none) : ∀ r ∈ L.regs, r.name ≠ q := by
  unfold Lib.findReg at h
  rw [List.findIdx?_eq_none_iff] at h
  intro r hr e
  have := h r hr
  simp [e] at this

/-- registering a new region of the type `t` -/
theorem push_region {t q : Name} {L L2 : Lib} {par : Option Nat} (ht : t ∈ L.started) (ho : owner q = t) (hc : 58 ∈ q)
    (hnone : L.findReg q = none) (h2 : Inv W L2) (he : Ext W true none none 0 L L2) (hp : ∀ i, par = some i → i < L2.regs.length) :
    Inv W { L2 with regs := L2.regs ++ [⟨q, par⟩] } ∧ Ext W true (some t) none 0 L { L2 with regs := L2.regs ++ [⟨q, par⟩] } := by
  obtain ⟨new, hn1, hn2⟩ := he.regs
  have hfresh : ∀ r ∈ L2.regs, r.name ≠ q := by
    intro r hr
    rw [hn1] at hr
    rcases List.mem_append.1 hr with hr | hr
    · exact findReg_none hnone r hr
    · rcases hn2 r hr with h | h
      · intro e; rw [e, ho] at h; exact h ht
      · cases h
  constructor
  · refine ⟨⟨?_, ?_, ?_, ?_⟩, ⟨h2.flags.started, h2.flags.cur, h2.flags.imports, h2.flags.plain⟩, ⟨h2.schemes.unique, h2.schemes.owners, ?_⟩, h2.done, h2.quiet⟩
    · intro i j ri rj h1 h3 hnm
      simp only [List.getElem?_append] at h1 h3
      split at h1 <;> split at h3
      · exact h2.reg.unique i j ri rj h1 h3 hnm
      · have hm := List.mem_of_getElem? h1
        have h3' := List.mem_of_getElem? h3
        simp only [List.mem_singleton] at h3'
        subst h3'
        exact absurd hnm (hfresh ri hm)
      · have hm := List.mem_of_getElem? h3
        have h1' := List.mem_of_getElem? h1
        simp only [List.mem_singleton] at h1'
        subst h1'
        exact absurd hnm.symm (hfresh rj hm)
      · have a1 := (List.getElem?_eq_some_iff.1 h1).1
        have a2 := (List.getElem?_eq_some_iff.1 h3).1
        simp at a1 a2
        omega
    · intro i r p h1 hpar
      simp only [List.getElem?_append] at h1
      split at h1
      · exact h2.reg.parents i r p h1 hpar
      · have h1' := List.mem_of_getElem? h1
        simp only [List.mem_singleton] at h1'
        subst h1'
        have := hp p hpar
        omega
    · intro r hr
      rcases List.mem_append.1 hr with hr | hr
      · exact h2.reg.owners r hr
      · simp only [List.mem_singleton] at hr
        subst hr
        show owner q ∈ L2.started
        rw [ho]
        exact he.started t ht
    · intro r hr
      rcases List.mem_append.1 hr with hr | hr
      · exact h2.reg.colons r hr
      · simp only [List.mem_singleton] at hr
        subst hr
        exact hc
    · have hmore : More L2 { L2 with regs := L2.regs ++ [⟨q, par⟩] } := ⟨by simp, fun _ h => h⟩
      exact fun s hs nd hnd => (h2.schemes.nodes s hs nd hnd).more hmore
  · refine ⟨he.protos, he.cur, he.busy, he.updating, he.started, he.done, he.fresh, ⟨new ++ [⟨q, par⟩], by simp [hn1], ?_⟩, ?_, he.ents, ?_, he.old, he.rounds⟩
    · intro r hr
      rcases List.mem_append.1 hr with hr | hr
      · rcases hn2 r hr with h | h
        · left; exact h
        · cases h
      · simp only [List.mem_singleton] at hr
        subst hr
        right
        simp [ho]
    · intro x hx _; exact he.imports x hx (by simp)
    · obtain ⟨nn, g1, g2⟩ := he.names
      refine ⟨nn, g1, fun q hq => ?_⟩
      rcases g2 q hq with h | h
      · left; exact h
      · cases h

theorem addItem_good (hg : Good W n loadF) (t : Name) (it : Item) (L : Lib) (hi : Inv W L) (hm : measure L < n) (hu : L.updating = true)
    (ht : t ∈ L.started) : ∃ L', addItem W loadF t L it = some L' ∧ Inv W L' ∧ Ext W true (some t) none it.linkBound L L' := by
  have htp := hi.flags.started t ht
  have hplain := hi.flags.plain t htp
  cases it with
  | region nm p =>
    simp only [addItem, Item.linkBound]
    split
    · exact ⟨L, rfl, hi, Ext.refl ..⟩
    · split
      · exact ⟨L, rfl, hi, Ext.refl ..⟩
      · rename_i q hq
        have ho := owner_of_own hplain hq
        have hcol := colon_of_own hq
        by_cases hf : (L.findReg q).isSome = true
        · rw [if_pos hf]; exact ⟨L, rfl, hi, Ext.refl ..⟩
        · rw [if_neg hf]
          have hnone : L.findReg q = none := by
            cases hx : L.findReg q with
            | none => rfl
            | some _ => rw [hx] at hf; simp at hf
          have hq2 : ∃ r L1, qualifyParent loadF p L = some (r, L1) ∧ Inv W L1 ∧ Step W L L1 := by
            unfold qualifyParent
            cases p with
            | none => exact ⟨none, L, rfl, hi, Step.refl _ _⟩
            | some p =>
              simp only
              split
              · exact ⟨none, L, rfl, hi, Step.refl _ _⟩
              · obtain ⟨r, L1, h1, h2, h3, _⟩ := qualifyForeign_good hg p .region L hi hm
                exact ⟨r, L1, h1, h2, h3⟩
          obtain ⟨r, L1, h1, h2, h3⟩ := hq2
          simp only [h1]
          cases r with
          | none =>
            obtain ⟨a, b⟩ := push_region (par := none) ht ho hcol hnone h2 (h3.ext' hu) (by simp)
            exact ⟨_, rfl, a, b⟩
          | some q2 =>
            obtain ⟨par, L2, g1, g2, g3, g4⟩ := getNCRegion_good hg q2 L1 h2 (by rw [h3.measure]; exact hm)
            simp only [g1]
            obtain ⟨a, b⟩ := push_region (par := par) ht ho hcol hnone g2 ((h3.trans g3).ext' hu) g4
            exact ⟨_, rfl, a, b⟩
  | entity nm v =>
    simp only [addItem, Item.linkBound]
    split
    · exact ⟨L, rfl, hi, Ext.refl ..⟩
    · obtain ⟨v', L1, h1, h2, h3⟩ := useEntities_good hg v L hi hm
      rw [h1]
      simp only
      have h4 : Ext W true (some t) none 0 L L1 := (h3.ext' hu).weaken (Nat.le_refl 0)
      split
      · exact ⟨L1, rfl, h2, h4⟩
      · rename_i q hq
        obtain ⟨en, hen⟩ := h4.ents
        refine ⟨_, rfl, h2.congr rfl rfl rfl rfl rfl rfl rfl rfl, ?_⟩
        exact ⟨h4.protos, h4.cur, h4.busy, h4.updating, h4.started, h4.done, h4.fresh, h4.regs, h4.imports, ⟨en ++ [(q, v')], by simp [hen]⟩,
          h4.names, h4.old, h4.rounds⟩
  | import_ ty =>
    simp only [addItem, Item.linkBound]
    split
    · exact ⟨L, rfl, hi, Ext.refl ..⟩
    · rename_i hty
      have hty2 : ty ∈ L.protos := by
        by_cases hh : ty ∈ L.protos
        · exact hh
        · exact absurd (Or.inr hh) hty
      refine ⟨_, rfl, ⟨⟨hi.reg.unique, hi.reg.parents, hi.reg.owners, hi.reg.colons⟩,
        ⟨hi.flags.started, hi.flags.cur, ?_, hi.flags.plain⟩, ⟨hi.schemes.unique, hi.schemes.owners, hi.schemes.nodes⟩, hi.done, hi.quiet⟩, ?_⟩
      · intro x y hy
        simp only at hy
        split at hy
        · rcases List.mem_append.1 hy with hy | hy
          · exact hi.flags.imports t y hy
          · simp only [List.mem_singleton] at hy; subst hy; exact hty2
        · exact hi.flags.imports x y hy
      · have h4 : Ext W true (some t) none 0 L L := Ext.refl ..
        refine ⟨rfl, rfl, rfl, rfl, fun _ h => h, fun _ h => h, fun _ h => .inl h, h4.regs, ?_, h4.ents, h4.names, h4.old, h4.rounds⟩
        intro x _ hne
        simp only
        rw [if_neg (fun e => hne (by rw [e]))]
  | scheme el => exact addScheme_good hg t el L hi hm hu ht

theorem addItems_good (hg : Good W n loadF) (t : Name) (is : List Item) : ∀ L : Lib, Inv W L → measure L < n → L.updating = true → t ∈ L.started →
    ∃ L', addItems W loadF t L is = some L' ∧ Inv W L' ∧ Ext W true (some t) none (is.map Item.linkBound).sum L L' := by
  induction is with
  | nil => intro L hi _ _ _; exact ⟨L, rfl, hi, Ext.refl ..⟩
  | cons i r ih =>
    intro L hi hm hu ht
    obtain ⟨L1, h1, h2, h3⟩ := addItem_good hg t i L hi hm hu ht
    obtain ⟨L', g1, g2, g3⟩ := ih L1 h2 (by rw [h3.measure]; exact hm) (h3.updating.trans hu) (h3.started t ht)
    exact ⟨L', by simp [addItems, h1, g1], g2, h3.trans g3 (by simp)⟩

theorem filter_start (t : Name) (b ps : List Name) (ht : t ∈ ps) (hb : t ∉ b) :
    (ps.filter fun x => decide (x ∉ t :: b)).length < (ps.filter fun x => decide (x ∉ b)).length := by
  have hmono : ∀ l : List Name, (l.filter fun x => decide (x ∉ t :: b)).length ≤ (l.filter fun x => decide (x ∉ b)).length := by
    intro l
    induction l with
    | nil => simp
    | cons a r ih =>
      simp only [List.filter_cons]
      by_cases h1 : a ∉ t :: b
      · have h2 : a ∉ b := fun h => h1 (List.mem_cons_of_mem _ h)
        simp only [h1, h2, not_false_eq_true, decide_true, if_true, List.length_cons]
        omega
      · simp only [h1, decide_false, Bool.false_eq_true, if_false]
        split
        · simp only [List.length_cons]; omega
        · exact ih
  induction ps with
  | nil => cases ht
  | cons a r ih =>
    simp only [List.filter_cons]
    rcases List.mem_cons.1 ht with rfl | ht
    · have h1 : ¬ (t ∉ t :: b) := fun h => h List.mem_cons_self
      simp only [h1, decide_false, Bool.false_eq_true, if_false, hb, not_false_eq_true, decide_true, if_true,
        List.length_cons]
      have := hmono r
      omega
    · have := ih ht
      by_cases h1 : a ∉ t :: b
      · have h2 : a ∉ b := fun h => h1 (List.mem_cons_of_mem _ h)
        simp only [h1, h2, not_false_eq_true, decide_true, if_true, List.length_cons]
        omega
      · simp only [h1, decide_false, Bool.false_eq_true, if_false]
        split
        · simp only [List.length_cons]; omega
        · exact this

theorem measure_busy {L : Lib} {t : Name} (ht : t ∈ L.protos) (hb : t ∉ L.busy) :
    measure { L with busy := t :: L.busy } < measure L := filter_start t L.busy L.protos ht hb

theorem addType_good (hg : Good W n loadF) (d : TypeDecl) (L : Lib) (hi : Inv W L) (hm : measure L < n) (hu : L.updating = true)
    (hd : d.linkBound ≤ W.linkBound L.protos) : ∃ L', addType W loadF L d = some L' ∧ Inv W L' ∧ Ext W true none none 0 L L' := by
  unfold addType
  split
  · exact ⟨L, rfl, hi, Ext.refl ..⟩
  · rename_i hc
    have hp : d.name ∈ L.protos := by
      by_cases h : d.name ∈ L.protos
      · exact h
      · exact absurd (Or.inr (Or.inl h)) hc
    have hs : d.name ∉ L.started := fun h => hc (Or.inr (Or.inr h))
    generalize hL1 : ({ L with started := d.name :: L.started, cur := some d.name } : Lib) = L1
    have hu1 : L1.updating = true := by subst hL1; exact hu
    have hi1 : Inv W L1 := by
      subst hL1
      refine ⟨⟨hi.reg.unique, hi.reg.parents, ?_, hi.reg.colons⟩, ⟨?_, ?_, hi.flags.imports, hi.flags.plain⟩,
        ⟨hi.schemes.unique, fun s hs => ?_, hi.schemes.nodes⟩, fun t ht => List.mem_cons_of_mem _ (hi.done t ht), ?_⟩
      · intro r hr; exact List.mem_cons_of_mem _ (hi.reg.owners r hr)
      · intro x hx
        rcases List.mem_cons.1 hx with rfl | hx
        · exact hp
        · exact hi.flags.started x hx
      · intro x hx; cases hx; exact List.mem_cons_self
      · obtain ⟨a, b, c⟩ := hi.schemes.owners s hs
        exact ⟨a, List.mem_cons_of_mem _ b, c⟩
      · intro h; rw [hu1] at h; cases h
    have hm1 : measure L1 < n := by subst hL1; exact hm
    have hst1 : d.name ∈ L1.started := by subst hL1; exact List.mem_cons_self
    obtain ⟨L2, h1, h2, h3⟩ := addItems_good hg d.name d.items L1 hi1 hm1 hu1 hst1
    rw [h1]
    have hsub : ∀ x ∈ L.started, x ∈ L2.started := by
      intro x hx; apply h3.started; subst hL1; exact List.mem_cons_of_mem _ hx
    have hr1 : rounds W L1 + (W.linkBound L.protos + 1) ≤ rounds W L := by
      have := filter_start d.name L.started L.protos hp hs
      subst hL1
      unfold rounds
      show pendings L + _ * _ + _ ≤ _
      dsimp only
      generalize (L.protos.filter fun x => decide (x ∉ d.name :: L.started)).length = a at *
      generalize (L.protos.filter fun x => decide (x ∉ L.started)).length = b at *
      generalize W.linkBound L.protos + 1 = c
      have : c * (a + 1) ≤ c * b := Nat.mul_le_mul_left c this
      rw [Nat.mul_add] at this
      omega
    refine ⟨_, rfl, ⟨⟨h2.reg.unique, h2.reg.parents, h2.reg.owners, h2.reg.colons⟩, ⟨h2.flags.started, ?_, h2.flags.imports, h2.flags.plain⟩,
      ⟨h2.schemes.unique, h2.schemes.owners, h2.schemes.nodes⟩, ?_, ?_⟩, ?_⟩
    · intro x hx; exact hsub x (hi.flags.cur x hx)
    · intro t ht
      rcases List.mem_cons.1 ht with rfl | ht
      · exact h3.started _ hst1
      · exact h2.done t ht
    · intro h
      have : L2.updating = true := h3.updating.trans hu1
      rw [show L2.updating = false from h] at this
      cases this
    · obtain ⟨new, n1, n2⟩ := h3.regs
      obtain ⟨nn, m1, m2⟩ := h3.names
      refine ⟨by have := h3.protos; subst hL1; exact this, rfl, by have := h3.busy; subst hL1; exact this,
        by have := h3.updating; subst hL1; exact this, hsub, ?_, ?_,
        ⟨new, by subst hL1; exact n1, ?_⟩, ?_, by have := h3.ents; subst hL1; exact this, ⟨nn, by subst hL1; exact m1, ?_⟩,
        by have := h3.old; subst hL1; exact this, ?_⟩
      · intro t ht; apply List.mem_cons_of_mem; apply h3.done; subst hL1; exact ht
      · intro t ht
        rcases h3.fresh t ht with h | h
        · subst hL1
          rcases List.mem_cons.1 h with rfl | h
          · exact .inr List.mem_cons_self
          · exact .inl h
        · exact .inr (List.mem_cons_of_mem _ h)
      · intro r hr
        left
        rcases n2 r hr with h | h
        · intro hh; apply h; subst hL1; exact List.mem_cons_of_mem _ hh
        · rw [Option.some.inj h]; exact hs
      · intro x hx _
        have hne : some x ≠ some d.name := by
          intro e; cases e; exact hs hx
        have := h3.imports x (by subst hL1; exact List.mem_cons_of_mem _ hx) hne
        subst hL1; exact this
      · intro r hr
        left
        rcases m2 r hr with h | h
        · intro hh; apply h; subst hL1; exact List.mem_cons_of_mem _ hh
        · rw [Option.some.inj h]; exact hs
      · have h := h3.rounds
        have e : (d.items.map Item.linkBound).sum = d.linkBound := rfl
        rw [e] at h
        show rounds W L2 ≤ _
        omega

theorem addTypes_good (hg : Good W n loadF) (ds : List TypeDecl) : ∀ L : Lib, Inv W L → measure L < n → L.updating = true →
    (∀ d ∈ ds, d.linkBound ≤ W.linkBound L.protos) → ∃ L', addTypes W loadF L ds = some L' ∧ Inv W L' ∧ Ext W true none none 0 L L' := by
  induction ds with
  | nil => intro L hi _ _ _; exact ⟨L, rfl, hi, Ext.refl ..⟩
  | cons d r ih =>
    intro L hi hm hu hd
    obtain ⟨L1, h1, h2, h3⟩ := addType_good hg d L hi hm hu (hd d (by simp))
    obtain ⟨L', g1, g2, g3⟩ := ih L1 h2 (by rw [h3.measure]; exact hm) (h3.updating.trans hu) (fun x hx => by
      rw [h3.protos]; exact hd x (by simp [hx]))
    exact ⟨L', by simp [addTypes, h1, g1], g2, h3.trans g3 (by omega)⟩

/-! ### links -/

/-- no link of the node is left to be resolved -/
def Settled (nd : SNode) : Prop := ∀ l ∈ nd.links, l.pending = false

/-- the link leads to a scheme there is, if to any -/
def LinkOk (L : Lib) (l : Link) : Prop := ∀ q, l.scheme = some q → ∃ s ∈ L.schemes, s.name = q

theorem LinkOk.more {L L' : Lib} (m : More L L') {l : Link} (h : LinkOk L l) : LinkOk L' l := fun q hq => m.schemes q (h q hq)

theorem updateLink_good (hg : Good W n loadF) (l : Link) (L : Lib) (hi : Inv W L) (hm : measure L < n) (hl : LinkOk L l) :
    ∃ l' L', updateLink loadF l L = some (l', L') ∧ Inv W L' ∧ Step W L L' ∧ l.Next l' ∧ l'.pending = false ∧ LinkOk L' l' ∧
      (l.pending = false → l' = l ∧ L' = L) := by
  obtain ⟨nm, sc⟩ := l
  unfold updateLink
  cases nm with
  | none => exact ⟨_, L, rfl, hi, Step.refl _ _, .refl _, rfl, hl, fun _ => ⟨rfl, rfl⟩⟩
  | some nm =>
    cases sc with
    | some sc => exact ⟨_, L, rfl, hi, Step.refl _ _, .refl _, rfl, hl, fun _ => ⟨rfl, rfl⟩⟩
    | none =>
      dsimp only
      obtain ⟨q, L1, h1, h2, h3, h4⟩ := qualify_does hg nm .scheme L hi hm
      rw [run_bind h1]
      exact ⟨⟨none, q⟩, L1, rfl, h2, h3, .inr ⟨rfl, rfl⟩, rfl, fun x hx => has_scheme.1 (h4 x hx), fun h => by cases h⟩

theorem each_links {α : Type} {f : α → M α} {P : α → Prop} {R : α → α → Prop} {Q Z : α → Lib → Prop}
    (hQ : ∀ b L L', More L L' → Q b L → Q b L') (hZ : ∀ b L L', More L L' → Z b L → Z b L')
    (hf : ∀ a L, Inv W L → measure L < n → Z a L → ∃ b L', f a L = some (b, L') ∧ Inv W L' ∧ Step W L L' ∧ R a b ∧ Q b L' ∧ (P a → b = a ∧ L' = L)) :
    ∀ (l : List α) (L : Lib), Inv W L → measure L < n → (∀ a ∈ l, Z a L) → ∃ bs L', each f l L = some (bs, L') ∧ Inv W L' ∧ Step W L L' ∧
      List.Forall₂ R l bs ∧ (∀ b ∈ bs, Q b L') ∧ ((∀ a ∈ l, P a) → bs = l ∧ L' = L) := by
  intro l
  induction l with
  | nil => intro L hi _ _; exact ⟨[], L, rfl, hi, Step.refl _ _, .nil, by simp, fun _ => ⟨rfl, rfl⟩⟩
  | cons a r ih =>
    intro L hi hm hz
    obtain ⟨b, L1, h1, h2, h3, h4, h5, h6⟩ := hf a L hi hm (hz a (by simp))
    obtain ⟨bs, L2, g1, g2, g3, g4, g5, g6⟩ := ih L1 h2 (by rw [h3.measure]; exact hm) (fun x hx => hZ x L L1 h3.more (hz x (by simp [hx])))
    refine ⟨b :: bs, L2, ?_, g2, h3.trans g3, .cons h4 g4, ?_, ?_⟩
    · unfold each
      rw [run_bind h1, run_bind g1]; rfl
    · intro x hx
      rcases List.mem_cons.1 hx with rfl | hx
      · exact hQ _ _ _ g3.more h5
      · exact g5 x hx
    · intro hp
      obtain ⟨rfl, rfl⟩ := h6 (hp a (by simp))
      obtain ⟨rfl, rfl⟩ := g6 (fun x hx => hp x (by simp [hx]))
      exact ⟨rfl, rfl⟩

theorem virtLinks_good (hg : Good W n loadF) (v : VEnt) (L : Lib) (hi : Inv W L) (hm : measure L < n) (hz : LinkOk L v.virt ∧ LinkOk L v.subst) :
    ∃ v' L', (do
      let a ← updateLink loadF v.virt
      let b ← updateLink loadF v.subst
      pure (⟨a, b⟩ : VEnt) : M VEnt) L = some (v', L') ∧ Inv W L' ∧ Step W L L' ∧ (v.virt.Next v'.virt ∧ v.subst.Next v'.subst) ∧
      ((v'.virt.pending = false ∧ v'.subst.pending = false) ∧ LinkOk L' v'.virt ∧ LinkOk L' v'.subst) ∧
      ((v.virt.pending = false ∧ v.subst.pending = false) → v' = v ∧ L' = L) := by
  obtain ⟨a, L1, h1, h2, h3, h4, h5, h6, h7⟩ := updateLink_good hg v.virt L hi hm hz.1
  obtain ⟨b, L2, g1, g2, g3, g4, g5, g6, g7⟩ := updateLink_good hg v.subst L1 h2 (by rw [h3.measure]; exact hm) (hz.2.more h3.more)
  refine ⟨⟨a, b⟩, L2, ?_, g2, h3.trans g3, ⟨h4, g4⟩, ⟨⟨h5, g5⟩, h6.more g3.more, g6⟩, ?_⟩
  · rw [run_bind h1, run_bind g1]; rfl
  · intro ⟨p1, p2⟩
    obtain ⟨rfl, rfl⟩ := h7 p1
    obtain ⟨rfl, rfl⟩ := g7 p2
    exact ⟨rfl, rfl⟩

theorem linkNode_good (hg : Good W n loadF) (nd : SNode) (L : Lib) (hi : Inv W L) (hm : measure L < n) (hf : nd.Fine W L) :
    ∃ nd' L', linkNode loadF nd L = some (nd', L') ∧ Inv W L' ∧ Step W L L' ∧ nd.Next nd' ∧ (Settled nd' ∧ nd'.Fine W L') ∧
      (Settled nd → nd' = nd ∧ L' = L) := by
  obtain ⟨f1, f2⟩ := id hf
  cases nd with
  | regexp r => exact ⟨_, L, rfl, hi, Step.refl _ _, .refl _, ⟨fun _ h => (by cases h), hf⟩, fun _ => ⟨rfl, rfl⟩⟩
  | keywords r => exact ⟨_, L, rfl, hi, Step.refl _ _, .refl _, ⟨fun _ h => (by cases h), hf⟩, fun _ => ⟨rfl, rfl⟩⟩
  | block b =>
    simp only [linkNode]
    obtain ⟨l, L1, h1, h2, h3, h4, h5, h6, h7⟩ := updateLink_good hg b.link L hi hm (f1 b.link (by simp [SNode.links]))
    rw [run_bind h1]
    refine ⟨_, L1, rfl, h2, h3, ⟨h4, rfl⟩, ⟨?_, ?_, ?_⟩, ?_⟩
    · intro x hx
      simp only [SNode.links, List.mem_singleton] at hx
      rw [hx]; exact h5
    · intro x hx
      simp only [SNode.links, List.mem_singleton] at hx
      rw [hx]; exact h6
    · have := (hf.more h3.more).2
      exact this
    · intro hs
      obtain ⟨rfl, rfl⟩ := h7 (hs b.link (by simp [SNode.links]))
      exact ⟨rfl, rfl⟩
  | inherit l virt =>
    simp only [linkNode]
    obtain ⟨l', L1, h1, h2, h3, h4, h5, h6, h7⟩ := updateLink_good hg l L hi hm (f1 l (by simp [SNode.links]))
    obtain ⟨vs, L2, g1, g2, g3, g4, g5, g6⟩ := each_links (P := fun v : VEnt => v.virt.pending = false ∧ v.subst.pending = false)
      (R := fun a b : VEnt => a.virt.Next b.virt ∧ a.subst.Next b.subst)
      (Q := fun v L => (v.virt.pending = false ∧ v.subst.pending = false) ∧ LinkOk L v.virt ∧ LinkOk L v.subst)
      (Z := fun v L => LinkOk L v.virt ∧ LinkOk L v.subst)
      (fun b L L' m h => ⟨h.1, h.2.1.more m, h.2.2.more m⟩) (fun b L L' m h => ⟨h.1.more m, h.2.more m⟩)
      (virtLinks_good hg) virt L1 h2 (by rw [h3.measure]; exact hm) (by
        intro v hv
        have hsub : ∀ x ∈ v.links, x ∈ (SNode.inherit l virt).links := fun x hx => List.mem_cons_of_mem _ (List.mem_flatMap.2 ⟨v, hv, hx⟩)
        exact ⟨LinkOk.more h3.more (f1 v.virt (hsub _ (by simp [VEnt.links]))), LinkOk.more h3.more (f1 v.subst (hsub _ (by simp [VEnt.links])))⟩)
    rw [run_bind h1, run_bind g1]
    have hall : ∀ x ∈ (SNode.inherit l' vs).links, x.pending = false ∧ LinkOk L2 x := by
      intro x hx
      rcases List.mem_cons.1 hx with rfl | hx
      · exact ⟨h5, h6.more g3.more⟩
      · obtain ⟨v, hv, hx⟩ := List.mem_flatMap.1 hx
        simp only [VEnt.links, List.mem_cons, List.not_mem_nil, or_false] at hx
        obtain ⟨a, b⟩ := g5 v hv
        rcases hx with rfl | rfl
        · exact ⟨a.1, b.1⟩
        · exact ⟨a.2, b.2⟩
    refine ⟨_, L2, rfl, g2, h3.trans g3, ⟨h4, g4⟩, ⟨fun x hx => (hall x hx).1, fun x hx => (hall x hx).2, trivial⟩, ?_⟩
    intro hs
    obtain ⟨rfl, rfl⟩ := h7 (hs l (by simp [SNode.links]))
    obtain ⟨rfl, rfl⟩ := g6 (by
      intro v hv
      have hsub : ∀ x ∈ v.links, x ∈ (SNode.inherit l' virt).links := fun x hx => List.mem_cons_of_mem _ (List.mem_flatMap.2 ⟨v, hv, hx⟩)
      exact ⟨hs v.virt (hsub _ (by simp [VEnt.links])), hs v.subst (hsub _ (by simp [VEnt.links]))⟩)
    exact ⟨rfl, rfl⟩

theorem npend_settled {ns : List SNode} : npend ns = 0 ↔ ∀ nd ∈ ns, Settled nd := by
  unfold npend Settled
  rw [List.length_eq_zero_iff, List.filter_eq_nil_iff]
  constructor
  · intro h nd hnd l hl
    have := h l (List.mem_flatMap.2 ⟨nd, hnd, hl⟩)
    simpa using this
  · intro h l hl
    obtain ⟨nd, h1, h2⟩ := List.mem_flatMap.1 hl
    simp [h nd h1 l h2]

theorem Link.Next.settled {l l' : Link} (h : l.Next l') (hs : l.pending = false) : l' = l := by
  rcases h with h | h
  · exact h
  · rw [hs] at h; cases h.1

theorem SNode.Next.settled {a b : SNode} (h : a.Next b) (hs : Settled a) : b = a := by
  cases a <;> cases b <;> try exact h.elim
  · rename_i l v l' v'
    obtain ⟨h1, h2⟩ := h
    have e1 := h1.settled (hs l (by simp [SNode.links]))
    have e2 : v' = v := by
      have hv : ∀ x ∈ v, x.virt.pending = false ∧ x.subst.pending = false := by
        intro x hx
        have hsub : ∀ y ∈ x.links, y ∈ (SNode.inherit l v).links := fun y hy => List.mem_cons_of_mem _ (List.mem_flatMap.2 ⟨x, hx, hy⟩)
        exact ⟨hs x.virt (hsub _ (by simp [VEnt.links])), hs x.subst (hsub _ (by simp [VEnt.links]))⟩
      clear hs
      induction h2 with
      | nil => rfl
      | @cons a b u w hab _ ih =>
        have ha := hv a (by simp)
        have ea := hab.1.settled ha.1
        have eb := hab.2.settled ha.2
        have : b = a := by
          cases a; cases b; simp_all
        rw [this, ih (fun x hx => hv x (by simp [hx]))]
    rw [e1, e2]
  · exact congrArg _ h
  · rename_i b b'
    obtain ⟨h1, h2⟩ := h
    have e1 := h1.settled (hs b.link (by simp [SNode.links]))
    rw [e1] at h2
    rw [h2]
  · exact congrArg _ h

/-- a scheme whose links are all resolved does not change any more -/
theorem Sch.Next.settled {a b : Sch} (h : a.Next b) (hs : ∀ nd ∈ a.nodes, Settled nd) : b = a := by
  obtain ⟨h1, h2, h3⟩ := h
  have : b.nodes = a.nodes := by
    generalize a.nodes = x at h3 hs
    generalize b.nodes = y at h3
    induction h3 with
    | nil => rfl
    | cons hab _ ih =>
      have hab' := SNode.Next.settled hab (hs _ (by simp))
      rw [hab', ih (fun z hz => hs z (by simp [hz]))]
  cases a; cases b; simp_all

theorem nodup_name {l : List Sch} (hn : (l.map (·.name)).Nodup) {a b : Sch} (ha : a ∈ l) (hb : b ∈ l) (h : a.name = b.name) : a = b :=
  List.inj_on_of_nodup_map hn ha hb h

theorem pass_good (hg : Good W n loadF) (qs : List Name) : ∀ L : Lib, Inv W L → measure L < n → L.updating = true → L.changed = false →
    (∀ t ∈ L.started, t ∈ L.done) → (∀ q ∈ qs, ∃ s ∈ L.schemes, s.name = q) →
    ∃ L', pass loadF qs L = some L' ∧ Inv W L' ∧ Ext W false none none 0 L L' ∧ (L'.changed = true → rounds W L' < rounds W L) ∧
      (L'.changed = false → L'.schemes.map (·.name) = L.schemes.map (·.name) ∧
        ∀ s ∈ L'.schemes, s.name ∈ qs → ∀ nd ∈ s.nodes, Settled nd) := by
  induction qs with
  | nil => intro L hi _ _ hc _ _; exact ⟨L, rfl, hi, Ext.refl .., by simp [hc], fun _ => ⟨rfl, by simp⟩⟩
  | cons q r ih =>
    intro L hi hm hu hc hd hqs
    obtain ⟨s0, hs0, hn0⟩ := hqs q (by simp)
    unfold pass
    cases hfind : L.schemes.find? (·.name = q) with
    | none =>
      rw [List.find?_eq_none] at hfind
      exact absurd (by simpa using hn0) (hfind s0 hs0)
    | some s =>
      have hs := List.mem_of_find?_eq_some hfind
      have hsq : s.name = q := by simpa using List.find?_some hfind
      dsimp only
      rw [if_neg (fun h => h (hd _ (hi.schemes.owners s hs).2.1))]
      generalize hLc : ({ L with cur := some s.type } : Lib) = Lc
      have hic : Inv W Lc := by
        subst hLc
        refine ⟨⟨hi.reg.unique, hi.reg.parents, hi.reg.owners, hi.reg.colons⟩, ⟨hi.flags.started, ?_, hi.flags.imports, hi.flags.plain⟩,
          ⟨hi.schemes.unique, hi.schemes.owners, hi.schemes.nodes⟩, hi.done, hi.quiet⟩
        intro t ht
        cases ht
        exact (hi.schemes.owners s hs).2.1
      have huc : Lc.updating = true := by subst hLc; exact hu
      have hfc : ∀ nd ∈ s.nodes, nd.Fine W Lc := by
        subst hLc
        exact hi.schemes.nodes s hs
      obtain ⟨ns, L1, h1, h2, h3, h4, h5, h6⟩ := each_links (P := Settled) (R := SNode.Next) (Q := fun nd L => Settled nd ∧ nd.Fine W L)
        (Z := fun nd L => nd.Fine W L) (fun b L L' m h => ⟨h.1, h.2.more m⟩) (fun b L L' m h => h.more m) (linkNode_good hg) s.nodes Lc hic
        (by subst hLc; exact hm) hfc
      rw [h1]
      change ∃ L', (if ({ L1.setNodes q ns with cur := L.cur } : Lib).changed = true then some ({ L1.setNodes q ns with cur := L.cur } : Lib)
        else pass loadF r { L1.setNodes q ns with cur := L.cur }) = some L' ∧ _
      generalize hL2 : ({ L1.setNodes q ns with cur := L.cur } : Lib) = L2
      have e1 := h3.ext' huc
      have hsL1 : s ∈ L1.schemes := by
        obtain ⟨s', a, _, _, b⟩ := e1.old s (by subst hLc; exact hs)
        rwa [(b (by simp)).2 rfl] at a
      have hsch : L2.schemes = change (fun _ => ns) q L1.schemes := by subst hL2; rfl
      have hmore : More L1 L2 := names_more (by subst hL2; exact Nat.le_refl _) ⟨[], by rw [hsch, change_names]; simp⟩
      have h12 : L2.updating = L1.updating ∧ L2.started = L1.started ∧ L2.done = L1.done ∧ L2.changed = L1.changed ∧ L2.protos = L1.protos ∧
          L2.regs = L1.regs ∧ L2.imports = L1.imports ∧ L2.ents = L1.ents ∧ L2.busy = L1.busy ∧ L2.cur = L.cur := by
        subst hL2; exact ⟨rfl, rfl, rfl, rfl, rfl, rfl, rfl, rfl, rfl, rfl⟩
      obtain ⟨k1, k2, k3, k4, k5, k6, k7, k8, k9, k10⟩ := h12
      have hc1 : Lc.protos = L.protos ∧ Lc.started = L.started ∧ Lc.done = L.done ∧ Lc.busy = L.busy ∧ Lc.updating = L.updating ∧ Lc.regs = L.regs ∧
          Lc.imports = L.imports ∧ Lc.ents = L.ents ∧ Lc.schemes = L.schemes ∧ Lc.changed = L.changed ∧ rounds W Lc = rounds W L := by
        subst hLc; exact ⟨rfl, rfl, rfl, rfl, rfl, rfl, rfl, rfl, rfl, rfl, rfl⟩
      obtain ⟨c1, c2, c3, c4, c5, c6, c7, c8, c9, c10, c11⟩ := hc1
      have hnext : Sch.Next s ⟨s.name, s.type, ns⟩ := ⟨rfl, rfl, h4⟩
      have hi2 : Inv W L2 := by
        refine ⟨⟨?_, ?_, ?_, ?_⟩, ⟨?_, ?_, ?_, ?_⟩, ⟨?_, ?_, ?_⟩, ?_, ?_⟩
        · rw [k6]; exact h2.reg.unique
        · rw [k6]; exact h2.reg.parents
        · rw [k6, k2]; exact h2.reg.owners
        · rw [k6]; exact h2.reg.colons
        · rw [k2, k5]; exact h2.flags.started
        · rw [k10, k2]
          intro t ht
          exact e1.started t (by rw [c2]; exact hi.flags.cur t ht)
        · rw [k7, k5]; exact h2.flags.imports
        · rw [k5]; exact h2.flags.plain
        · rw [hsch, change_names]; exact h2.schemes.unique
        · rw [hsch, k2]
          intro x hx
          obtain ⟨x0, a, b, c, _⟩ := change_mem hx
          rw [b, c]
          exact h2.schemes.owners x0 a
        · rw [hsch]
          intro x hx nd hnd
          obtain ⟨x0, a, b, c, d⟩ := change_mem hx
          rcases d with ⟨_, rfl⟩ | ⟨_, d⟩
          · exact (h2.schemes.nodes _ a nd hnd).more hmore
          · rw [d] at hnd
            exact (h5 nd hnd).2.more hmore
        · rw [k2, k3]; exact h2.done
        · intro h
          rw [k1, e1.updating, huc] at h
          cases h
      have hround : rounds W L2 + npend s.nodes ≤ rounds W L := by
        have a := change_sum (fun _ => ns) q L1.schemes h2.schemes.unique s hsL1 hsq
        have b : npend ns = 0 := npend_settled.2 fun nd hnd => (h5 nd hnd).1
        have c := e1.rounds
        rw [c11] at c
        unfold rounds at c ⊢
        rw [pendings_eq, pendings_eq] at c
        rw [pendings_eq, pendings_eq, hsch, k5, k2]
        rw [b] at a
        omega
      have e2 : Ext W false none none 0 L L2 := by
        refine ⟨by rw [k5, e1.protos, c1], k10, by rw [k9, e1.busy, c4], by rw [k1, e1.updating, c5], ?_, ?_, ?_, ?_, ?_, ?_, ?_, ?_, by omega⟩
        · rw [k2, ← c2]; exact e1.started
        · rw [k3, ← c3]; exact e1.done
        · rw [k2, k3, ← c2]; exact e1.fresh
        · rw [k6, ← c6, ← c2]; exact e1.regs
        · rw [k7, ← c7, ← c2]; exact e1.imports
        · rw [k8, ← c8]; exact e1.ents
        · rw [hsch, change_names, ← c9, ← c2]; exact e1.names
        · rw [hsch]
          intro x hx
          obtain ⟨x', a1, a2, a3, a4⟩ := e1.old x (by rw [c9]; exact hx)
          have hx' : x' = x := (a4 (by simp)).2 rfl
          subst hx'
          obtain ⟨y, b1, b2, b3, b4, b5⟩ := change_of_mem (g := fun _ => ns) (q := q) a1
          refine ⟨y, b1, b2, b3, fun _ => ⟨?_, by simp⟩⟩
          by_cases hxq : x'.name = q
          · have hxs : x' = s := nodup_name hi.schemes.unique hx hs (hxq.trans hsq.symm)
            have hy := b5 hxq
            refine ⟨b2, b3, ?_⟩
            rw [hy, hxs]
            exact h4
          · rw [b4 hxq]; exact .refl _
      have hd2 : ∀ t ∈ L2.started, t ∈ L2.done := by
        intro t ht
        rcases e2.fresh t ht with h | h
        · exact e2.done t (hd t h)
        · exact h
      by_cases hch : L2.changed = true
      · rw [if_pos hch]
        refine ⟨L2, rfl, hi2, e2, fun _ => ?_, fun h => by rw [hch] at h; cases h⟩
        have : npend s.nodes ≠ 0 := by
          intro h
          obtain ⟨_, rfl⟩ := h6 (npend_settled.1 h)
          rw [k4, c10, hc] at hch
          cases hch
        omega
      · rw [if_neg hch]
        have hch' : L2.changed = false := by simpa using hch
        obtain ⟨s1, s2⟩ := h3.still huc (by rw [← k4]; exact hch')
        obtain ⟨L3, g1, g2, g3, g4, g5⟩ := ih L2 hi2 (by rw [e2.measure]; exact hm) (e2.updating.trans hu) hch' hd2
          (fun x hx => e2.schemes (hqs x (by simp [hx])))
        refine ⟨L3, g1, g2, e2.trans g3 (by omega), fun h => ?_, fun h => ?_⟩
        · have := g4 h
          omega
        · obtain ⟨n1, n2⟩ := g5 h
          refine ⟨by rw [n1, hsch, change_names, s2, c9], ?_⟩
          intro x hx hxn nd hnd
          rcases List.mem_cons.1 hxn with hxq | hxr
          · have hmem : (⟨s.name, s.type, ns⟩ : Sch) ∈ L2.schemes := by
              rw [hsch]
              obtain ⟨y, b1, b2, b3, _, b5⟩ := change_of_mem (g := fun _ => ns) (q := q) hsL1
              have : y = ⟨s.name, s.type, ns⟩ := by
                have := b5 hsq
                cases y; simp_all
              rwa [← this]
            obtain ⟨y, y1, y2, _, y4⟩ := g3.old _ hmem
            have hyeq := (y4 (by simp)).1.settled (fun nd hnd => (h5 nd hnd).1)
            have hxy : x = y := nodup_name g2.schemes.unique hx y1 (by rw [hxq, y2]; exact hsq.symm)
            rw [hxy, hyeq] at hnd
            exact (h5 nd hnd).1
          · exact n2 x hx hxr nd hnd

theorem links_good (hg : Good W n loadF) (f : Nat) : ∀ L : Lib, Inv W L → measure L < n → L.updating = true → (L.changed = true → rounds W L < f) →
    (L.changed = false → Resolved L) → (∀ t ∈ L.started, t ∈ L.done) →
    ∃ L', links W loadF f L = some L' ∧ Inv W L' ∧ Ext W false none none 0 L L' ∧ Resolved L' ∧ (∀ t ∈ L'.started, t ∈ L'.done) := by
  induction f with
  | zero =>
    intro L hi _ _ hr hres hd
    unfold links
    by_cases hc : L.changed = true
    · have := hr hc; omega
    · rw [if_neg hc]
      exact ⟨L, rfl, hi, Ext.refl .., hres (by simpa using hc), hd⟩
  | succ f ih =>
    intro L hi hm hu hr hres hd
    unfold links
    by_cases hc : L.changed = true
    · rw [if_pos hc]
      have hi0 : Inv W { L with changed := false } := hi.congr rfl rfl rfl rfl rfl rfl rfl rfl
      obtain ⟨L1, h1, h2, h3, h4, h5⟩ := pass_good hg (W.order (L.schemes.map (·.name))) { L with changed := false } hi0 hm hu rfl hd (by
        intro q hq
        have := (W.order_perm _).mem_iff.1 hq
        obtain ⟨s, a, b⟩ := List.mem_map.1 this
        exact ⟨s, a, b⟩)
      have h3' : Ext W false none none 0 L L1 := ⟨h3.protos, h3.cur, h3.busy, h3.updating, h3.started, h3.done, h3.fresh, h3.regs, h3.imports, h3.ents,
        h3.names, h3.old, h3.rounds⟩
      have hrr : rounds W { L with changed := false } = rounds W L := rfl
      obtain ⟨L2, g1, g2, g3, g4, g5⟩ := ih L1 h2 (by rw [h3'.measure]; exact hm) (h3'.updating.trans hu)
        (fun h => by have := h4 h; have := hr hc; omega) (fun h => by
          obtain ⟨a, b⟩ := h5 h
          intro s hs
          refine b s hs ?_
          rw [(W.order_perm _).mem_iff]
          show s.name ∈ ({ L with changed := false } : Lib).schemes.map (·.name)
          rw [← a]
          exact List.mem_map_of_mem (f := (·.name)) hs) (fun t ht => by
          rcases h3'.fresh t ht with h | h
          · exact h3'.done t (hd t h)
          · exact h)
      refine ⟨L2, ?_, g2, h3'.trans g3 (by omega), g4, g5⟩
      rw [h1]
      exact g1
    · rw [if_neg hc]
      exact ⟨L, rfl, hi, Ext.refl .., hres (by simpa using hc), hd⟩

/-! ### sources -/

theorem parseHrc_good (hg : Good W n loadF) (ds : List TypeDecl) (L : Lib) (hi : Inv W L) (hm : measure L < n)
    (hd : ∀ d ∈ ds, d.linkBound ≤ W.linkBound L.protos) : ∃ L', parseHrc W loadF L ds = some L' ∧ Inv W L' ∧ Step W L L' := by
  unfold parseHrc
  have hi0 : Inv W { L with updating := true } := ⟨⟨hi.reg.unique, hi.reg.parents, hi.reg.owners, hi.reg.colons⟩,
    ⟨hi.flags.started, hi.flags.cur, hi.flags.imports, hi.flags.plain⟩, ⟨hi.schemes.unique, hi.schemes.owners, hi.schemes.nodes⟩, hi.done, fun h => by cases h⟩
  obtain ⟨L1, h1, h2, h3⟩ := addTypes_good hg ds { L with updating := true } hi0 hm rfl hd
  rw [h1]
  dsimp only
  have hi2 : Inv W { L1 with changed := true } := h2.congr rfl rfl rfl rfl rfl rfl rfl rfl
  by_cases hu : L.updating = true
  · rw [if_pos hu]
    have hL : ({ L with updating := true } : Lib) = L := by rw [← hu]
    rw [hL] at h3
    refine ⟨_, rfl, hi2, ⟨?_, fun _ h => by cases h⟩⟩
    rw [hu]
    exact ⟨h3.protos, h3.cur, h3.busy, h3.updating, h3.started, h3.done, h3.fresh, h3.regs, h3.imports, h3.ents, h3.names, h3.old, h3.rounds⟩
  · rw [if_neg hu]
    have hu' : L.updating = false := by simpa using hu
    have hd1 : ∀ t ∈ L1.started, t ∈ L1.done := by
      intro t ht
      rcases h3.fresh t ht with h | h
      · exact h3.done t ((hi.quiet hu').1 t h)
      · exact h
    obtain ⟨L2, g1, g2, g3, g4, g5⟩ := links_good hg (rounds W { L1 with changed := true } + 1) { L1 with changed := true } hi2
      (by show measure L1 < n; rw [h3.measure]; exact hm) (by show L1.updating = true; rw [h3.updating]) (fun _ => by omega) (fun h => by cases h) hd1
    rw [g1]
    have h3' : Ext W false none none 0 { L with updating := true } { L1 with changed := true } := ⟨h3.protos, h3.cur, h3.busy, h3.updating, h3.started, h3.done, h3.fresh, h3.regs, h3.imports, h3.ents, h3.names,
      h3.loose.old, h3.rounds⟩
    have e := h3'.trans g3 (d := 0) (by omega)
    refine ⟨_, rfl, ⟨⟨g2.reg.unique, g2.reg.parents, g2.reg.owners, g2.reg.colons⟩,
      ⟨g2.flags.started, g2.flags.cur, g2.flags.imports, g2.flags.plain⟩, ⟨g2.schemes.unique, g2.schemes.owners, g2.schemes.nodes⟩, g2.done,
      fun _ => ⟨g5, g4⟩⟩, ⟨?_, fun h => by rw [hu'] at h; cases h⟩⟩
    rw [hu']
    exact ⟨e.protos, e.cur, e.busy, hu'.symm, e.started, e.done, e.fresh, e.regs, e.imports, e.ents, e.names, e.old, e.rounds⟩

theorem sum_le_of_mem {l : List Nat} {x : Nat} (h : x ∈ l) : x ≤ l.sum := by
  induction l with
  | nil => cases h
  | cons a r ih =>
    rw [List.sum_cons]
    rcases List.mem_cons.1 h with rfl | h
    · omega
    · have := ih h; omega

theorem linkBound_le {L : Lib} {t : Name} {ds : List TypeDecl} (ht : t ∈ L.protos) (h : W.types t = some ds) {d : TypeDecl} (hd : d ∈ ds) :
    d.linkBound ≤ W.linkBound L.protos := by
  refine Nat.le_trans (sum_le_of_mem (List.mem_map_of_mem (f := TypeDecl.linkBound) hd)) (sum_le_of_mem ?_)
  refine List.mem_map.2 ⟨t, ht, ?_⟩
  rw [h]

theorem load_good (W : World) (fuel : Nat) : Good W fuel (load W fuel) := by
  induction fuel with
  | zero => intro L t _ _ h; omega
  | succ fuel ih =>
    intro L t hi ht hm
    simp only [load, loadBody]
    split
    · exact ⟨L, rfl, hi, Step.refl _ _⟩
    · rename_i hc
      have hb : t ∉ L.busy := fun h => hc (Or.inr (Or.inl h))
      cases hs : W.types t with
      | none =>
        refine ⟨_, rfl, hi.congr rfl rfl rfl rfl rfl rfl rfl rfl, ⟨?_, fun _ h => ⟨h, rfl⟩⟩⟩
        have e : Ext W L.updating none none 0 L L := Ext.refl ..
        exact ⟨rfl, rfl, rfl, rfl, e.started, e.done, e.fresh, e.regs, e.imports, e.ents, e.names, e.old, e.rounds⟩
      | some ds =>
        have hlt := measure_busy ht hb
        have hi1 : Inv W { L with busy := t :: L.busy } := hi.congr rfl rfl rfl rfl rfl rfl rfl rfl
        obtain ⟨L1, h1, h2, h3⟩ := parseHrc_good ih ds { L with busy := t :: L.busy } hi1 (by omega) (fun d hd => linkBound_le (L := L) ht hs hd)
        simp only [h1, Option.map_some]
        have e := h3.ext
        refine ⟨_, rfl, h2.congr rfl rfl rfl rfl rfl rfl rfl rfl, ⟨⟨e.protos, e.cur, ?_, e.updating, e.started, e.done, e.fresh, e.regs, e.imports, e.ents, e.names, e.old, e.rounds⟩,
          h3.still⟩⟩
        simp only [e.busy, List.erase_cons_head]

end Verif.Hrc
