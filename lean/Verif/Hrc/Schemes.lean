import Verif.Hrc.Props
/-! C61: the schemes of a loaded library. -/
namespace Verif.Hrc

variable {src : World} {fuel : Nat}

/-- C61. Whatever the sources contain – faulty expressions, unknown names, cyclic references, empty attributes – after any sequence of loads and
lookups no two schemes have the same name, every scheme belongs to a type that was loaded, and all its nodes can be used: expressions were accepted
by the compiler (the end of a block knowing the named brackets of its start), regions are registered, keywords are not empty, and a link is either
the name of a scheme there is or given up for good. -/
theorem C61_loaded_schemes_are_fine (protos : List Name) (hp : ∀ t ∈ protos, 58 ∉ t) (hf : protos.length < fuel) (as : List Act) (L : Lib)
    (h : acts src fuel (Lib.init protos) as = some L) :
    (L.schemes.map (·.name)).Nodup ∧ ∀ s ∈ L.schemes, owner s.name = s.type ∧ s.type ∈ L.done ∧
      ∀ nd ∈ s.nodes, nd.Fine src L ∧ ∀ l ∈ nd.links, l.name = none ∨ l.scheme ≠ none := by
  obtain ⟨L', h1, h2, h3⟩ := acts_good (src := src) as (Lib.init protos) (init_inv hp) hf
  rw [h] at h1; cases h1
  obtain ⟨q1, q2⟩ := h2.quiet h3.updating
  refine ⟨h2.schemes.unique, fun s hs => ⟨(h2.schemes.owners s hs).1, q1 _ (h2.schemes.owners s hs).2.1, fun nd hnd => ⟨h2.schemes.nodes s hs nd hnd, ?_⟩⟩⟩
  intro l hl
  have := q2 s hs nd hnd l hl
  unfold Link.pending at this
  cases hn : l.name with
  | none => exact .inl rfl
  | some n =>
    right
    intro e
    simp [hn, e] at this

/-- C61. Every group of an expression has a place in the node's tables of regions: the parser never reads behind them. -/
theorem C61_every_group_has_a_place (protos : List Name) (hp : ∀ t ∈ protos, 58 ∉ t) (hf : protos.length < fuel) (as : List Act) (L : Lib)
    (h : acts src fuel (Lib.init protos) as = some L) (s : Sch) (hs : s ∈ L.schemes) :
    (∀ n : ReNode, .regexp n ∈ s.nodes → n.start.cMatch ≤ n.regions.length ∧ n.start.cnMatch ≤ n.regionsn.length) ∧
    ∀ n : BlockNode, .block n ∈ s.nodes → n.start.cMatch ≤ n.regions.length ∧ n.start.cnMatch ≤ n.regionsn.length ∧
      n.stop.cMatch ≤ n.regione.length ∧ n.stop.cnMatch ≤ n.regionen.length := by
  obtain ⟨_, hall⟩ := C61_loaded_schemes_are_fine protos hp hf as L h
  obtain ⟨_, _, hn⟩ := hall s hs
  constructor
  · intro n hmem
    obtain ⟨_, ⟨t, ht⟩, _, a, b⟩ := (hn _ hmem).1
    obtain ⟨_, _, c, d, _⟩ := RegExp.C55_inside_the_tables _ _ _ ht
    exact ⟨by rw [a.1]; exact c, by rw [b.1]; exact d⟩
  · intro n hmem
    obtain ⟨_, ⟨t, u, ht, hu⟩, _, a, b, a', b'⟩ := (hn _ hmem).1
    obtain ⟨_, _, c, d, _⟩ := RegExp.C55_inside_the_tables _ _ _ ht
    obtain ⟨_, _, c', d', _⟩ := RegExp.C55_inside_the_tables _ _ _ hu
    exact ⟨by rw [a.1]; exact c, by rw [a'.1]; exact d, by rw [b.1]; exact c', by rw [b'.1]; exact d'⟩

theorem prefix_of_names {α β : Type} {f : α → β} {a b : List α} {new : List β} (h : b.map f = a.map f ++ new) (hn : (b.map f).Nodup) (hm : ∀ x ∈ a, x ∈ b) :
    ∃ more, b = a ++ more := by
  refine ⟨b.drop a.length, ?_⟩
  have hlen : a.length ≤ b.length := by
    have := congrArg List.length h
    simp at this; omega
  conv => lhs; rw [← List.take_append_drop a.length b]
  congr 1
  refine List.ext_getElem (by simp; omega) fun i h1 h2 => ?_
  rw [List.getElem_take]
  have hib : i < b.length := by omega
  obtain ⟨j, hj, e⟩ := List.mem_iff_getElem.1 (hm a[i] (List.getElem_mem h2))
  have e1 : (b.map f)[i]'(by simpa using hib) = (a.map f ++ new)[i]'(by simp; omega) := by simp only [h]
  rw [List.getElem_append_left (by simpa using h2), List.getElem_map, List.getElem_map] at e1
  have e2 : (b.map f)[j]'(by simpa using hj) = (b.map f)[i]'(by simpa using hib) := by
    rw [List.getElem_map, List.getElem_map, e, e1]
  have := (List.Nodup.getElem_inj_iff hn).1 e2
  subst this
  exact e

/-- C61. Loaded schemes are final: whatever is loaded or looked up afterwards, they stay as they are – nodes, regions, links – and keep their places; further
schemes come after them. -/
theorem C61_loaded_schemes_are_final (protos : List Name) (hp : ∀ t ∈ protos, 58 ∉ t) (hf : protos.length < fuel) (as bs : List Act) (L1 L2 : Lib)
    (h1 : acts src fuel (Lib.init protos) as = some L1) (h2 : acts src fuel (Lib.init protos) (as ++ bs) = some L2) :
    ∃ more, L2.schemes = L1.schemes ++ more := by
  obtain ⟨L1', e1, g1, x1⟩ := acts_good (src := src) as (Lib.init protos) (init_inv hp) hf
  rw [h1] at e1; cases e1
  rw [acts_append, h1] at h2
  obtain ⟨L2', e2, g2, x2⟩ := acts_good (src := src) bs L1 g1 (by rw [x1.protos]; exact hf)
  simp only [Option.bind_some] at h2
  rw [h2] at e2; cases e2
  obtain ⟨new, hn, _⟩ := x2.names
  refine prefix_of_names hn g2.schemes.unique fun s hs => ?_
  obtain ⟨s', m1, _, _, m2⟩ := x2.old s hs
  have hq := (g1.quiet x1.updating).2
  rw [(m2 (by simp)).1.settled (fun nd hnd => hq s hs nd hnd)] at m1
  exact m1

end Verif.Hrc
