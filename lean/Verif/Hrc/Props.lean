import Verif.Hrc.Load
import Verif.RegExp.Compiled
/-! Theorems about type loading, the region registry, name resolution and entities. -/
namespace Verif.Hrc

variable {src : World} {fuel : Nat}

/-! ## reachable states -/

theorem init_inv {protos : List Name} (hp : ∀ t ∈ protos, 58 ∉ t) : Inv src (Lib.init protos) := by
  refine ⟨⟨?_, ?_, ?_, ?_⟩, ⟨?_, ?_, ?_, hp⟩, ⟨?_, ?_, ?_⟩, ?_, ?_⟩ <;> simp [Lib.init, Resolved]

theorem measure_le (L : Lib) : measure L ≤ L.protos.length := by
  unfold measure; exact List.length_filter_le _ _

theorem getRegion_good (n : Name) (L : Lib) (hi : Inv src L) (hf : L.protos.length < fuel) :
    ∃ r L', getRegion src fuel n L = some (r, L') ∧ Inv src L' ∧ Ext src false none none 0 L L' ∧ (∀ i, r = some i → i < L'.regs.length) :=
  by
  obtain ⟨r, L', h1, h2, h3, h4⟩ := getNCRegion_good (load_good src fuel) n L hi (by have := measure_le L; omega)
  exact ⟨r, L', h1, h2, h3.ext.loose, h4⟩

theorem act_good (a : Act) (L : Lib) (hi : Inv src L) (hf : L.protos.length < fuel) :
    ∃ L', act src fuel L a = some L' ∧ Inv src L' ∧ Ext src false none none 0 L L' := by
  cases a with
  | load t =>
    simp only [act]
    split
    · rename_i ht
      obtain ⟨L', h1, h2, h3⟩ := load_good src fuel L t hi ht (by have := measure_le L; omega)
      exact ⟨L', h1, h2, h3.ext.loose⟩
    · exact ⟨L, rfl, hi, Ext.refl ..⟩
  | getRegion n =>
    obtain ⟨r, L', h1, h2, h3, _⟩ := getRegion_good (src := src) n L hi hf
    exact ⟨L', by simp [act, h1], h2, h3⟩

theorem acts_good (as : List Act) : ∀ L : Lib, Inv src L → L.protos.length < fuel →
    ∃ L', acts src fuel L as = some L' ∧ Inv src L' ∧ Ext src false none none 0 L L' := by
  induction as with
  | nil => intro L hi _; exact ⟨L, rfl, hi, Ext.refl ..⟩
  | cons a r ih =>
    intro L hi hf
    obtain ⟨L1, h1, h2, h3⟩ := act_good (src := src) a L hi hf
    obtain ⟨L', g1, g2, g3⟩ := ih L1 h2 (by rw [h3.protos]; exact hf)
    exact ⟨L', by simp [acts, h1, g1], g2, h3.trans g3 (by omega)⟩

theorem acts_append (as bs : List Act) (L : Lib) :
    acts src fuel L (as ++ bs) = (acts src fuel L as).bind fun L1 => acts src fuel L1 bs := by
  induction as generalizing L with
  | nil => simp [acts]
  | cons a r ih =>
    simp only [List.cons_append, acts]
    cases act src fuel L a with
    | none => rfl
    | some L1 => simpa using ih L1

/-! ## C44: loading terminates -/

/-- C44. Whatever the type sources contain – cyclic imports, types that refer to each other's regions, unreadable sources,
references to unknown types – any sequence of loads and region lookups comes to an end (nested loads never go deeper than
the number of types) and never looks up a type that does not exist; afterwards no source is left marked as being read and
no type as being parsed. -/
theorem C44_loading_terminates (protos : List Name) (hp : ∀ t ∈ protos, 58 ∉ t) (hf : protos.length < fuel)
    (as : List Act) :
    ∃ L, acts src fuel (Lib.init protos) as = some L ∧ L.busy = [] ∧ L.cur = none ∧ L.protos = protos := by
  obtain ⟨L, h1, _, h3⟩ := acts_good (src := src) as (Lib.init protos) (init_inv hp) hf
  exact ⟨L, h1, h3.busy, h3.cur, h3.protos⟩

/-! ## C14: the region registry -/

/-- C14. After any sequence of loads and lookups, whatever the sources contain: no two regions have the same name, and every
parent has a smaller number than its child (regions are numbered by their position). -/
theorem C14_registry (protos : List Name) (hp : ∀ t ∈ protos, 58 ∉ t) (hf : protos.length < fuel) (as : List Act) (L : Lib)
    (h : acts src fuel (Lib.init protos) as = some L) :
    (∀ (i j : Nat) (ri rj : RegionRec), L.regs[i]? = some ri → L.regs[j]? = some rj → ri.name = rj.name → i = j) ∧
    (∀ (i : Nat) (r : RegionRec) (p : Nat), L.regs[i]? = some r → r.parent = some p → p < i) := by
  obtain ⟨L', h1, h2, _⟩ := acts_good (src := src) as (Lib.init protos) (init_inv hp) hf
  rw [h] at h1
  cases h1
  exact ⟨h2.reg.unique, h2.reg.parents⟩

/-- C14. Numbers are final: what is registered under a number never changes. -/
theorem C14_numbers_stable (protos : List Name) (hp : ∀ t ∈ protos, 58 ∉ t) (hf : protos.length < fuel)
    (as bs : List Act) (L1 L2 : Lib) (h1 : acts src fuel (Lib.init protos) as = some L1)
    (h2 : acts src fuel (Lib.init protos) (as ++ bs) = some L2) (i : Nat) (r : RegionRec) (hr : L1.regs[i]? = some r) :
    L2.regs[i]? = some r := by
  obtain ⟨L1', e1, g1, x1⟩ := acts_good (src := src) as (Lib.init protos) (init_inv hp) hf
  rw [h1] at e1; cases e1
  rw [acts_append, h1] at h2
  obtain ⟨L2', e2, _, x2⟩ := acts_good (src := src) bs L1 g1 (by rw [x1.protos]; exact hf)
  simp only [Option.bind_some] at h2
  rw [h2] at e2; cases e2
  obtain ⟨new, hn, _⟩ := x2.regs
  rw [hn, List.getElem?_append, if_pos (List.getElem?_eq_some_iff.1 hr).1]
  exact hr

theorem findReg_unique {L : Lib} (hi : Inv src L) {i : Nat} {r : RegionRec} (h : L.regs[i]? = some r) :
    L.findReg r.name = some i := by
  cases hf : L.findReg r.name with
  | none => exact absurd rfl (findReg_none hf r (List.mem_of_getElem? h))
  | some j =>
    obtain ⟨r', h1, h2⟩ := findReg_lt hf
    rw [hi.reg.unique j i r' r h1 h h2]

theorem colon_owner {n : Name} {c : Nat} (h : colon n = some c) : n.take c = owner n := by
  obtain ⟨hlt, hat, hb⟩ := List.idxOf?_eq_some_iff.1 h
  unfold owner
  have hsplit : n = n.take c ++ n[c] :: n.drop (c + 1) := by
    rw [← List.drop_eq_getElem_cons hlt, List.take_append_drop]
  conv => rhs; rw [hsplit]
  rw [List.takeWhile_append_of_pos]
  · simp [hat]
  · intro a ha
    obtain ⟨k, hk, rfl⟩ := List.mem_iff_getElem.1 ha
    simp only [List.length_take] at hk
    have := hb k (by omega)
    simpa using this

theorem colon_none {n : Name} (h : colon n = none) : 58 ∉ n := by
  unfold colon at h
  simpa using List.idxOf?_eq_none_iff.1 h

theorem colon_some {n : Name} (h : 58 ∈ n) : ∃ c, colon n = some c := by
  cases hc : colon n with
  | none => exact absurd h (colon_none hc)
  | some c => exact ⟨c, rfl⟩

theorem qualifyForeign_started (loadF : Lib → Name → Option Lib) {L : Lib} (hi : Inv src L) {n : Name} (k : Kind) (hc : 58 ∈ n)
    (ho : owner n ∈ L.started) :
    qualifyForeign loadF n k L = some (if L.has k n then some n else none, L) := by
  obtain ⟨c, hc⟩ := colon_some hc
  have ht := colon_owner hc
  unfold qualifyForeign
  simp only [hc, ht]
  rw [if_neg (fun h => h (hi.flags.started _ ho)), if_pos ho]
  simp only [ho, or_true, if_true]

theorem getNCRegion_registered (loadF : Lib → Name → Option Lib) {L : Lib} (hi : Inv src L) {i : Nat} {r : RegionRec}
    (h : L.regs[i]? = some r) :
    getNCRegion loadF r.name L = some (if isDefault r.name then none else some i, L) := by
  have hm := List.mem_of_getElem? h
  have hc := hi.reg.colons r hm
  have hf := findReg_unique hi h
  unfold getNCRegion
  rw [if_neg (by intro e; rw [e] at hc; cases hc), qualifyForeign_started loadF hi .region hc (hi.reg.owners r hm)]
  simp [Lib.has, hf]

/-- C14. Lookup by name and lookup by number agree: the region with number `i` is what its name finds – except that a name
ending in `:default` finds nothing – and the lookup changes nothing. -/
theorem C14_lookup_registered (protos : List Name) (hp : ∀ t ∈ protos, 58 ∉ t) (hf : protos.length < fuel)
    (as : List Act) (L : Lib) (h : acts src fuel (Lib.init protos) as = some L) (i : Nat) (r : RegionRec)
    (hr : L.regs[i]? = some r) :
    getRegion src fuel r.name L = some (if isDefault r.name then none else some i, L) := by
  obtain ⟨L', h1, h2, _⟩ := acts_good (src := src) as (Lib.init protos) (init_inv hp) hf
  rw [h] at h1; cases h1
  exact getNCRegion_registered _ h2 hr

theorem qualifyForeign_colon {n q : Name} {k : Kind} {L L' : Lib} {loadF : Lib → Name → Option Lib} (hc : 58 ∈ n)
    (h : qualifyForeign loadF n k L = some (some q, L')) : q = n ∧ L'.has k n = true := by
  obtain ⟨c, hc⟩ := colon_some hc
  unfold qualifyForeign at h
  simp only [hc] at h
  split at h
  · simp at h
  · generalize (if n.take c ∈ L.started then some L else loadF L (n.take c)) = o at h
    cases o with
    | none => simp at h
    | some L1 =>
      simp only at h
      split at h
      · split at h
        · simp only [Option.some.injEq, Prod.mk.injEq] at h
          obtain ⟨rfl, rfl⟩ := h
          exact ⟨rfl, by assumption⟩
        · simp at h
      · simp at h

/-- C14. Whatever a lookup by name finds is the region registered under exactly that name. -/
theorem C14_lookup_sound (protos : List Name) (hp : ∀ t ∈ protos, 58 ∉ t) (hf : protos.length < fuel)
    (as : List Act) (L L' : Lib) (h : acts src fuel (Lib.init protos) as = some L) (n : Name) (i : Nat)
    (hg : getRegion src fuel n L = some (some i, L')) : ∃ r, L'.regs[i]? = some r ∧ r.name = n := by
  obtain ⟨L0, h1, h2, h3⟩ := acts_good (src := src) as (Lib.init protos) (init_inv hp) hf
  rw [h] at h1; cases h1
  unfold getRegion getNCRegion at hg
  split at hg
  · simp at hg
  · by_cases hc : 58 ∈ n
    · cases hq : qualifyForeign (load src fuel) n .region L with
      | none => simp [hq] at hg
      | some x =>
        obtain ⟨q, L1⟩ := x
        rw [hq] at hg
        cases q with
        | none => simp at hg
        | some q =>
          obtain ⟨rfl, _⟩ := qualifyForeign_colon hc hq
          simp only [Option.some.injEq, Prod.mk.injEq] at hg
          obtain ⟨hg, rfl⟩ := hg
          cases hfr : L1.findReg q with
          | none => simp [hfr] at hg
          | some j =>
            simp only [hfr, Option.bind_some] at hg
            split at hg
            · cases hg
            · cases hg
              exact findReg_lt hfr
    · have : colon n = none := by
        cases hcc : colon n with
        | none => rfl
        | some c => exact absurd (by
            obtain ⟨hlt, hat, _⟩ := List.idxOf?_eq_some_iff.1 hcc
            exact hat ▸ List.getElem_mem hlt) hc
      simp [qualifyForeign, this, h3.cur, Lib.init] at hg

/-- C26. A name found through the public lookup keeps its meaning for ever: after any further loads and lookups it finds
the same region. -/
theorem C26_lookup_stable (protos : List Name) (hp : ∀ t ∈ protos, 58 ∉ t) (hf : protos.length < fuel)
    (as bs : List Act) (L L1 L2 : Lib) (h : acts src fuel (Lib.init protos) as = some L) (n : Name) (i : Nat)
    (hg : getRegion src fuel n L = some (some i, L1)) (hb : acts src fuel L1 bs = some L2) :
    getRegion src fuel n L2 = some (some i, L2) := by
  obtain ⟨r, hr, hn⟩ := C14_lookup_sound protos hp hf as L L1 h n i hg
  have h1 : acts src fuel (Lib.init protos) (as ++ [.getRegion n]) = some L1 := by
    rw [acts_append, h]; simp [acts, act, hg]
  have h2 : acts src fuel (Lib.init protos) ((as ++ [.getRegion n]) ++ bs) = some L2 := by
    rw [acts_append, h1]; simpa using hb
  have hd : isDefault n = false := by
    have := C14_lookup_registered protos hp hf _ L1 h1 i r hr
    cases hd : isDefault n with
    | false => rfl
    | true =>
      exfalso
      unfold getRegion getNCRegion at hg
      split at hg
      · simp at hg
      · cases hq : qualifyForeign (load src fuel) n .region L with
        | none => simp [hq] at hg
        | some x =>
          obtain ⟨q, L1'⟩ := x
          rw [hq] at hg
          cases q with
          | none => simp at hg
          | some q =>
            have hq' : q = n := by
              by_cases hc : 58 ∈ n
              · exact (qualifyForeign_colon hc hq).1
              · obtain ⟨L', e1, e2, e3⟩ := acts_good (src := src) as (Lib.init protos) (init_inv hp) hf
                rw [h] at e1; cases e1
                have : colon n = none := by
                  cases hcc : colon n with
                  | none => rfl
                  | some c => exact absurd (by
                      obtain ⟨hlt, hat, _⟩ := List.idxOf?_eq_some_iff.1 hcc
                      exact hat ▸ List.getElem_mem hlt) hc
                simp [qualifyForeign, this, e3.cur, Lib.init] at hq
            subst hq'
            cases hfr : L1'.findReg q <;> simp [hfr, hd] at hg
  have hr2 := C14_numbers_stable protos hp hf _ bs L1 L2 h1 h2 i r hr
  have := C14_lookup_registered protos hp hf _ L2 h2 i r hr2
  rw [hn, hd] at this
  simpa using this

/-! ### hasParent -/

theorem hasParent_iff {regs : List RegionRec} (hpar : ∀ (i : Nat) (r : RegionRec) (p : Nat), regs[i]? = some r → r.parent = some p → p < i)
    (fuel : Nat) : ∀ e x, e < fuel → ∃ b, hasParent regs fuel (some e) x = some b ∧ (b = true ↔ Ancestor regs x e) := by
  induction fuel with
  | zero => intro e x h; omega
  | succ fuel ih =>
    intro e x h
    simp only [hasParent]
    by_cases hx : x = e
    · subst hx
      exact ⟨true, by simp, by simp [Ancestor.self]⟩
    · rw [if_neg hx]
      cases hr : regs[e]? with
      | none =>
        refine ⟨false, by simp [hasParent], ?_⟩
        simp only [Bool.false_eq_true, false_iff]
        intro ha
        cases ha with
        | self => exact hx rfl
        | up h1 _ _ => rw [hr] at h1; cases h1
      | some r =>
        simp only [Option.bind_some]
        cases hp : r.parent with
        | none =>
          refine ⟨false, by simp [hasParent], ?_⟩
          simp only [Bool.false_eq_true, false_iff]
          intro ha
          cases ha with
          | self => exact hx rfl
          | up h1 h2 _ => rw [hr] at h1; cases h1; rw [hp] at h2; cases h2
        | some p =>
          have hlt := hpar e r p hr hp
          obtain ⟨b, h1, h2⟩ := ih p x (by omega)
          refine ⟨b, h1, h2.trans ⟨fun ha => .up hr hp ha, fun ha => ?_⟩⟩
          cases ha with
          | self => exact absurd rfl hx
          | up g1 g2 g3 => rw [hr] at g1; cases g1; rw [hp] at g2; cases g2; exact g3

/-- C14. `hasParent` always returns, after at most `e + 1` steps for the region number `e`, and says whether `x` is the
region itself or one of its ancestors. -/
theorem C14_hasParent (protos : List Name) (hp : ∀ t ∈ protos, 58 ∉ t) (hf : protos.length < fuel) (as : List Act) (L : Lib)
    (h : acts src fuel (Lib.init protos) as = some L) (e x : Nat) :
    ∃ b, hasParent L.regs (e + 1) (some e) x = some b ∧ (b = true ↔ Ancestor L.regs x e) :=
  hasParent_iff (C14_registry protos hp hf as L h).2 (e + 1) e x (by omega)

/-! ## C26: name resolution -/

/-- C26. In a settled library (all types a name may come from have been started), resolution is exactly: qualified names
stand for themselves, unqualified ones for the first of the current type and its imports, in import order, that has the
name; and resolving changes nothing. -/
theorem C26_resolution (loadF : Lib → Name → Option Lib) (L : Lib) (hfl : Flags L) (t : Name) (ht : L.cur = some t)
    (n : Name) (k : Kind) (himp : ∀ i ∈ L.imports t, i ∈ L.started) (hq : 58 ∈ n → owner n ∈ L.protos → owner n ∈ L.started) :
    qualifyForeign loadF n k L = some (meaning L k t n, L) := by
  unfold meaning
  by_cases hc : 58 ∈ n
  · rw [if_pos hc]
    by_cases hp : owner n ∈ L.protos
    · have ho := hq hc hp
      obtain ⟨c, hc⟩ := colon_some hc
      have htk := colon_owner hc
      unfold qualifyForeign
      simp only [hc, htk, hp, not_true, if_false, ho, if_true, or_true, true_and]
    · obtain ⟨c, hc⟩ := colon_some hc
      have htk := colon_owner hc
      unfold qualifyForeign
      simp [hc, htk, hp]
  · rw [if_neg hc]
    have hcn : colon n = none := by
      cases hcc : colon n with
      | none => rfl
      | some c => exact absurd (by
          obtain ⟨hlt, hat, _⟩ := List.idxOf?_eq_some_iff.1 hcc
          exact hat ▸ List.getElem_mem hlt) hc
    unfold qualifyForeign
    simp only [hcn, ht]
    have hall : ∀ i ∈ t :: L.imports t, i ∈ L.started := by
      intro i hi
      rcases List.mem_cons.1 hi with rfl | hi
      · exact hfl.cur _ ht
      · exact himp i hi
    generalize t :: L.imports t = ts at hall
    induction ts with
    | nil => rfl
    | cons a r ih =>
      have ha := hall a (by simp)
      simp only [tryTypes, hfl.started a ha, not_true, if_false, ha, if_true, List.map_cons, List.find?_cons]
      cases hh : L.has k (a ++ 58 :: n) with
      | true => simp
      | false => simpa using ih (fun i hi => hall i (by simp [hi]))

/-- C26. In the middle of loading, too: whatever a name is resolved to exists, is the name itself if it was qualified, and
otherwise is the name in the current type or one of its imports. -/
theorem C26_resolution_sound (L L' : Lib) (hi : Inv src L) (hf : L.protos.length < fuel) (n q : Name) (k : Kind)
    (h : qualifyForeign (load src fuel) n k L = some (some q, L')) :
    L'.has k q = true ∧ (58 ∈ n → q = n) ∧
    (58 ∉ n → ∃ t, L.cur = some t ∧ ∃ u ∈ t :: L.imports t, q = u ++ 58 :: n) := by
  obtain ⟨r, L1, h1, -, -, h4⟩ := qualifyForeign_good (load_good src fuel) n k L hi (by have := measure_le L; omega)
  rw [h] at h1
  simp only [Option.some.injEq, Prod.mk.injEq] at h1
  obtain ⟨rfl, rfl⟩ := h1
  refine ⟨h4 q rfl, fun hc => (qualifyForeign_colon hc h).1, fun hc => ?_⟩
  have hcn : colon n = none := by
    cases hcc : colon n with
    | none => rfl
    | some c => exact absurd (by
        obtain ⟨hlt, hat, _⟩ := List.idxOf?_eq_some_iff.1 hcc
        exact hat ▸ List.getElem_mem hlt) hc
  unfold qualifyForeign at h
  simp only [hcn] at h
  cases ht : L.cur with
  | none => rw [ht] at h; simp at h
  | some t =>
    rw [ht] at h
    refine ⟨t, rfl, ?_⟩
    clear h4
    simp only at h
    generalize t :: L.imports t = ts at h
    clear ht hi hf
    induction ts generalizing L with
    | nil => simp [tryTypes] at h
    | cons a r ih =>
      simp only [tryTypes] at h
      split at h
      · cases h
      · generalize (if a ∈ L.started then some L else load src fuel L a) = o at h
        cases o with
        | none => simp at h
        | some L1 =>
          simp only at h
          split at h
          · simp only [Option.some.injEq, Prod.mk.injEq] at h
            exact ⟨a, by simp, h.1.symm⟩
          · obtain ⟨u, hu, hq⟩ := ih L1 h
            exact ⟨u, by simp [hu], hq⟩

/-! ## C25: entities -/

theorem expand_skip (ent : Name → Option Name) : ∀ (b : Name) (prev : Option Nat) (r : Name), 37 ∉ b →
    expand ent prev (b ++ r) = b ++ expand ent (if b = [] then prev else b.getLast?) r := by
  intro b
  induction b with
  | nil => intro prev r _; simp
  | cons c t ih =>
    intro prev r h
    have hc : c ≠ 37 := by intro e; apply h; simp [e]
    have ht : 37 ∉ t := fun hh => h (by simp [hh])
    rw [List.cons_append, expand, if_neg (by simp [hc]), ih (some c) r ht]
    simp only [List.cons_append, reduceCtorEq, if_false, List.cons.injEq, true_and]
    cases t with
    | nil => simp
    | cons x y => simp

theorem expand_plain (ent : Name → Option Name) (b : Name) (prev : Option Nat) (h : 37 ∉ b) : expand ent prev b = b := by
  have := expand_skip ent b prev [] h
  rw [List.append_nil] at this
  rw [this]
  simp [expand]

theorem expand_noend (ent : Name → Option Name) : ∀ (b : Name) (prev : Option Nat), 59 ∉ b → expand ent prev b = b := by
  intro b
  induction b with
  | nil => intro prev _; simp [expand]
  | cons c t ih =>
    intro prev h
    have ht : 59 ∉ t := fun hh => h (by simp [hh])
    have hn : t.idxOf? 59 = none := List.idxOf?_eq_none_iff.2 ht
    rw [expand]
    split
    · simp [hn, ih _ ht]
    · rw [ih _ ht]

theorem expandFrom_spec (ent : Name → Option Name) (fuel : Nat) : ∀ (prev : Option Nat) (out pend rest : Name),
    rest.length < fuel →
    expandFrom (σ := Unit) (fun n s => some (ent n, s)) fuel prev out pend rest () =
      some (out ++ pend ++ expand ent prev rest, ()) := by
  induction fuel with
  | zero => intro _ _ _ _ h; omega
  | succ fuel ih =>
    intro prev out pend rest hl
    simp only [expandFrom]
    cases hk : rest.idxOf? 37 with
    | none => simp only [expand_plain ent rest prev (List.idxOf?_eq_none_iff.1 hk)]
    | some k =>
      obtain ⟨hlt, hat, hb⟩ := List.idxOf?_eq_some_iff.1 hk
      have hat : rest[k] = 37 := by simpa using hat
      have hnot : 37 ∉ rest.take k := by
        intro hm
        obtain ⟨j, hj, he⟩ := List.mem_iff_getElem.1 hm
        simp only [List.length_take] at hj
        rw [List.getElem_take] at he
        exact hb j (by omega) (by simpa using he)
      have hsplit : rest = rest.take k ++ 37 :: rest.drop (k + 1) := by
        rw [← hat, ← List.drop_eq_getElem_cons hlt, List.take_append_drop]
      have hsp : expand ent prev rest = rest.take k ++ expand ent (if k = 0 then prev else (rest.take k).getLast?) (37 :: rest.drop (k + 1)) := by
        conv => lhs; rw [hsplit]
        rw [expand_skip ent _ _ _ hnot]
        congr 2
        by_cases h0 : k = 0
        · simp [h0]
        · have : rest.take k ≠ [] := by
            intro e
            have := congrArg List.length e
            simp only [List.length_take, List.length_nil] at this
            omega
          simp [h0, this]
      have hdrop : (rest.drop (k + 1)).length < fuel := by rw [List.length_drop]; omega
      rw [hsp]
      simp only
      generalize (if k = 0 then prev else (rest.take k).getLast?) = prev'
      generalize hb' : rest.take k = b at *
      generalize htl : rest.drop (k + 1) = tl at *
      by_cases hesc : prev' = some 92
      · rw [if_pos hesc, ih _ _ _ _ hdrop]
        conv => rhs; rw [expand, if_neg (by simp [hesc])]
        simp [List.append_assoc]
      · rw [if_neg hesc]
        have he2 : (37 :: tl).idxOf? 59 = (tl.idxOf? 59).map (· + 1) := by
          rw [List.idxOf?_cons]; simp
        rw [he2]
        conv => rhs; rw [expand, if_pos ⟨rfl, hesc⟩]
        cases h59 : tl.idxOf? 59 with
        | none =>
          simp only [Option.map_none]
          rw [expand_noend ent tl _ (List.idxOf?_eq_none_iff.1 h59)]
          rw [hsplit]
        | some e =>
          have hlt2 := idxOf?_lt h59
          simp only [Option.map_some, Nat.add_sub_cancel]
          cases hv : ent (tl.take e) with
          | none =>
            simp only []
            rw [ih _ _ _ _ hdrop]
            simp [List.append_assoc]
          | some v =>
            simp only []
            rw [ih _ _ _ _ (by rw [List.length_drop]; omega)]
            simp [List.append_assoc]

/-- C25. Whatever entities are known, expanding a text gives exactly the text in which every unescaped `%name;` with a known
name is replaced by its value, once and left to right; it always terminates. -/
theorem C25_entity_expansion (ent : Name → Option Name) (text : Name) :
    useEntities (σ := Unit) (fun n s => some (ent n, s)) text () = some (expand ent none text, ()) := by
  unfold useEntities
  rw [expandFrom_spec ent _ _ _ _ _ (by omega)]
  simp

/-- C25. A text without '%' – or without ';', or in which no entity is known – is unchanged. -/
theorem C25_unchanged (ent : Name → Option Name) (text : Name) (h : 37 ∉ text ∨ 59 ∉ text ∨ ∀ n, ent n = none) :
    useEntities (σ := Unit) (fun n s => some (ent n, s)) text () = some (text, ()) := by
  rw [C25_entity_expansion]
  rcases h with h | h | h
  · rw [expand_plain ent text none h]
  · rw [expand_noend ent text none h]
  · have : ∀ (t : Name) (p : Option Nat), expand ent p t = t := by
      intro t
      induction t with
      | nil => intro p; simp [expand]
      | cons c r ih =>
        intro p
        rw [expand]
        split
        · cases r.idxOf? 59 <;> simp [h, ih]
        · rw [ih]
    rw [this]

theorem expandFrom_state {σ : Type} (resolve : Name → σ → Option (Option Name × σ)) (s : σ) (ent : Name → Option Name)
    (hres : ∀ n, resolve n s = some (ent n, s)) (fuel : Nat) : ∀ (prev : Option Nat) (out pend rest : Name),
    expandFrom resolve fuel prev out pend rest s =
      (expandFrom (σ := Unit) (fun n u => some (ent n, u)) fuel prev out pend rest ()).map fun x => (x.1, s) := by
  induction fuel with
  | zero => intros; rfl
  | succ fuel ih =>
    intro prev out pend rest
    simp only [expandFrom]
    cases rest.idxOf? 37 with
    | none => rfl
    | some k =>
      simp only
      generalize (if k = 0 then prev else (rest.take k).getLast?) = prev'
      split
      · exact ih _ _ _ _
      · cases (37 :: rest.drop (k + 1)).idxOf? 59 with
        | none => rfl
        | some e =>
          simp only [hres]
          cases ent ((rest.drop (k + 1)).take (e - 1)) with
          | none => exact ih _ _ _ _
          | some v => exact ih _ _ _ _

/-- C25. In the library, inside a type whose imports and referenced types have been started: every entity reference is
replaced by the value of the entity its name stands for (C26), and nothing else changes. -/
theorem C25_entities_in_type (loadF : Lib → Name → Option Lib) (L : Lib) (hfl : Flags L) (t : Name) (ht : L.cur = some t)
    (hst : ∀ i ∈ L.protos, i ∈ L.started) (text : Name) :
    useEntities (resolveEnt loadF) text L =
      some (expand (fun n => (meaning L .entity t n).bind L.findEnt) none text, L) := by
  unfold useEntities
  have hres : ∀ n, resolveEnt loadF n L = some ((meaning L .entity t n).bind L.findEnt, L) := by
    intro n
    unfold resolveEnt
    rw [C26_resolution loadF L hfl t ht n .entity (fun i hi => hst i (hfl.imports t i hi)) (fun _ h => hst _ h)]
    cases meaning L .entity t n <;> simp
  rw [expandFrom_state _ L _ hres, expandFrom_spec _ _ _ _ _ _ (by omega)]
  simp

/-! ## Concrete cases -/

/-- types "t" and "u" import each other and refer to each other's regions; "v" has no readable source -/
def demoTypes : Name → Option (List TypeDecl)
  | [116] => some [⟨[116], [.import_ [117], .region [120] (some [97]), .region [97] none, .region [121] (some [97]),
      .entity [101] [49], .scheme (.mk (lit "scheme") [(lit "name", [115])] [] [.mk (lit "regexp") [(lit "match", lit "/%e;/"), (lit "region", [97])] [] []])]⟩]
  | [117] => some [⟨[117], [.import_ [116], .region [97] (some [116, 58, 120]), .region [98] (some [97])]⟩]
  | _ => none

/-- a world with these sources; schemes are gone through in the order of their names, keywords stay as they are -/
def world (types : Name → Option (List TypeDecl)) : World :=
  ⟨types, RegExp.Demo.cx, fun _ _ => none, fun l => l.reverse, fun _ l => l, fun l => l.reverse_perm, fun _ l => .refl l⟩

def demoSrc : World := world demoTypes

/-- the premises of C14, C26 and C44 are met by a library with cyclic imports; four regions, nested parents -/
example : (∀ t ∈ [[116], [117], [118]], 58 ∉ t) ∧ (([[116], [117], [118]] : List Name).length < 4) ∧
    ((acts demoSrc 4 (Lib.init [[116], [117], [118]]) [.getRegion [116, 58, 97], .load [118], .getRegion [97]]).map (·.regs)) =
      some [⟨[117, 58, 97], none⟩, ⟨[117, 58, 98], some 0⟩, ⟨[116, 58, 120], some 0⟩, ⟨[116, 58, 97], none⟩,
        ⟨[116, 58, 121], some 3⟩] := by
  refine ⟨by decide, by decide, by decide +kernel⟩

/-- C26, the full claim is false: inside one type the same unqualified name can stand for two different objects – first for
the imported region, later for the type's own, because the own one is declared in between: the regions 2 (`t:x`) and 4
(`t:y`) were both declared with parent `a`. -/
theorem C26_violated_same_name_two_objects :
    ∃ L, acts demoSrc 4 (Lib.init [[116], [117], [118]]) [.load [116]] = some L ∧
      (L.regs[2]?).map (·.parent) = some (some 0) ∧ (L.regs[4]?).map (·.parent) = some (some 3) ∧
      (L.regs[0]?).map (·.name) = some [117, 58, 97] ∧ (L.regs[3]?).map (·.name) = some [116, 58, 97] := by
  have h : ∃ L, acts demoSrc 4 (Lib.init [[116], [117], [118]]) [.load [116]] = some L ∧ L.regs =
      [⟨[117, 58, 97], none⟩, ⟨[117, 58, 98], some 0⟩, ⟨[116, 58, 120], some 0⟩, ⟨[116, 58, 97], none⟩,
        ⟨[116, 58, 121], some 3⟩] := by
    obtain ⟨L, h1, _⟩ := C44_loading_terminates (src := demoSrc) (fuel := 4) [[116], [117], [118]] (by decide) (by decide)
      [.load [116]]
    refine ⟨L, h1, ?_⟩
    have h2 : (acts demoSrc 4 (Lib.init [[116], [117], [118]]) [.load [116]]).map (·.regs) = some
      [⟨[117, 58, 97], none⟩, ⟨[117, 58, 98], some 0⟩, ⟨[116, 58, 120], some 0⟩, ⟨[116, 58, 97], none⟩,
        ⟨[116, 58, 121], some 3⟩] := by decide +kernel
    rw [h1] at h2
    simpa using h2
  obtain ⟨L, h1, h2⟩ := h
  exact ⟨L, h1, by rw [h2]; decide, by rw [h2]; decide, by rw [h2]; decide, by rw [h2]; decide⟩

/-- The premise "no colon in a type name" of C14 is needed: with types `a` and `a:b` the name `a:b:x` can be registered
twice, because registering it in `a` first loads `a:b`. -/
def colonTypes : Name → Option (List TypeDecl)
  | [97] => some [⟨[97], [.region [97, 58, 98, 58, 120] (some [98, 58, 121])]⟩]
  | [98] => some [⟨[97, 58, 98], [.region [120] none]⟩, ⟨[98], [.region [121] none]⟩]
  | _ => none

def colonSrc : World := world colonTypes

theorem C14_violated_colon_in_type_name :
    (acts colonSrc 4 (Lib.init [[97], [97, 58, 98], [98]]) [.load [97]]).map (·.regs) =
      some [⟨[97, 58, 98, 58, 120], none⟩, ⟨[98, 58, 121], none⟩, ⟨[97, 58, 98, 58, 120], some 1⟩] := by
  decide +kernel

/-- C25: "x%e;\\%e;%q;%e" with e = "12" -/
example : expand (fun n => if n = [101] then some [49, 50] else none) none [120, 37, 101, 59, 92, 37, 101, 59, 37, 113, 59, 37, 101] =
    [120, 49, 50, 92, 37, 101, 59, 37, 113, 59, 37, 101] := by
  rw [← Option.some_inj, ← Option.some_inj]
  have := C25_entity_expansion (fun n => if n = [101] then some [49, 50] else none) [120, 37, 101, 59, 92, 37, 101, 59, 37, 113, 59, 37, 101]
  have h2 : useEntities (σ := Unit) (fun n s => some ((if n = [101] then some [49, 50] else none), s))
    [120, 37, 101, 59, 92, 37, 101, 59, 37, 113, 59, 37, 101] () = some ([120, 49, 50, 92, 37, 101, 59, 37, 113, 59, 37, 101], ()) := by
    decide +kernel
  rw [h2] at this
  simp only [Option.some.injEq, Prod.mk.injEq, and_true] at this
  rw [← this]

/-- C26: the premises of `C26_resolution` are met: type `t` importing `u`, both started -/
example : let L : Lib := ⟨[[116], [117]], [[116], [117]], [], [], fun x => if x = [116] then [[117]] else [],
      [⟨[117, 58, 97], none⟩], [], [], some [116], [], false, false⟩
    (∀ i ∈ L.imports [116], i ∈ L.started) ∧ meaning L .region [116] [97] = some [117, 58, 97] ∧
    meaning L .region [116] [98] = none := by
  decide +kernel

end Verif.Hrc
