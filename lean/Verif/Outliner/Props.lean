import Verif.Outliner.Spec
/-! # C12, C13: the outline -/
namespace Verif.Outliner

/-! ## C12: tree levels -/

/-- levels of the ancestor chain, starting with the item itself -/
def chain (lvl : Int) (prev : List Int) : List Int :=
  match h : parentTail lvl prev with
  | [] => [lvl]
  | p :: r => lvl :: chain p r
termination_by prev.length
decreasing_by
  have := parentTail_length lvl prev
  rw [h] at this
  simp at this
  omega

theorem chain_nil {lvl : Int} {prev : List Int} (h : parentTail lvl prev = []) : chain lvl prev = [lvl] := by
  rw [chain]; split
  · rfl
  · simp_all
theorem chain_cons {lvl : Int} {prev : List Int} {p : Int} {r : List Int} (h : parentTail lvl prev = p :: r) :
    chain lvl prev = lvl :: chain p r := by
  rw [chain]; split
  · simp_all
  · rename_i q s hq
    rw [h] at hq
    cases hq; rfl
theorem depth_nil {lvl : Int} {prev : List Int} (h : parentTail lvl prev = []) : depth lvl prev = 0 := by
  rw [depth]; split
  · rfl
  · simp_all
theorem depth_cons {lvl : Int} {prev : List Int} {p : Int} {r : List Int} (h : parentTail lvl prev = p :: r) :
    depth lvl prev = depth p r + 1 := by
  rw [depth]; split
  · simp_all
  · rename_i q s hq
    rw [h] at hq
    cases hq; rfl

theorem chain_length (n : Nat) : ∀ (lvl : Int) (prev : List Int), prev.length ≤ n → (chain lvl prev).length = depth lvl prev + 1 := by
  induction n with
  | zero =>
    intro lvl prev h
    have : prev = [] := List.eq_nil_of_length_eq_zero (by omega)
    subst this
    rw [chain_nil rfl, depth_nil rfl]; rfl
  | succ n ih =>
    intro lvl prev h
    cases hp : parentTail lvl prev with
    | nil => rw [chain_nil hp, depth_nil hp]; rfl
    | cons p r =>
      have := parentTail_length lvl prev
      rw [hp] at this
      simp at this
      rw [chain_cons hp, depth_cons hp, List.length_cons, ih p r (by omega)]

/-- going past items that are not smaller than `b` also goes past them for any smaller bound -/
theorem parentTail_trans {a b : Int} (h : a ≤ b) (l : List Int) : parentTail a (parentTail b l) = parentTail a l := by
  induction l with
  | nil => rfl
  | cons x r ih =>
    by_cases hx : x < b
    · simp [parentTail, hx]
    · have : ¬ x < a := by omega
      simp [parentTail, hx, this, ih]

theorem parentTail_head {lvl : Int} {prev : List Int} {p : Int} {r : List Int} (h : parentTail lvl prev = p :: r) : p < lvl := by
  induction prev with
  | nil => simp [parentTail] at h
  | cons x t ih =>
    simp only [parentTail] at h
    split at h
    · cases h; assumption
    · exact ih h

/-- the stack kept by the caller is the ancestor chain of the last item -/
theorem manageTree_chain (n : Nat) : ∀ (p : Int) (r : List Int) (new : Int), r.length ≤ n →
    (manageTree (chain p r) new).2 = chain new (p :: r) ∧ (manageTree (chain p r) new).1 = depth new (p :: r) := by
  induction n with
  | zero =>
    intro p r new h
    have : r = [] := List.eq_nil_of_length_eq_zero (by omega)
    subst this
    rw [chain_nil rfl]
    simp only [manageTree, popWhile]
    by_cases h1 : new < p
    · rw [if_pos h1]
      have hp : parentTail new [p] = [] := by simp [parentTail]; omega
      exact ⟨by rw [chain_nil hp], by rw [depth_nil hp]⟩
    · rw [if_neg h1]
      simp only
      by_cases h2 : new > p
      · rw [if_pos h2]
        have hp : parentTail new [p] = [p] := by simp [parentTail]; omega
        exact ⟨by rw [chain_cons hp, chain_nil rfl], by rw [depth_cons hp, depth_nil rfl]; rfl⟩
      · have h3 : new = p := by omega
        rw [if_neg h2, if_pos h3]
        have hp : parentTail new [p] = [] := by simp [parentTail]; omega
        exact ⟨by rw [chain_nil hp, h3], by rw [depth_nil hp]; rfl⟩
  | succ n ih =>
    intro p r new h
    by_cases h1 : new < p
    · -- the back element is popped
      have hpt : parentTail new (p :: r) = parentTail new (parentTail p r) := by
        rw [parentTail_trans (by omega)]
        simp [parentTail]; omega
      cases hq : parentTail p r with
      | nil =>
        rw [hq] at hpt
        have hp : parentTail new (p :: r) = [] := hpt
        rw [chain_nil hq]
        simp only [manageTree, popWhile]
        rw [if_pos h1]
        exact ⟨by rw [chain_nil hp], by rw [depth_nil hp]⟩
      | cons q s =>
        rw [hq] at hpt
        have hl := parentTail_length p r
        rw [hq] at hl
        simp at hl
        have hmt : manageTree (chain p r) new = manageTree (chain q s) new := by
          rw [chain_cons hq]
          simp only [manageTree, popWhile]
          rw [if_pos h1]
        rw [hmt]
        obtain ⟨h2, h3⟩ := ih q s new (by omega)
        rw [h2, h3]
        constructor
        · cases hn : parentTail new (q :: s) with
          | nil => rw [chain_nil hn, chain_nil (hpt.trans hn)]
          | cons a b => rw [chain_cons hn, chain_cons (hpt.trans hn)]
        · cases hn : parentTail new (q :: s) with
          | nil => rw [depth_nil hn, depth_nil (hpt.trans hn)]
          | cons a b => rw [depth_cons hn, depth_cons (hpt.trans hn)]
    · obtain ⟨t, ht⟩ : ∃ t, chain p r = p :: t := by
        cases hq : parentTail p r with
        | nil => exact ⟨_, chain_nil hq⟩
        | cons q s => exact ⟨_, chain_cons hq⟩
      have hlen := chain_length r.length p r (Nat.le_refl _)
      have hpop : popWhile new (chain p r) = chain p r := by
        rw [ht]; simp only [popWhile]; rw [if_neg h1]
      by_cases h2 : new > p
      · have hmt : manageTree (chain p r) new = ((chain p r).length, new :: chain p r) := by
          unfold manageTree
          rw [hpop, ht]
          simp only
          rw [if_pos h2]
        have hp : parentTail new (p :: r) = p :: r := by simp [parentTail]; omega
        rw [hmt]
        exact ⟨by rw [chain_cons hp], by rw [depth_cons hp, hlen]⟩
      · have h3 : new = p := by omega
        have hmt : manageTree (chain p r) new = ((chain p r).length - 1, chain p r) := by
          unfold manageTree
          rw [hpop, ht]
          simp only
          rw [if_neg h2, if_pos h3]
        rw [hmt, hlen]
        have hp : parentTail new (p :: r) = parentTail p r := by simp [parentTail, h3]
        subst h3
        constructor
        · cases hq : parentTail new r with
          | nil => rw [chain_nil hq, chain_nil (hp.trans hq)]
          | cons a b => rw [chain_cons hq, chain_cons (hp.trans hq)]
        · cases hq : parentTail new r with
          | nil => rw [depth_nil hq, depth_nil (hp.trans hq)]
          | cons a b => rw [depth_cons hq, depth_cons (hp.trans hq)]; rfl

theorem manageAll_chain (l : List Int) : ∀ (p : Int) (r : List Int), manageAll (chain p r) l = depths (p :: r) l := by
  induction l with
  | nil => intro p r; rfl
  | cons x t ih =>
    intro p r
    obtain ⟨h1, h2⟩ := manageTree_chain r.length p r x (Nat.le_refl _)
    simp only [manageAll, depths]
    rw [h1, h2, ih]

/-- **C12.** For every sequence of outline item levels, the indices produced by `manageTree` are the tree depths, where the
parent of an item is the last earlier item with a strictly smaller level. -/
theorem C12_levels_are_tree_depths (levels : List Int) : manageAll [] levels = depths [] levels := by
  cases levels with
  | nil => rfl
  | cons x t =>
    have h1 : manageTree [] x = (0, [x]) := rfl
    simp only [manageAll, depths, h1]
    have h2 : manageAll [x] t = depths [x] t := by
      have := manageAll_chain t x []
      rwa [chain_nil rfl] at this
    rw [depth_nil rfl, h2]

/-- **C12.** … and a displayed level exceeds the one shown before it by at most one, so the tree can be drawn. -/
theorem C12_level_grows_by_at_most_one (prev : List Int) (a b : Int) : depth b (a :: prev) ≤ depth a prev + 1 := by
  by_cases h : a < b
  · have : parentTail b (a :: prev) = a :: prev := by simp [parentTail, h]
    rw [depth_cons this]; omega
  · have hpt : parentTail b (a :: prev) = parentTail b (parentTail a prev) := by
      rw [parentTail_trans (by omega)]; simp [parentTail, h]
    -- the ancestors of `b` are among those of `a`
    have key : ∀ n : Nat, ∀ (x : Int) (l : List Int), l.length ≤ n → b ≤ x →
        ∀ c, depth b (c :: l) ≤ depth x l + 1 ∨ c < b := by
      intro n
      induction n with
      | zero =>
        intro x l hl hx c
        by_cases hc : c < b
        · right; exact hc
        · left
          have : l = [] := List.eq_nil_of_length_eq_zero (by omega)
          subst this
          rw [depth_nil (by simp [parentTail, hc])]
          omega
      | succ n ih =>
        intro x l hl hx c
        by_cases hc : c < b
        · right; exact hc
        · left
          have hp : parentTail b (c :: l) = parentTail b (parentTail x l) := by
            rw [parentTail_trans hx]; simp [parentTail, hc]
          cases hq : parentTail x l with
          | nil =>
            rw [hq] at hp
            rw [depth_nil hp]; omega
          | cons q s =>
            rw [hq] at hp
            have hl2 := parentTail_length x l
            rw [hq] at hl2
            simp at hl2
            rw [depth_cons hq]
            by_cases hqb : q < b
            · have h3 : parentTail b (c :: l) = q :: s := by rw [hp]; simp [parentTail, hqb]
              rw [depth_cons h3]
              omega
            · rcases ih q s (by omega) (by omega) q with h4 | h4
              · have h5 : depth b (c :: l) = depth b (q :: s) := by
                  cases hr : parentTail b (q :: s) with
                  | nil => rw [depth_nil (hp.trans hr), depth_nil hr]
                  | cons u v => rw [depth_cons (hp.trans hr), depth_cons hr]
                rw [h5]
                omega
              · exact absurd h4 hqb
    rcases key prev.length a prev (Nat.le_refl _) (by omega) a with h2 | h2
    · exact h2
    · exact absurd h2 h

/-! ## C13: contents -/

theorem run_append (outlined : Nat → Bool) (st : St) (a b : List Ev) :
    run outlined st (a ++ b) = (run outlined st a).bind fun st => run outlined st b := by
  induction a generalizing st with
  | nil => rfl
  | cons e r ih =>
    simp only [List.cons_append, run]
    cases step outlined st e with
    | none => rfl
    | some s => exact ih s

/-- lines above the covered bound leave the outline alone -/
theorem run_skip (outlined : Nat → Bool) (l : Line) (evs : List LEv) : ∀ st : St, l.lno < st.modifiedLine →
    run outlined st (evs.map (LEv.toEv l)) = some { st with curLevel := lvl st.curLevel evs } := by
  induction evs with
  | nil => intro st _; rfl
  | cons e r ih =>
    intro st h
    cases e with
    | region sx ex rg =>
      simp only [List.map_cons, LEv.toEv, run, step, h, if_true, Option.bind_some, lvl]
      exact ih st h
    | enter =>
      simp only [List.map_cons, LEv.toEv, run, step, Option.bind_some, lvl]
      exact ih { st with curLevel := st.curLevel + 1 } h
    | leave =>
      simp only [List.map_cons, LEv.toEv, run, step, Option.bind_some, lvl]
      exact ih { st with curLevel := st.curLevel - 1 } h

/-- the line already has its item: texts are appended to it -/
theorem run_more (outlined : Nat → Bool) (l : Line) (evs : List LEv) : ∀ (st : St) (o : List Item) (i : Item),
    st.modifiedLine ≤ l.lno → st.lineIsEmpty = false → st.outline = o ++ [i] → i.lno = l.lno →
    run outlined st (evs.map (LEv.toEv l)) = some ⟨o ++ [{ i with token := i.token ++
        ((hits outlined st.curLevel evs).flatMap (fun h => label l.text h.1 h.2.1)) }], false, lvl st.curLevel evs,
        st.modifiedLine⟩ := by
  induction evs with
  | nil =>
    intro st o i _ h2 h3 _
    cases st
    simp only at h2 h3
    subst h2 h3
    simp [run, hits, lvl]
  | cons e r ih =>
    intro st o i h1 h2 h3 h4
    cases e with
    | region sx ex rg =>
      simp only [List.map_cons, LEv.toEv, run, step]
      rw [if_neg (by omega)]
      by_cases ho : outlined rg = true
      · simp only [ho, Bool.not_true, Bool.false_eq_true, if_false, h2, h3, List.getLast?_append, List.getLast?_singleton,
          Option.some_or, h4, if_true, Option.bind_some, lvl, hits, List.dropLast_concat]
        rw [ih _ o { i with token := i.token ++ label l.text sx ex } (by exact h1) rfl (by simp [h4]) (by exact h4)]
        simp [List.append_assoc, h4]
      · simp only [ho, Bool.not_false, if_true, Option.bind_some, lvl, hits, Bool.false_eq_true, if_false]
        exact ih st o i h1 h2 h3 h4
    | enter =>
      simp only [List.map_cons, LEv.toEv, run, step, Option.bind_some, lvl, hits]
      exact ih { st with curLevel := st.curLevel + 1 } o i h1 h2 h3 h4
    | leave =>
      simp only [List.map_cons, LEv.toEv, run, step, Option.bind_some, lvl, hits]
      exact ih { st with curLevel := st.curLevel - 1 } o i h1 h2 h3 h4

theorem run_line (outlined : Nat → Bool) (l : Line) (evs : List LEv) : ∀ (st : St),
    st.modifiedLine ≤ l.lno → st.lineIsEmpty = true →
    ∃ e, run outlined st (evs.map (LEv.toEv l)) =
      some ⟨st.outline ++ (lineItem outlined st.curLevel { l with evs := evs }).toList, e, lvl st.curLevel evs,
        st.modifiedLine⟩ := by
  induction evs with
  | nil =>
    intro st _ h2
    refine ⟨true, ?_⟩
    cases st
    simp only at h2
    subst h2
    simp [run, lineItem, hits, lvl]
  | cons e r ih =>
    intro st h1 h2
    cases e with
    | region sx ex rg =>
      simp only [List.map_cons, LEv.toEv, run, step]
      rw [if_neg (by omega)]
      by_cases ho : outlined rg = true
      · simp only [ho, Bool.not_true, Bool.false_eq_true, if_false, h2, if_true, Option.bind_some, lvl]
        rw [run_more outlined l r _ st.outline ⟨l.lno, sx, st.curLevel, label l.text sx ex, rg⟩ (by exact h1) rfl rfl rfl]
        refine ⟨false, ?_⟩
        simp [lineItem, label, hits, ho]
      · simp only [ho, Bool.not_false, if_true, Option.bind_some, lvl, Bool.false_eq_true]
        obtain ⟨e, he⟩ := ih st h1 h2
        refine ⟨e, ?_⟩
        rw [he]
        simp [lineItem, label, hits, ho]
    | enter =>
      simp only [List.map_cons, LEv.toEv, run, step, Option.bind_some, lvl]
      obtain ⟨e, he⟩ := ih { st with curLevel := st.curLevel + 1 } h1 h2
      exact ⟨e, he⟩
    | leave =>
      simp only [List.map_cons, LEv.toEv, run, step, Option.bind_some, lvl]
      obtain ⟨e, he⟩ := ih { st with curLevel := st.curLevel - 1 } h1 h2
      exact ⟨e, he⟩

theorem run_lines (outlined : Nat → Bool) (ls : List Line) : ∀ (st : St),
    ∃ e lv, run outlined st (ls.flatMap fun l => .clearLine :: l.evs.map (LEv.toEv l)) =
      some ⟨st.outline ++ items outlined st.modifiedLine st.curLevel ls, e, lv, st.modifiedLine⟩ := by
  induction ls with
  | nil => intro st; exact ⟨st.lineIsEmpty, st.curLevel, by simp [run, items]⟩
  | cons l r ih =>
    intro st
    simp only [List.flatMap_cons, run_append]
    simp only [run, step, Option.bind_some]
    by_cases h : l.lno < st.modifiedLine
    · rw [run_skip outlined l l.evs { st with lineIsEmpty := true } h]
      simp only [Option.bind_some]
      obtain ⟨e, lv, he⟩ := ih ⟨st.outline, true, lvl st.curLevel l.evs, st.modifiedLine⟩
      refine ⟨e, lv, ?_⟩
      rw [he]
      simp [items, h]
    · obtain ⟨e1, he1⟩ := run_line outlined l l.evs { st with lineIsEmpty := true } (by show st.modifiedLine ≤ l.lno; omega) rfl
      rw [he1]
      simp only [Option.bind_some]
      obtain ⟨e, lv, he⟩ := ih ⟨st.outline ++ (lineItem outlined st.curLevel l).toList, e1, lvl st.curLevel l.evs,
        st.modifiedLine⟩
      refine ⟨e, lv, ?_⟩
      rw [he]
      simp [items, h]

/-! ### order of the items -/

theorem lineItem_lno {outlined : Nat → Bool} {base : Int} {l : Line} {i : Item} (h : i ∈ (lineItem outlined base l).toList) :
    i.lno = l.lno := by
  unfold lineItem at h
  split at h
  · simp at h
  · simp at h; subst h; rfl

theorem lineItem_one (outlined : Nat → Bool) (base : Int) (l : Line) : ((lineItem outlined base l).toList).Pairwise fun a b => a.lno < b.lno := by
  cases lineItem outlined base l <;> simp

theorem consecutive_le {l : Line} {r : List Line} (h : Consecutive (l :: r)) : ∀ x ∈ r, l.lno < x.lno := by
  induction r generalizing l with
  | nil => simp
  | cons b t ih =>
    intro x hx
    simp only [Consecutive] at h
    rcases List.mem_cons.1 hx with rfl | hx
    · omega
    · have := ih h.2 x hx; omega

theorem consecutive_tail {l b : Line} {r : List Line} (h : Consecutive (l :: b :: r)) : Consecutive (b :: r) := h.2

theorem items_mem {outlined : Nat → Bool} {m : Nat} (ls : List Line) : ∀ (base : Int) (i : Item),
    i ∈ items outlined m base ls → m ≤ i.lno ∧ ∃ l ∈ ls, i.lno = l.lno := by
  induction ls with
  | nil => intro base i h; simp [items] at h
  | cons l r ih =>
    intro base i h
    simp only [items, List.mem_append] at h
    rcases h with h | h
    · by_cases hl : l.lno < m
      · simp [hl] at h
      · rw [if_neg hl] at h
        have := lineItem_lno h
        exact ⟨by omega, l, by simp, this⟩
    · obtain ⟨h1, x, hx, h2⟩ := ih _ i h
      exact ⟨h1, x, by simp [hx], h2⟩

theorem items_sorted {outlined : Nat → Bool} {m : Nat} (ls : List Line) (hc : Consecutive ls) : ∀ base : Int,
    (items outlined m base ls).Pairwise fun a b => a.lno < b.lno := by
  induction ls with
  | nil => simp [items]
  | cons l r ih =>
    intro base
    simp only [items]
    rw [List.pairwise_append]
    refine ⟨?_, ?_, ?_⟩
    · split
      · simp
      · exact lineItem_one ..
    · cases r with
      | nil => simp [items]
      | cons b t => exact ih (consecutive_tail hc) _
    · intro a ha b hb
      obtain ⟨_, x, hx, h2⟩ := items_mem _ _ b hb
      have hlt := consecutive_le hc x hx
      split at ha
      · simp at ha
      · have := lineItem_lno ha
        omega

theorem consecutive_last {ls : List Line} (hc : Consecutive ls) :
    ∃ l, ls.getLast? = some l ∧ ∀ x ∈ ls, x.lno ≤ l.lno := by
  induction ls with
  | nil => exact absurd hc id
  | cons a r ih =>
    cases r with
    | nil => exact ⟨a, rfl, by simp⟩
    | cons b t =>
      obtain ⟨l, h1, h2⟩ := ih (consecutive_tail hc)
      refine ⟨l, ?_, ?_⟩
      · rw [List.getLast?_cons_cons]; exact h1
      · intro x hx
        rcases List.mem_cons.1 hx with rfl | hx
        · have := h2 b (by simp)
          have := hc.1
          omega
        · exact h2 x hx

/-- what holds between editor actions -/
def Inv (o : List Item) (m : Nat) : Prop := (o.Pairwise fun a b => a.lno < b.lno) ∧ ∀ i ∈ o, i.lno < m

theorem cut_eq_filter (t : Nat) (o : List Item) (h : o.Pairwise fun a b => a.lno < b.lno) :
    cut t o = o.filter fun i => i.lno < t := by
  induction o with
  | nil => rfl
  | cons a r ih =>
    rw [List.pairwise_cons] at h
    simp only [cut, List.filter_cons]
    by_cases ha : a.lno ≥ t
    · rw [if_pos ha]
      have h1 : ¬ a.lno < t := by omega
      simp only [h1, decide_false, Bool.false_eq_true, if_false]
      symm
      rw [List.filter_eq_nil_iff]
      intro b hb
      have := h.1 b hb
      simp; omega
    · rw [if_neg ha, ih h.2]
      have h1 : a.lno < t := by omega
      simp [h1]

theorem spec_inv (outlined : Nat → Bool) (s : List Item × Nat) (hi : Inv s.1 s.2) (a : Act)
    (hc : ∀ ls, a = .parse ls → Consecutive ls) :
    Inv (specStep outlined s a).1 (specStep outlined s a).2 := by
  obtain ⟨o, m⟩ := s
  cases a with
  | modify t =>
    refine ⟨List.Pairwise.filter _ hi.1, ?_⟩
    intro i h
    simp only [specStep, List.mem_filter, decide_eq_true_eq] at h
    exact h.2
  | parse ls =>
    have hcs := hc ls rfl
    obtain ⟨l, h1, h2⟩ := consecutive_last hcs
    simp only [specStep, h1, Option.map_some, Option.get!_some]
    refine ⟨?_, ?_⟩
    · rw [List.pairwise_append]
      refine ⟨hi.1, items_sorted ls hcs 0, ?_⟩
      intro a ha b hb
      have := hi.2 a ha
      have := (items_mem _ _ b hb).1
      simp only at *
      omega
    · intro i h
      rw [List.mem_append] at h
      rcases h with h | h
      · have := hi.2 i h
        simp only at *
        omega
      · obtain ⟨_, x, hx, h3⟩ := items_mem _ _ i h
        have := h2 x hx
        omega

theorem run_act (outlined : Nat → Bool) (st : St) (a : Act) (hi : Inv st.outline st.modifiedLine)
    (hc : ∀ ls, a = .parse ls → Consecutive ls)
    (he : ∀ ls l, a = .parse ls → ls.getLast? = some l → l.lno ≠ st.modifiedLine) :
    ∃ st', run outlined st a.evs = some st' ∧
      (st'.outline, st'.modifiedLine) = specStep outlined (st.outline, st.modifiedLine) a := by
  cases a with
  | modify t =>
    refine ⟨_, rfl, ?_⟩
    simp [specStep, cut_eq_filter t _ hi.1]
  | parse ls =>
    obtain ⟨l, h1, _⟩ := consecutive_last (hc ls rfl)
    simp only [Act.evs, h1, Option.map_some, Option.get!_some, List.cons_append, run, step, Option.bind_some]
    rw [run_append]
    obtain ⟨e, lv, hr⟩ := run_lines outlined ls { st with curLevel := 0 }
    rw [hr]
    simp only [Option.bind_some, run, step]
    refine ⟨_, rfl, ?_⟩
    have := he ls l rfl h1
    simp only [specStep, h1, Option.map_some, Option.get!_some, Prod.mk.injEq, true_and]
    split <;> omega

/-- **C13 (part).** After any history of modifications and parses of consecutive lines none of which stops exactly at the
first line not covered yet: the outline builder does not fail, its items are exactly the expected ones (`specStep`: a
modification at line t removes exactly the items at or below t; a parse appends, for each of its lines from the covered bound
on, one item holding the texts of all outlined regions of the line, at the scheme depth of the first of them), they are
strictly increasing in the line number (so at most one per line), and all lie below the bound. -/
theorem C13_outline_contents_partial (outlined : Nat → Bool) (acts : List Act) (hne : NoEdge outlined ([], 0) acts) :
    ∃ st', run outlined {} (acts.flatMap Act.evs) = some st' ∧
      (st'.outline, st'.modifiedLine) = acts.foldl (specStep outlined) ([], 0) ∧
      (st'.outline.Pairwise fun a b => a.lno < b.lno) ∧ ∀ i ∈ st'.outline, i.lno < st'.modifiedLine := by
  have key : ∀ (acts : List Act) (st : St), Inv st.outline st.modifiedLine →
      NoEdge outlined (st.outline, st.modifiedLine) acts →
      ∃ st', run outlined st (acts.flatMap Act.evs) = some st' ∧
      (st'.outline, st'.modifiedLine) = acts.foldl (specStep outlined) (st.outline, st.modifiedLine) ∧
      Inv st'.outline st'.modifiedLine := by
    intro acts
    induction acts with
    | nil => intro st hi _; exact ⟨st, rfl, rfl, hi⟩
    | cons a r ih =>
      intro st hi hne
      simp only [NoEdge] at hne
      obtain ⟨ha, hr⟩ := hne
      have hc : ∀ ls, a = .parse ls → Consecutive ls := by
        intro ls h; subst h; exact ha.1
      have he : ∀ ls l, a = .parse ls → ls.getLast? = some l → l.lno ≠ st.modifiedLine := by
        intro ls l h hl; subst h; exact ha.2 l hl
      obtain ⟨st1, h1, h2⟩ := run_act outlined st a hi hc he
      have hi1 := spec_inv outlined (st.outline, st.modifiedLine) hi a hc
      rw [← h2] at hr hi1
      obtain ⟨st', h3, h4, h5⟩ := ih st1 hi1 hr
      refine ⟨st', ?_, ?_, h5⟩
      · rw [List.flatMap_cons, run_append, h1]; exact h3
      · rw [h4, List.foldl_cons, h2]
  obtain ⟨st', h1, h2, h3⟩ := key acts {} ⟨by simp, by simp⟩ hne
  exact ⟨st', h1, h2, h3.1, h3.2⟩

/-- **C13.** In every history — also those excluded above — a modification leaves no item at or below its line when the
items are in order. -/
theorem C13_modify_forgets (outlined : Nat → Bool) (st : St) (t : Nat) (h : st.outline.Pairwise fun a b => a.lno ≤ b.lno) :
    ∃ st', step outlined st (.modify t) = some st' ∧ st'.outline = st.outline.filter fun i => i.lno < t := by
  refine ⟨_, rfl, ?_⟩
  show cut t st.outline = _
  generalize st.outline = o at h
  induction o with
  | nil => rfl
  | cons a r ih =>
    rw [List.pairwise_cons] at h
    simp only [cut, List.filter_cons]
    by_cases ha : a.lno ≥ t
    · rw [if_pos ha]
      have h1 : ¬ a.lno < t := by omega
      simp only [h1, decide_false, Bool.false_eq_true, if_false]
      symm
      rw [List.filter_eq_nil_iff]
      intro b hb
      have := h.1 b hb
      simp; omega
    · rw [if_neg ha, ih h.2]
      have h1 : a.lno < t := by omega
      simp [h1]

/-! ## Non-triviality and the defect -/

/-- a line with two outlined regions (region 1) and one that is not (region 2), the latter in a nested scheme -/
def exLine (n : Nat) : Line :=
  { lno := n, text := [97, 98, 99, 100], evs := [.enter, .region 1 2 1, .region 2 3 2, .leave, .region 3 4 1] }
def exActs : List Act := [.parse [exLine 0, exLine 1, ⟨2, [], []⟩], .modify 1, .parse [exLine 1, exLine 2, exLine 3]]

example : NoEdge (· == 1) ([], 0) exActs := by
  simp [NoEdge, exActs, Consecutive, exLine, specStep]
example : (exActs.foldl (specStep (· == 1)) ([], 0)).1.map (fun i => (i.lno, i.level, i.token)) =
    [(0, 1, [98, 100]), (1, 1, [98, 100]), (2, 1, [98, 100]), (3, 1, [98, 100])] := by decide +kernel
example : manageAll [] [0, 3, 2, 3, 0, 5] = [0, 1, 1, 2, 0, 1] := by decide +kernel

/-- **C13 violated.** `endParsing` does not move the bound when the parse stops exactly at the bound (`modifiedLine < lno`
instead of `<=`, Outliner.cpp:71): parsing the same line again adds its item twice. -/
theorem C13_violated_duplicate_item :
    (run (· == 1) {} ([Act.modify 5, .parse [exLine 5], .parse [exLine 5]].flatMap Act.evs)).map
      (fun st => st.outline.map (·.lno)) = some [5, 5] := by decide +kernel

end Verif.Outliner
