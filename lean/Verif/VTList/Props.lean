import Verif.VTList.Spec
/-! # C10: virtual scheme substitution is undone on return -/
namespace Verif.VTList

theorem walk_le (ret : Nat) (l : List Node) : (walk ret l).2 ≤ l.length := by
  induction l generalizing ret with
  | nil => simp [walk]
  | cons n l ih =>
    simp only [walk, List.length_cons]
    have := ih (substNode ret n.vlist).1
    split
    · omega
    · split <;> omega

theorem moveBack_spec (k : Nat) (l r : List Node) (h : k ≤ l.length) :
    moveBack k l r = (l.drop k, (l.take k).reverse ++ r) := by
  induction k generalizing l r with
  | zero => simp [moveBack]
  | succ k ih =>
    cases l with
    | nil => simp at h
    | cons n l =>
      simp only [moveBack, List.drop_succ_cons, List.take_succ_cons, List.reverse_cons, List.append_assoc]
      rw [ih l (n :: r) (by simpa using h)]
      simp

theorem moveTo_spec (id : Nat) (l : List Node) (xs : List Node) (n : Node) (r : List Node)
    (hx : ∀ x ∈ xs, x.id ≠ id) (hn : n.id = id) :
    moveTo id l (xs ++ n :: r) = some (n :: (xs.reverse ++ l), r) := by
  induction xs generalizing l with
  | nil => simp [moveTo, hn]
  | cons x xs ih =>
    simp only [List.cons_append, moveTo]
    rw [if_neg (hx x (by simp)), ih (x :: l) (fun y hy => hx y (by simp [hy]))]
    simp

/-- undoing a `pushvirt`: whatever happened in between, if the list is the one `pushvirt` left, `popvirt` gives the list
before -/
theorem popvirt_pushvirt {v : VT} (hv : Ok v) {scheme s : Nat} {v1 v2 : VT} (h : v.pushvirt scheme = (some s, v1))
    (hl : v2.left = v1.left) (hr : v2.right = v1.right) :
    ∃ v3, v2.popvirt = some v3 ∧ v3.left = v.left ∧ v3.right = v.right ∧ v3.num = v2.num ∧ v3.fresh = v2.fresh := by
  unfold VT.pushvirt at h
  have hle := walk_le scheme v.left
  generalize hw : walk scheme v.left = w at h hle
  obtain ⟨ret, k⟩ := w
  simp only at h hle
  by_cases hk : k = 0
  · rw [if_pos hk] at h; simp at h
  · rw [if_neg hk, moveBack_spec k _ _ hle] at h
    simp only [Prod.mk.injEq, Option.some.injEq] at h
    obtain ⟨_, h⟩ := h
    -- the nodes moved behind the cursor
    cases hleft : v.left with
    | nil => rw [hleft] at hle; simp at hle; omega
    | cons lst lrest =>
      obtain ⟨k, rfl⟩ : ∃ k', k = k' + 1 := ⟨k - 1, by omega⟩
      rw [hleft] at h hle
      simp only [List.take_succ_cons, List.drop_succ_cons, List.reverse_cons, List.append_assoc, List.singleton_append] at h
      -- `curvl`
      cases hrev : (lrest.take k).reverse with
      | nil =>
        rw [hrev] at h
        simp only [List.nil_append] at h
        have hkz : lrest.take k = [] := by simpa using hrev
        have hdrop : lrest.drop k = lrest := by
          have := List.take_append_drop k lrest
          rw [hkz] at this
          simpa using this
        subst h
        simp only [VT.popvirt]
        rw [hr]
        simp only
        have hsh : lst.shadow = none := hv.noshadow lst (by rw [hleft]; simp)
        have hmt := moveTo_spec lst.id v2.left [] { lst with shadow := none } v.right (by simp) rfl
        simp only [List.nil_append] at hmt
        rw [hmt]
        refine ⟨_, rfl, ?_, rfl, rfl, rfl⟩
        simp only [List.reverse_nil, List.nil_append, hl, hdrop]
        congr 1
        cases lst; simp_all
      | cons c xs =>
        rw [hrev] at h
        simp only [List.cons_append] at h
        subst h
        simp only [VT.popvirt]
        rw [hr]
        simp only
        have hmemc : c ∈ lrest := by
          have : c ∈ (lrest.take k).reverse := by rw [hrev]; simp
          exact List.mem_of_mem_take (List.mem_reverse.1 this)
        have hmemx : ∀ x ∈ xs, x ∈ lrest := by
          intro x hx
          have : x ∈ (lrest.take k).reverse := by rw [hrev]; simp [hx]
          exact List.mem_of_mem_take (List.mem_reverse.1 this)
        have hnd := hv.nodup
        rw [hleft] at hnd
        simp only [List.cons_append, List.pairwise_cons] at hnd
        have hcid : c.id ≠ lst.id := fun e => hnd.1 c (List.mem_append.2 (Or.inl hmemc)) e.symm
        have hsh : c.shadow = none := hv.noshadow c (by rw [hleft]; simp [hmemc])
        have hmt := moveTo_spec lst.id v2.left ({ c with shadow := none } :: xs) lst v.right (by
          intro x hx
          rcases List.mem_cons.1 hx with rfl | hx
          · exact hcid
          · exact fun e => hnd.1 x (List.mem_append.2 (Or.inl (hmemx x hx))) e.symm) rfl
        simp only [List.cons_append] at hmt
        rw [hmt]
        refine ⟨_, rfl, ?_, rfl, rfl, rfl⟩
        simp only [hl]
        congr 1
        have hc : ({ c with shadow := none } : Node) = c := by cases c; simp_all
        rw [hc, ← hrev, List.reverse_reverse, List.take_append_drop]

theorem pushvirt_ok {v v1 : VT} (hv : Ok v) {scheme : Nat} {o : Option Nat} (h : v.pushvirt scheme = (o, v1)) :
    Ok v1 ∧ v1.num = v.num ∧ v1.fresh = v.fresh := by
  unfold VT.pushvirt at h
  have hle := walk_le scheme v.left
  generalize hw : walk scheme v.left = w at h hle
  obtain ⟨ret, k⟩ := w
  simp only at h hle
  by_cases hk : k = 0
  · rw [if_pos hk] at h; cases h; exact ⟨hv, rfl, rfl⟩
  · rw [if_neg hk, moveBack_spec k _ _ hle] at h
    simp only [Prod.mk.injEq] at h
    obtain ⟨_, h⟩ := h
    have hids : ∀ (r : List Node) (o : Option Nat), ∀ c rs, r = c :: rs →
        ({ c with shadow := o } :: rs).map (·.id) = r.map (·.id) := by
      intro r o c rs h; subst h; rfl
    -- only identities matter for nodup, bound and count
    have key : ∀ r' : List Node, r'.map (·.id) = ((v.left.take k).reverse ++ v.right).map (·.id) →
        Ok { v with left := v.left.drop k, right := r' } := by
      intro r' hr'
      have hperm : ((v.left.drop k ++ r').map (·.id)).Perm ((v.left ++ v.right).map (·.id)) := by
        rw [List.map_append, hr', List.map_append, List.map_append]
        have h1 : (v.left.drop k ++ v.left.take k).Perm v.left := by
          have := List.perm_append_comm (l₁ := v.left.drop k) (l₂ := v.left.take k)
          rwa [List.take_append_drop] at this
        have h2 : ((v.left.drop k).map (·.id) ++ ((v.left.take k).reverse.map (·.id) ++ v.right.map (·.id))).Perm
            ((v.left.drop k).map (·.id) ++ ((v.left.take k).map (·.id) ++ v.right.map (·.id))) := by
          apply List.Perm.append_left
          apply List.Perm.append_right
          exact (List.reverse_perm _).map _
        refine h2.trans ?_
        rw [← List.append_assoc, ← List.map_append]
        exact List.Perm.append_right _ (h1.map _)
      refine ⟨?_, ?_, ?_, ?_⟩
      · intro n hn; exact hv.noshadow n (List.mem_of_mem_drop hn)
      · have h1 : ((v.left ++ v.right).map (·.id)).Pairwise (· ≠ ·) := List.pairwise_map.2 hv.nodup
        have h2 := hperm.symm.pairwise h1 (fun h => h.symm)
        exact List.pairwise_map.1 h2
      · intro n hn
        have h1 : n.id ∈ (v.left.drop k ++ r').map (·.id) := List.mem_map.2 ⟨n, hn, rfl⟩
        have h2 := hperm.mem_iff.1 h1
        obtain ⟨m, hm1, hm2⟩ := List.mem_map.1 h2
        have := hv.bound m hm1
        simp only at hm2 ⊢
        omega
      · have h1 := hperm.length_eq
        simp only [List.length_map, List.length_append] at h1
        have := hv.num
        simp only
        omega
    subst h
    refine ⟨key _ ?_, rfl, rfl⟩
    cases hr : ((v.left.take k).reverse ++ v.right) with
    | nil => cases v.left <;> rfl
    | cons c rs =>
      cases v.left with
      | nil => rfl
      | cons a b => rfl

theorem push_ok {v : VT} (hv : Ok v) (e : VEntries) : Ok (v.push e).2 := by
  unfold VT.push
  split
  · exact hv
  · refine ⟨?_, ?_, ?_, ?_⟩
    · intro n hn
      rcases List.mem_cons.1 hn with rfl | hn
      · rfl
      · exact hv.noshadow n hn
    · simp only [List.cons_append, List.pairwise_cons]
      refine ⟨?_, hv.nodup⟩
      intro n hn
      have := hv.bound n hn
      exact Nat.ne_of_gt this
    · intro n hn
      simp only [List.cons_append, List.mem_cons] at hn
      rcases hn with rfl | hn
      · simp
      · exact Nat.lt_succ_of_lt (hv.bound n hn)
    · have := hv.num; simp only [List.length_cons, Int.natCast_add]; omega

theorem ok_of_eq {v w : VT} (hv : Ok v) (hl : w.left = v.left) (hr : w.right = v.right) (hn : w.num = v.num)
    (hf : v.fresh ≤ w.fresh) : Ok w := by
  refine ⟨by rw [hl]; exact hv.noshadow, by rw [hl, hr]; exact hv.nodup, ?_, by rw [hn, hl, hr]; exact hv.num⟩
  intro n hn
  rw [hl, hr] at hn
  have := hv.bound n hn
  omega


theorem substNode_spec (e : VEntries) (r : Nat) : substNode r e = (substLevel e r, fires e r) := by
  induction e generalizing r with
  | nil => rfl
  | cons p e ih =>
    obtain ⟨virt, subst⟩ := p
    cases subst with
    | none => simp [substNode, substLevel, fires, ih]
    | some s =>
      by_cases h : r = virt
      · simp [substNode, substLevel, fires, ih, h]
      · simp [substNode, substLevel, fires, ih, h]

theorem substLevel_nofire (e : VEntries) : ∀ r : Nat, fires e r = false → substLevel e r = r := by
  induction e with
  | nil => intro r _; rfl
  | cons p e ih =>
    intro r h
    obtain ⟨virt, subst⟩ := p
    simp only [fires, Bool.or_eq_false_iff, Bool.and_eq_false_iff, decide_eq_false_iff_not] at h
    have h1 : (if r = virt then subst.getD r else r) = r := by
      by_cases hr : r = virt
      · rcases h.1 with h | h
        · exact absurd hr h
        · cases subst <;> simp_all
      · simp [hr]
    have h2 := h.2
    rw [h1] at h2
    show substLevel e (if r = virt then subst.getD r else r) = r
    rw [h1]
    exact ih r h2

theorem walk_zero (l : List Node) : ∀ r : Nat, (walk r l).2 = 0 → (walk r l).1 = r := by
  induction l with
  | nil => intro r _; rfl
  | cons n l ih =>
    intro r h
    simp only [walk, substNode_spec] at h ⊢
    by_cases h0 : (walk (substLevel n.vlist r) l).2 = 0
    · rw [ih _ h0]
      simp only [h0, ne_eq, not_true_eq_false, if_false] at h
      have hf : fires n.vlist r = false := by
        cases hc : fires n.vlist r <;> simp_all
      exact substLevel_nofire _ _ hf
    · simp [h0] at h

/-- what `pushvirt` computes is the resolution of the scheme through the active levels -/
theorem walk_resolve (l : List Node) (r : Nat) :
    resolve r (l.map (·.vlist)) =
      if (walk r l).2 = 0 then none else some ((walk r l).1, (l.drop (walk r l).2).map (·.vlist)) := by
  induction l generalizing r with
  | nil => rfl
  | cons n l ih =>
    simp only [List.map_cons, resolve, walk, substNode_spec]
    rw [ih (substLevel n.vlist r)]
    by_cases h : (walk (substLevel n.vlist r) l).2 = 0
    · have hr : (walk (substLevel n.vlist r) l).2 = 0 → (walk (substLevel n.vlist r) l).1 =
          (walk (substLevel n.vlist r) l).1 := fun _ => rfl
      simp only [h, if_true, ne_eq, not_true_eq_false, if_false]
      have hw : (walk (substLevel n.vlist r) l).1 = substLevel n.vlist r := walk_zero _ _ h
      rw [hw]
      by_cases hf : fires n.vlist r <;> simp [hf]
    · simp [h]

theorem pushvirt_resolve {v v1 : VT} {scheme : Nat} {o : Option Nat} (h : v.pushvirt scheme = (o, v1)) :
    resolve scheme v.active = o.map fun s => (s, v1.active) := by
  unfold VT.active
  rw [walk_resolve]
  unfold VT.pushvirt at h
  have hle := walk_le scheme v.left
  generalize walk scheme v.left = w at h hle ⊢
  obtain ⟨ret, k⟩ := w
  simp only at h hle ⊢
  by_cases hk : k = 0
  · rw [if_pos hk] at h ⊢; cases h; rfl
  · rw [if_neg hk, moveBack_spec k _ _ hle] at h
    rw [if_neg hk]
    simp only [Prod.mk.injEq] at h
    obtain ⟨rfl, rfl⟩ := h
    rfl

theorem run_restores (s : Search) : ∀ v : VT, Ok v → s.NoSelf v.active →
    ∃ v', run v s = some v' ∧ v'.left = v.left ∧ v'.right = v.right ∧ v'.num = v.num ∧ v.fresh ≤ v'.fresh := by
  induction s with
  | done => intro v _ _; exact ⟨v, rfl, rfl, rfl, rfl, Nat.le_refl _⟩
  | inh scheme entries bs bp rest ihs ihp ihr =>
    intro v hv hns
    simp only [Search.NoSelf] at hns
    obtain ⟨hbody, hrest⟩ := hns
    -- what follows the inherit, from any list equal to the original one
    have hcont : ∀ w : VT, w.left = v.left → w.right = v.right → w.num = v.num → v.fresh ≤ w.fresh →
        ∃ v', run w rest = some v' ∧ v'.left = v.left ∧ v'.right = v.right ∧ v'.num = v.num ∧ v.fresh ≤ v'.fresh := by
      intro w hl hr hn hf
      obtain ⟨v', h1, h2, h3, h4, h5⟩ := ihr w (ok_of_eq hv hl hr hn hf) (by unfold VT.active; rw [hl]; exact hrest)
      exact ⟨v', h1, h2.trans hl, h3.trans hr, h4.trans hn, by omega⟩
    cases hp : v.pushvirt scheme with
    | mk o v1 =>
      have hres := pushvirt_resolve hp
      obtain ⟨hok1, hn1, hf1⟩ := pushvirt_ok hv hp
      cases o with
      | none =>
        rw [hres] at hbody
        simp only [Option.map_none] at hbody
        have hv1 : v1 = v := by
          unfold VT.pushvirt at hp
          simp only at hp
          split at hp
          · exact (Prod.mk.inj hp).2.symm
          · simp at hp
        subst hv1
        simp only [run, hp]
        by_cases he : entries = []
        · rw [if_pos he] at hbody
          obtain ⟨v3, h1, h2, h3, h4, h5⟩ := ihp v1 hv hbody
          have hpush : v1.push entries = (false, v1) := by simp [VT.push, he]
          rw [hpush]
          simp only [h1, Option.bind_some, Bool.false_eq_true, if_false]
          exact hcont v3 h2 h3 h4 h5
        · rw [if_neg he] at hbody
          have hpush : v1.push entries = (true, (v1.push entries).2) := by simp [VT.push, he]
          have hpl : (v1.push entries).2 =
            { v1 with left := ⟨v1.fresh, entries, none⟩ :: v1.left, num := v1.num + 1, fresh := v1.fresh + 1 } := by
            simp [VT.push, he]
          obtain ⟨v3, h1, h2, h3, h4, h5⟩ := ihp (v1.push entries).2 (push_ok hv entries) (by
            rw [hpl]; exact hbody)
          rw [hpush]
          simp only [h1, Option.bind_some, if_true]
          rw [hpl] at h2 h3 h4 h5
          simp only at h2 h3 h4 h5
          have hpop : v3.pop = some { v3 with left := v1.left, num := v3.num - 1 } := by
            unfold VT.pop
            rw [h2]
          rw [hpop]
          simp only [Option.bind_some]
          exact hcont _ rfl h3 (by simp only; omega) (by simp only; omega)
      | some sc =>
        rw [hres] at hbody
        simp only [Option.map_some] at hbody
        obtain ⟨v2, h1, h2, h3, h4, h5⟩ := ihs v1 hok1 hbody
        obtain ⟨v3, g1, g2, g3, g4, g5⟩ := popvirt_pushvirt hv hp h2 h3
        simp only [run, hp, h1, Option.bind_some, g1]
        exact hcont v3 g2 g3 (by omega) (by omega)
  | block scheme body rest ihb ihr =>
    intro v hv hns
    simp only [Search.NoSelf] at hns
    obtain ⟨hbody, hrest⟩ := hns
    have hcont : ∀ w : VT, w.left = v.left → w.right = v.right → w.num = v.num → v.fresh ≤ w.fresh →
        ∃ v', run w rest = some v' ∧ v'.left = v.left ∧ v'.right = v.right ∧ v'.num = v.num ∧ v.fresh ≤ v'.fresh := by
      intro w hl hr hn hf
      obtain ⟨v', h1, h2, h3, h4, h5⟩ := ihr w (ok_of_eq hv hl hr hn hf) (by unfold VT.active; rw [hl]; exact hrest)
      exact ⟨v', h1, h2.trans hl, h3.trans hr, h4.trans hn, by omega⟩
    cases hp : v.pushvirt scheme with
    | mk o v1 =>
      have hres := pushvirt_resolve hp
      obtain ⟨hok1, hn1, hf1⟩ := pushvirt_ok hv hp
      cases o with
      | none =>
        rw [hres] at hbody
        simp only [Option.map_none] at hbody
        have hv1 : v1 = v := by
          unfold VT.pushvirt at hp
          simp only at hp
          split at hp
          · exact (Prod.mk.inj hp).2.symm
          · simp at hp
        subst hv1
        obtain ⟨v2, h1, h2, h3, h4, h5⟩ := ihb v1 hv hbody
        simp only [run, hp, h1, Option.bind_some]
        exact hcont v2 h2 h3 h4 h5
      | some sc =>
        rw [hres] at hbody
        simp only [Option.map_some] at hbody
        obtain ⟨v2, h1, h2, h3, h4, h5⟩ := ihb v1 hok1 hbody.2
        obtain ⟨v3, g1, g2, g3, g4, g5⟩ := popvirt_pushvirt hv hp h2 h3
        simp only [run, hp, h1, Option.bind_some, ne_eq, hbody.1, not_false_eq_true, if_true, g1]
        exact hcont v3 g2 g3 (by omega) (by omega)

theorem mkNodes_vlist (f : Nat) (l : List VEntries) : (mkNodes f l).map (·.vlist) = l := by
  induction l generalizing f with
  | nil => rfl
  | cons e r ih => simp [mkNodes, ih]

theorem mkNodes_mem (f : Nat) (l : List VEntries) : ∀ n ∈ mkNodes f l, f ≤ n.id ∧ n.id < f + l.length ∧ n.shadow = none := by
  induction l generalizing f with
  | nil => simp [mkNodes]
  | cons e r ih =>
    intro n hn
    simp only [mkNodes, List.mem_cons] at hn
    rcases hn with rfl | hn
    · simp
    · obtain ⟨h1, h2, h3⟩ := ih (f + 1) n hn
      simp only [List.length_cons]
      exact ⟨by omega, by omega, h3⟩

theorem mkNodes_nodup (f : Nat) (l : List VEntries) : (mkNodes f l).Pairwise fun a b => a.id ≠ b.id := by
  induction l generalizing f with
  | nil => simp [mkNodes]
  | cons e r ih =>
    simp only [mkNodes, List.pairwise_cons]
    refine ⟨?_, ih _⟩
    intro n hn
    have := (mkNodes_mem _ _ n hn).1
    exact Nat.ne_of_lt this

theorem mkNodes_length (f : Nat) (l : List VEntries) : (mkNodes f l).length = l.length := by
  have := congrArg List.length (mkNodes_vlist f l)
  simpa using this

/-- **C10 (part).** Whatever searches happen (inherits with their own or substituted schemes, blocks, arbitrarily nested
and sequenced): the list operations never fail (no null dereference, no dangling cursor), and afterwards the whole list —
active levels, shadowed levels and the count — is what it was, provided no block's scheme is replaced by itself through a
chain of substitutions (see `C10_violated_self_substitution` for what happens then). -/
theorem C10_substitutions_undone_partial (s : Search) (v : VT) (hv : Ok v) (hs : s.NoSelf v.active) :
    ∃ v', run v s = some v' ∧ v'.left = v.left ∧ v'.right = v.right ∧ v'.num = v.num ∧ Ok v' := by
  obtain ⟨v', h1, h2, h3, h4, h5⟩ := run_restores s v hv hs
  exact ⟨v', h1, h2, h3, h4, ok_of_eq hv h2 h3 h4 h5⟩

/-- **C10.** Saving the list and restoring it into an empty list (as a later `parse` call does, `f` being whatever node
identities are free then) gives the same active substitutions, again in a valid list with nothing shadowed; every later
resolution is therefore the same. -/
theorem C10_store_restore (v : VT) (hv : Ok v) (f : Nat) :
    ((VT.empty f).restore v.store).active = v.active ∧ Ok ((VT.empty f).restore v.store) := by
  have hempty : ∀ g, Ok (VT.empty g) := fun g => ⟨by simp [VT.empty], by simp [VT.empty], by simp [VT.empty], rfl⟩
  by_cases h : v.left = []
  · have hst : v.store = none := by simp [VT.store, h]
    rw [hst]
    have hre : (VT.empty f).restore none = VT.empty f := by simp [VT.restore]
    rw [hre]
    exact ⟨by simp [VT.active, VT.empty, h], hempty f⟩
  · have hn : v.num ≠ 0 := by
      have := hv.num
      have := List.length_pos_iff.2 h
      omega
    have hst : v.store = some (v.left.reverse.map (·.vlist)) := by simp [VT.store, h, hn]
    rw [hst]
    generalize hL : v.left.reverse.map (·.vlist) = L
    have hre : (VT.empty f).restore (some L) =
        ⟨(mkNodes f L).reverse, [], (0 : Int) + L.length, f + L.length⟩ := by
      simp [VT.restore, VT.empty]
    rw [hre]
    refine ⟨?_, ?_, ?_, ?_, ?_⟩
    · unfold VT.active
      rw [List.map_reverse, mkNodes_vlist, ← hL, List.map_reverse, List.reverse_reverse]
    · intro n hn
      exact (mkNodes_mem f L n (List.mem_reverse.1 hn)).2.2
    · simp only [List.append_nil]
      exact List.pairwise_reverse.2 ((mkNodes_nodup f L).imp fun h => h.symm)
    · intro n hn
      simp only [List.append_nil] at hn
      exact (mkNodes_mem f L n (List.mem_reverse.1 hn)).2.1
    · simp [mkNodes_length]

/-- **C10.** The scheme searched in place of a virtual one is the one got by applying the active levels from the innermost
outwards, and below it only the levels outside the last one applied are active. -/
theorem C10_substitution_is_resolution (v v1 : VT) (scheme : Nat) (o : Option Nat) (h : v.pushvirt scheme = (o, v1)) :
    resolve scheme v.active = o.map fun s => (s, v1.active) := pushvirt_resolve h

/-- C10. An emptied list is empty: nothing is active, nothing would be saved, and what is saved after a substitution is entered is that one alone. -/
theorem C10_cleared (v : VT) (e : VEntries) (he : e ≠ []) : Ok v.clear ∧ v.clear.active = [] ∧ v.clear.store = none ∧ (v.clear.push e).2.store = some [e] ∧
    (v.clear.push e).2.pop.bind VT.store = none := by
  refine ⟨⟨by simp [VT.clear], by simp [VT.clear], by simp [VT.clear], rfl⟩, rfl, by simp [VT.store, VT.clear], ?_, ?_⟩
  · unfold VT.push
    rw [if_neg he]
    simp [VT.store, VT.clear]
  · unfold VT.push
    rw [if_neg he]
    simp [VT.store, VT.clear, VT.pop]

/-! ## Non-triviality and the defect -/

/-- two levels: the inner one replaces 1 by 2, the outer one 2 by 3 -/
def exV : VT := ((((VT.empty 0).push [(2, some 3)]).2).push [(1, some 2), (7, none)]).2

example : Ok exV := push_ok (push_ok ⟨by simp [VT.empty], by simp [VT.empty], by simp [VT.empty], rfl⟩ _) _
example : exV.active = [[(1, some 2), (7, none)], [(2, some 3)]] := by decide +kernel
example : resolve 1 exV.active = some (3, []) := by decide +kernel
example : (exV.pushvirt 1).1 = some 3 := by decide +kernel
/-- a search with nesting that meets the hypothesis -/
def exS : Search := .inh 5 [(9, some 1)] .done (.block 9 (.inh 4 [(3, some 3)] .done .done .done) .done) (.block 1 .done .done)
example : exS.NoSelf exV.active := by
  simp [exS, Search.NoSelf, VT.active, exV, VT.push, VT.empty, resolve, fires, substLevel]
example : (run exV exS).map (fun v => (v.left, v.right)) = some (exV.left, exV.right) := by decide +kernel

/-- a list in which 1 is replaced by 2 (inner inherit) and 2 by 1 (outer inherit) -/
def loopV : VT := ((((VT.empty 0).push [(2, some 1)]).2).push [(1, some 2)]).2

/-- **C10 violated.** A block whose scheme is replaced by itself through two substitutions leaves both levels shadowed:
`searchBL` calls `popvirt` only when the substituted scheme differs from the block's own (TextParserImpl.cpp:440-442). -/
theorem C10_violated_self_substitution :
    Ok loopV ∧ ∃ v', run loopV (.block 1 .done .done) = some v' ∧ loopV.active = [[(1, some 2)], [(2, some 1)]] ∧
      v'.active = [] :=
  ⟨push_ok (push_ok ⟨by simp [VT.empty], by simp [VT.empty], by simp [VT.empty], rfl⟩ _) _,
    _, rfl, by decide +kernel, by decide +kernel⟩

/-- … after which popping the enclosing inherit's level fails (a null pointer is dereferenced). -/
theorem C10_violated_self_substitution_crash :
    run (((VT.empty 0).push [(2, some 1)]).2) (.inh 5 [(1, some 2)] .done (.block 1 .done .done) .done) = none := by
  decide +kernel

end Verif.VTList
