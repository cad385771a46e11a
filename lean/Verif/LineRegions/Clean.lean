import Verif.LineRegions.Model
/-!
# Which regions the background pieces of a line carry

`Clean Q st`: every node of the store that is not special, and every scheme on its stack, carries a region that meets `Q`. Calls whose own
regions meet `Q` (or are special) keep this, whatever the state: no piece of background ever changes its region.
-/
namespace Verif.LineRegions
variable {RD : Type}

/-- the call brings only regions that meet `Q`, or special ones -/
def OpQ (Q : Option Nat → Prop) (env : Env RD) : Op → Prop
  | .region _ _ _ r => env.isSpecial r = true ∨ Q (some r)
  | .enter _ _ _ r _ => Q r
  | _ => True

structure Clean (Q : Option Nat → Prop) (st : Store RD) : Prop where
  nodes : ∀ i, ∀ t ∈ st.slots i, t.special = false → Q t.pay.region
  stack : ∀ p ∈ st.stack, Q p.region

variable {Q : Option Nat → Prop}

/-- the nodes of `l` that are not special meet `Q` -/
def ListQ (Q : Option Nat → Prop) (l : List (LR RD)) : Prop := ∀ t ∈ l, t.special = false → Q t.pay.region

theorem ListQ.append {a b : List (LR RD)} (ha : ListQ Q a) (hb : ListQ Q b) : ListQ Q (a ++ b) := by
  intro t ht
  rcases List.mem_append.1 ht with h | h
  · exact ha t h
  · exact hb t h

theorem ListQ.sub {a b : List (LR RD)} (ha : ListQ Q a) (h : ∀ t ∈ b, t ∈ a) : ListQ Q b := fun t ht => ha t (h t ht)

theorem ListQ.left {a b : List (LR RD)} (h : ListQ Q (a ++ b)) : ListQ Q a := h.sub fun t ht => by simp [ht]
theorem ListQ.right {a b : List (LR RD)} (h : ListQ Q (a ++ b)) : ListQ Q b := h.sub fun t ht => by simp [ht]

theorem ListQ.cons {t : LR RD} {l : List (LR RD)} (h1 : t.special = false → Q t.pay.region) (h2 : ListQ Q l) : ListQ Q (t :: l) := by
  intro u hu
  rcases List.mem_cons.1 hu with rfl | hu
  · exact h1
  · exact h2 u hu

theorem findPosGo_parts (ladd : LR RD) (l : List (LR RD)) : ∀ (pre : List (LR RD)) (a b : List (LR RD)), findPosGo ladd pre l = some (a, b) → a ++ b = pre ++ l := by
  induction l with
  | nil => intro pre a b h; simp [findPosGo] at h
  | cons n r ih =>
    intro pre a b h
    rw [findPosGo.eq_def] at h
    dsimp only at h
    split at h
    · cases h; rfl
    · cases r with
      | nil =>
        dsimp only at h
        split at h
        · cases h; simp
        · simp at h
      | cons m r =>
        dsimp only at h
        split at h
        · cases h; simp
        · rw [ih _ _ _ h]; simp

theorem findPos_parts (ladd : LR RD) (l a b : List (LR RD)) (h : findPos ladd l = some (a, b)) : a ++ b = l := by
  cases l with
  | nil => simp [findPos] at h
  | cons n r =>
    rw [findPos] at h
    split at h
    · cases h; rfl
    · rw [findPosGo_parts _ _ _ _ _ h]; rfl

theorem dropZero_sub (pre : List (LR RD)) : ∀ t ∈ dropZero pre, t ∈ pre := by
  intro t ht
  unfold dropZero at ht
  dsimp only at ht
  have hd : ∀ t ∈ pre.dropLast, t ∈ pre := fun t ht => (List.dropLast_sublist pre).subset ht
  grind

theorem prevCheck_q (ladd : LR RD) (pre post : List (LR RD)) (flow next : Nat) (h1 : ListQ Q pre) (h2 : ListQ Q post) :
    ListQ Q (prevCheck ladd pre post flow next).pre ∧ ListQ Q (prevCheck ladd pre post flow next).post := by
  unfold prevCheck
  cases hp : pre.getLast? with
  | none => exact ⟨h1, h2⟩
  | some p =>
    have hm : p ∈ pre := List.mem_of_getLast? hp
    have ht : ListQ Q (pre.dropLast ++ [{ p with stop := ladd.start }]) := by
      refine (h1.sub fun t ht => (List.dropLast_sublist pre).subset ht).append ?_
      exact .cons (h1 p hm) (by intro t ht; simp at ht)
    dsimp only
    split
    · split
      · exact ⟨ht.sub (dropZero_sub _), .cons (h1 p hm) h2⟩
      · exact ⟨ht.sub (dropZero_sub _), h2⟩
    · exact ⟨h1, h2⟩

theorem fwd_q (ladd : LR RD) (l : List (LR RD)) : ∀ kept, ListQ Q kept → ListQ Q l → ListQ Q (fwd ladd kept l) := by
  induction l with
  | nil => intro kept h _; exact h
  | cons n r ih =>
    intro kept hk hl
    have hn := hl n (by simp)
    have hr : ListQ Q r := hl.sub fun t ht => by simp [ht]
    rw [fwd]
    split
    · exact ih _ (hk.append (.cons hn (by intro t ht; simp at ht))) hr
    · dsimp only
      generalize hn' : (if (n.stop = -1 ∨ n.stop > ladd.stop) ∧ ladd.stop ≠ -1 ∧ n.start < ladd.stop then { n with start := ladd.stop } else n) = n'
      have hq : n'.special = false → Q n'.pay.region := by
        subst hn'
        split
        · exact hn
        · exact hn
      split
      · exact ih _ (by intro t ht; simp at ht) hr
      · exact ih _ (hk.append (.cons hq (by intro t ht; simp at ht))) hr

theorem compactAdd_q (ladd : LR RD) (l : List (LR RD)) (flow next : Nat) (r : AddRes RD) (h : compactAdd ladd l flow next = some r)
    (ha : ladd.special = false → Q ladd.pay.region) (hl : ListQ Q l) : ListQ Q r.list := by
  unfold compactAdd at h
  split at h
  · cases h
    exact hl.append (.cons ha (by intro t ht; simp at ht))
  · split at h
    · cases h
      exact .cons ha (by intro t ht; simp at ht)
    · split at h
      · simp at h
      · rename_i n r' _ pre post hp
        have hparts := findPos_parts _ _ _ _ hp
        rw [← hparts] at hl
        cases h
        obtain ⟨h1, h2⟩ := prevCheck_q ladd pre post flow next hl.left hl.right
        exact h1.append (.cons ha (fwd_q ladd _ [] (by intro t ht; simp at ht) h2))

theorem addLine_q (st st' : Store RD) (lno : Nat) (ladd : LR RD) (h : st.addLine true lno ladd = some st') (hc : Clean Q st)
    (ha : ladd.special = false → Q ladd.pay.region) : Clean Q st' := by
  unfold Store.addLine at h
  dsimp only at h
  rw [if_pos rfl] at h
  split at h
  · simp at h
  · rename_i r hr
    cases h
    refine ⟨?_, hc.stack⟩
    intro i t ht
    have ht : t ∈ (if i = st.index lno then r.list else st.slots i) := ht
    split at ht
    · exact compactAdd_q ladd _ _ _ r hr ha (fun t ht => hc.nodes _ t ht) t ht
    · exact hc.nodes i t ht

theorem setFlowEnd_q (st st' : Store RD) (e : Int) (h : st.setFlowEnd e = some st') (hc : Clean Q st) : Clean Q st' := by
  unfold Store.setFlowEnd at h
  split at h
  · simp at h
  · split at h
    · rename_i i id _ _
      cases h
      refine ⟨?_, hc.stack⟩
      intro j t ht
      have ht : t ∈ (if j = i then (st.slots i).map fun t => if t.id = id then { t with stop := e } else t else st.slots j) := ht
      split at ht
      · obtain ⟨u, hu, rfl⟩ := List.mem_map.1 ht
        split
        · exact hc.nodes _ u hu
        · exact hc.nodes _ u hu
      · exact hc.nodes j t ht
    · simp at h

theorem step_clean (env : Env RD) (hQ : Q none) (st st' : Store RD) (op : Op) (hop : OpQ Q env op) (hc : Clean Q st)
    (h : st.step true env op = some st') : Clean Q st' := by
  cases op with
  | start l =>
    cases h
    exact ⟨hc.nodes, by intro p hp; simp only [List.mem_singleton] at hp; subst hp; exact hQ⟩
  | clearLine l =>
    simp only [Store.step] at h
    split at h
    · split at h
      · simp at h
      · rename_i top rest hst
        cases h
        refine ⟨?_, hc.stack⟩
        intro i t ht
        have ht : t ∈ (if i = st.index l then [{ id := st.next, start := 0, stop := -1, special := false, pay := top }] else st.slots i) := ht
        split at ht
        · simp only [List.mem_singleton] at ht
          subst ht
          intro _
          exact hc.stack top (by rw [hst]; simp)
        · exact hc.nodes i t ht
    · cases h; exact hc
  | region l s e r =>
    simp only [Store.step] at h
    split at h
    · split at h
      · simp at h
      · refine addLine_q st st' l _ h hc ?_
        intro hx
        have hx : env.isSpecial r = false := hx
        rcases hop with hop | hop
        · rw [hop] at hx; simp at hx
        · exact hop
    · cases h; exact hc
  | enter l s e r sch =>
    have key : ∀ (stk : List (Payload RD)) (pay : Payload RD), st.stack = stk → pay.region = r → Clean Q { st with stack := pay :: stk } := by
      intro stk pay h1 h2
      refine ⟨hc.nodes, ?_⟩
      intro p hp
      rcases List.mem_cons.1 hp with rfl | hp
      · rw [h2]; exact hop
      · exact hc.stack p (by rw [h1]; exact hp)
    simp only [Store.step] at h
    split at h
    · simp at h
    · have k1 := key st.stack ⟨r, some sch, resolve env r (st.stack.headD ⟨none, none, none⟩)⟩ rfl rfl
      split at h
      · split at h
        · cases h; exact k1
        · split at h
          · simp at h
          · rename_i st2 hf
            have k2 := setFlowEnd_q _ _ _ hf k1
            refine addLine_q _ st' l _ h ⟨k2.nodes, k2.stack⟩ ?_
            intro _
            exact hop
      · cases h; exact k1
  | leave l s e r sch =>
    simp only [Store.step] at h
    split at h
    · simp at h
    · simp at h
    · rename_i old top rest hst
      have k1 : Clean Q { st with stack := top :: rest } :=
        ⟨hc.nodes, fun p hp => hc.stack p (by rw [hst]; exact List.mem_cons_of_mem _ hp)⟩
      split at h
      · split at h
        · cases h; exact k1
        · split at h
          · simp at h
          · rename_i st2 hf
            have k2 := setFlowEnd_q _ _ _ hf k1
            refine addLine_q _ st' l _ h ⟨k2.nodes, k2.stack⟩ ?_
            intro _
            exact hc.stack top (by rw [hst]; simp)
      · cases h; exact k1
  | setFirst f => cases h; exact ⟨hc.nodes, hc.stack⟩
  | resize n =>
    cases h
    refine ⟨?_, hc.stack⟩
    intro i t ht
    have ht : t ∈ (if i < st.n then st.slots i else []) := ht
    split at ht
    · exact hc.nodes i t ht
    · simp at ht
  | clear =>
    cases h
    exact ⟨by intro i t ht; simp at ht, hc.stack⟩

theorem run_clean (env : Env RD) (hQ : Q none) (ops : List Op) : ∀ (st st' : Store RD), (∀ op ∈ ops, OpQ Q env op) → Clean Q st →
    st.run true env ops = some st' → Clean Q st' := by
  induction ops with
  | nil => intro st st' _ hc h; cases h; exact hc
  | cons op ops ih =>
    intro st st' hop hc h
    rw [Store.run, Option.bind_eq_some_iff] at h
    obtain ⟨st1, h1, h2⟩ := h
    exact ih st1 st' (fun o ho => hop o (by simp [ho])) (step_clean env hQ st st1 op (hop op (by simp)) hc h1) h2

end Verif.LineRegions
