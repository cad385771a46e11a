import Verif.Viewer.Props
import Verif.LineRegions.Props
/-!
# C06 for the regions the compact store really produces

The writers of Verif.Viewer on the lists of Verif.LineRegions.
-/
namespace Verif.Viewer
open Verif.LineRegions Verif.LineRegions.Spec
open Verif.Strings (Str)

/-- all columns of a node are at most `N` -/
def ColLe (N : Int) (t : LR RD) : Prop := t.start ≤ N ∧ t.stop ≤ N

section Bound
variable {RD : Type} {N : Int}

theorem dropZero_sub (pre : List (LR RD)) : ∀ t ∈ dropZero pre, t ∈ pre := by
  intro t ht
  unfold dropZero at ht
  simp only at ht
  have h1 : ∀ (l : List (LR RD)) (t : LR RD), t ∈ l.dropLast → t ∈ l := fun l t h => List.dropLast_subset l h
  grind

theorem prevCheck_le (ladd : LR RD) (pre post : List (LR RD)) (flow next : Nat) (h0 : ColLe N ladd)
    (h1 : ∀ t ∈ pre, ColLe N t) (h2 : ∀ t ∈ post, ColLe N t) :
    (∀ t ∈ (prevCheck ladd pre post flow next).pre, ColLe N t) ∧ ∀ t ∈ (prevCheck ladd pre post flow next).post, ColLe N t := by
  unfold prevCheck
  split
  · exact ⟨h1, h2⟩
  · rename_i p hp
    have hpm : p ∈ pre := List.mem_of_getLast? hp
    have hP := h1 p hpm
    have ht : ∀ t ∈ dropZero (pre.dropLast ++ [{ p with stop := ladd.start }]), ColLe N t := by
      intro t ht
      have := dropZero_sub _ t ht
      rcases List.mem_append.1 this with h | h
      · exact h1 t (List.dropLast_subset _ h)
      · simp only [List.mem_singleton] at h
        subst h
        exact ⟨hP.1, h0.1⟩
    split
    · simp only
      split
      · refine ⟨ht, ?_⟩
        intro t h
        rcases List.mem_cons.1 h with h | h
        · subst h; exact ⟨h0.2, hP.2⟩
        · exact h2 t h
      · exact ⟨ht, h2⟩
    · exact ⟨h1, h2⟩

theorem fwd_le (ladd : LR RD) (h0 : ColLe N ladd) (l : List (LR RD)) :
    ∀ kept, (∀ t ∈ kept, ColLe N t) → (∀ t ∈ l, ColLe N t) → ∀ t ∈ fwd ladd kept l, ColLe N t := by
  induction l with
  | nil => intro kept h1 _; rw [fwd]; exact h1
  | cons n r ih =>
    intro kept h1 h2
    have hn := h2 n (by simp)
    have hr : ∀ t ∈ r, ColLe N t := fun t ht => h2 t (by simp [ht])
    rw [fwd]
    split
    · refine ih _ ?_ hr
      intro t ht
      rcases List.mem_append.1 ht with h | h
      · exact h1 t h
      · simp only [List.mem_singleton] at h; subst h; exact hn
    · have hn' : ColLe N (if (n.stop = -1 ∨ n.stop > ladd.stop) ∧ ladd.stop ≠ -1 ∧ n.start < ladd.stop
          then { n with start := ladd.stop } else n) := by
        split
        · exact ⟨h0.2, hn.2⟩
        · exact hn
      simp only
      generalize (if (n.stop = -1 ∨ n.stop > ladd.stop) ∧ ladd.stop ≠ -1 ∧ n.start < ladd.stop
          then { n with start := ladd.stop } else n) = n' at hn' ⊢
      split
      · exact ih _ (by simp) hr
      · refine ih _ ?_ hr
        intro t ht
        rcases List.mem_append.1 ht with h | h
        · exact h1 t h
        · simp only [List.mem_singleton] at h
          subst h
          exact hn'

theorem findPosGo_sub (ladd : LR RD) (l : List (LR RD)) :
    ∀ pre a b, findPosGo ladd pre l = some (a, b) → ∀ t, t ∈ a ∨ t ∈ b → t ∈ pre ∨ t ∈ l := by
  induction l with
  | nil => intro pre a b h; simp [findPosGo] at h
  | cons n r ih =>
    intro pre a b h t ht
    rw [findPosGo.eq_def] at h
    simp only at h
    split at h
    · simp only [Option.some.injEq, Prod.mk.injEq] at h
      obtain ⟨rfl, rfl⟩ := h
      exact ht
    · split at h
      · split at h
        · simp only [Option.some.injEq, Prod.mk.injEq] at h
          obtain ⟨rfl, rfl⟩ := h
          grind
        · simp at h
      · split at h
        · simp only [Option.some.injEq, Prod.mk.injEq] at h
          obtain ⟨rfl, rfl⟩ := h
          grind
        · have := ih _ _ _ h t ht
          grind

theorem compactAdd_le (ladd : LR RD) (l : List (LR RD)) (flow next : Nat) (r : AddRes RD) (h0 : ColLe N ladd)
    (hl : ∀ t ∈ l, ColLe N t) (h : compactAdd ladd l flow next = some r) : ∀ t ∈ r.list, ColLe N t := by
  unfold compactAdd at h
  split at h
  · simp only [Option.some.injEq] at h
    subst h
    intro t ht
    rcases List.mem_append.1 ht with h | h
    · exact hl t h
    · simp only [List.mem_singleton] at h; subst h; exact h0
  · split at h
    · simp only [Option.some.injEq] at h
      subst h
      intro t ht
      simp only [List.mem_singleton] at ht; subst ht; exact h0
    · rename_i x y
      split at h
      · simp at h
      · rename_i pre post hfp
        simp only [Option.some.injEq] at h
        subst h
        have hsub : ∀ t, t ∈ pre ∨ t ∈ post → t ∈ x :: y := by
          intro t ht
          rw [findPos.eq_def] at hfp
          simp only at hfp
          split at hfp
          · simp only [Option.some.injEq, Prod.mk.injEq] at hfp
            obtain ⟨rfl, rfl⟩ := hfp
            grind
          · have := findPosGo_sub ladd _ _ _ _ hfp t ht
            grind
        have hp := prevCheck_le ladd pre post flow next h0 (fun t ht => hl t (hsub t (Or.inl ht)))
          (fun t ht => hl t (hsub t (Or.inr ht)))
        intro t ht
        simp only [List.mem_append, List.mem_cons] at ht
        rcases ht with ht | ht | ht
        · exact hp.1 t ht
        · subst ht; exact h0
        · exact fwd_le ladd h0 _ [] (by simp) hp.2 t ht

/-- the columns an event reports for line `L` are at most `N` -/
def OpLe (L : Nat) (N : Int) : Op → Prop
  | .region M s e _ => M = L → s ≤ N ∧ e ≤ N
  | .enter M s _ _ _ => M = L → s ≤ N
  | .leave M _ e _ _ => M = L → e ≤ N
  | _ => True

/-- the invariant -/
def BInv (st : Store RD) (sp : SpecSt RD) (L : Nat) (N : Int) : Prop :=
  ∀ p, sp.pics L = some p → ∀ t ∈ st.slots (L % st.n), ColLe N t

theorem addLine_le {st st' : Store RD} {L M : Nat} {ladd : LR RD} (hM : inWin st.first st.n M)
    (h0 : M = L → ColLe N ladd) (hL : inWin st.first st.n L) (hl : ∀ t ∈ st.slots (L % st.n), ColLe N t)
    (h : st.addLine true M ladd = some st') :
    st'.n = st.n ∧ ∀ t ∈ st'.slots (L % st.n), ColLe N t := by
  unfold Store.addLine at h
  simp only [if_true] at h
  split at h
  · simp at h
  · rename_i r hr
    simp only [Option.some.injEq] at h
    subst h
    refine ⟨rfl, ?_⟩
    simp only [setSlot, index_eq st M hM] at hr ⊢
    intro t ht
    split at ht
    · rename_i e
      have hML : M = L := (mod_inj hL hM e).symm
      subst hML
      exact compactAdd_le ladd _ _ _ r (h0 rfl) hl hr t ht
    · exact hl t ht

theorem setFlowEnd_le {st st' : Store RD} {L M : Nat} {e : Int} (h0 : M = L → e ≤ N) (hL : inWin st.first st.n L)
    (hM : inWin st.first st.n M) (fl : Nat) (hflow : st.flow = some (M % st.n, fl)) (hl : ∀ t ∈ st.slots (L % st.n), ColLe N t)
    (h : st.setFlowEnd e = some st') :
    st'.n = st.n ∧ st'.first = st.first ∧ ∀ t ∈ st'.slots (L % st.n), ColLe N t := by
  unfold Store.setFlowEnd at h
  rw [hflow] at h
  simp only at h
  split at h
  · simp only [Option.some.injEq] at h
    subst h
    refine ⟨rfl, rfl, ?_⟩
    simp only [setSlot]
    intro t ht
    split at ht
    · rename_i e'
      have hML : M = L := (mod_inj hL hM e').symm
      subst hML
      obtain ⟨u, hu, rfl⟩ := List.mem_map.1 ht
      have := hl u hu
      split
      · exact ⟨this.1, h0 rfl⟩
      · exact this
    · exact hl t ht
  · simp at h

theorem scheme_le {st st2 st' : Store RD} {L M : Nat} {s : Int} {pay : Payload RD} {fl : Nat} (h0 : M = L → s ≤ N)
    (hN : 0 ≤ N) (hL : inWin st.first st.n L)
    (hM : inWin st.first st.n M) (hflow : st.flow = some (M % st.n, fl)) (hl : ∀ t ∈ st.slots (L % st.n), ColLe N t)
    (h : st.setFlowEnd s = some st2)
    (h' : ({ st2 with flow := some (st2.index M, st2.next) } : Store RD).addLine true M
        { id := st2.next, start := s, stop := -1, special := false, pay := pay } = some st') :
    st'.n = st.n ∧ ∀ t ∈ st'.slots (L % st.n), ColLe N t := by
  obtain ⟨e1, e2, e3⟩ := setFlowEnd_le h0 hL hM fl hflow hl h
  have := addLine_le (N := N) (L := L) (st := { st2 with flow := some (st2.index M, st2.next) }) (M := M)
    (by simpa only [e1, e2] using hM) (fun hml => ⟨h0 hml, by show (-1 : Int) ≤ N; omega⟩) (by simpa only [e1, e2] using hL)
    (by simpa only [e1] using e3) h'
  simpa only [e1] using this

theorem step_le (env : Env RD) (st st' : Store RD) (sp sp' : SpecSt RD) (op : Op) (L : Nat) (hN : 0 ≤ N) (hr : Rel st sp)
    (hop : OpLe L N op) (hs : specStep env sp op = some sp') (h : st.step true env op = some st') (hb : BInv st sp L N) :
    BInv st' sp' L N := by
  cases op with
  | start l =>
    simp only [specStep, Option.some.injEq] at hs
    simp only [Store.step, Option.some.injEq] at h
    subst hs h
    exact hb
  | setFirst f =>
    simp only [specStep, Option.some.injEq] at hs
    simp only [Store.step, Option.some.injEq] at h
    subst hs h
    intro p hp
    simp only at hp
    split at hp
    · exact hb p hp
    · simp at hp
  | resize n =>
    simp only [specStep, Option.some.injEq] at hs
    subst hs
    intro p hp
    simp at hp
  | clear =>
    simp only [specStep, Option.some.injEq] at hs
    subst hs
    intro p hp
    simp at hp
  | clearLine M =>
    simp only [specStep] at hs
    split at hs
    · simp at hs
    · rename_i bg rest hstk
      simp only [Option.some.injEq] at hs
      subst hs
      simp only [Store.step] at h
      split at h
      · rename_i hw
        rw [inWindow_iff] at hw
        split at h
        · simp at h
        · simp only [Option.some.injEq] at h
          subst h
          intro p hp t ht
          simp only [setSlot, index_eq st M hw] at ht
          simp only at hp
          split at ht
          · simp only [List.mem_singleton] at ht
            subst ht
            exact ⟨hN, by show (-1 : Int) ≤ N; omega⟩
          · rename_i hne
            split at hp
            · rename_i hc
              rw [hc.1] at hne
              exact absurd rfl hne
            · exact hb p hp t ht
      · rename_i hw
        rw [Bool.not_eq_true, inWindow_false] at hw
        simp only [Option.some.injEq] at h
        subst h
        intro p hp
        simp only at hp
        rw [hr.n, hr.first] at hw
        rw [if_neg (fun hc => hw hc.2)] at hp
        exact hb p hp
  | region M s e r =>
    simp only [specStep] at hs
    split at hs
    · simp at hs
    · split at hs
      · rename_i hc
        simp only [Option.some.injEq] at hs
        subst hs
        simp only [Store.step] at h
        split at h
        · rename_i hw
          rw [inWindow_iff] at hw
          split at h
          · simp at h
          · intro p hp
            simp only [SpecSt.draw] at hp
            obtain ⟨q, hq⟩ : ∃ q, sp.pics L = some q := by
              split at hp
              · simp only [Option.map_eq_some_iff] at hp
                obtain ⟨q, hq, _⟩ := hp
                exact ⟨q, hq⟩
              · exact ⟨p, hp⟩
            have hLw := (hr.pics L q hq).1
            rw [← hr.n, ← hr.first] at hLw
            have := addLine_le (N := N) (L := L) hw (fun hml => ⟨(hop hml).1, (hop hml).2⟩) hLw (hb q hq) h
            rw [this.1]
            exact this.2
        · rename_i hw
          rw [Bool.not_eq_true, inWindow_false, hr.n, hr.first] at hw
          simp only [Option.some.injEq] at h
          subst h
          rw [draw_out sp M _ hw]
          exact hb
      · simp at hs
  | enter M s e r sch =>
    simp only [specStep] at hs
    split at hs
    · simp at hs
    · rename_i bg rest hstk
      split at hs
      · rename_i hc
        simp only [Option.some.injEq] at hs
        subst hs
        simp only [Store.step] at h
        rw [hr.stack, hstk] at h
        split at h
        · simp at h
        · rename_i heq
          split at h
          · rename_i hw
            rw [inWindow_iff] at hw
            split at h
            · simp only [Option.some.injEq] at h
              subst h
              intro p hp
              simp only [Option.isSome_none, Bool.false_eq_true, if_false] at hp
              exact hb p hp
            · split at h
              · simp at h
              · rename_i st2 hst2
                intro p hp
                simp only [Option.isSome_some, if_true, SpecSt.draw] at hp
                obtain ⟨q, hq⟩ : ∃ q, sp.pics L = some q := by
                  split at hp
                  · simp only [Option.map_eq_some_iff] at hp
                    obtain ⟨q, hq, _⟩ := hp
                    exact ⟨q, hq⟩
                  · exact ⟨p, hp⟩
                have hLw := (hr.pics L q hq).1
                have hw2 := hw
                rw [hr.n, hr.first] at hw2
                obtain ⟨_, fl, _, _, hfl⟩ := hr.cur M hc.1 hw2
                rw [← hr.n, ← hr.first] at hLw
                have := scheme_le (N := N) (L := L) (M := M) (fl := fl) (fun hml => hop hml) hN (by exact hLw) (by exact hw)
                  (by exact hfl) (by exact hb q hq) hst2 h
                rw [this.1]
                exact this.2
          · rename_i hw
            rw [Bool.not_eq_true, inWindow_false, hr.n, hr.first] at hw
            simp only [Option.some.injEq] at h
            subst h
            intro p hp
            simp only [draw_out sp M _ hw, ite_self] at hp
            exact hb p hp
      · simp at hs
  | leave M s e r sch =>
    simp only [specStep] at hs
    split at hs
    · rename_i old bg rest hstk
      split at hs
      · rename_i hc
        simp only [Option.some.injEq] at hs
        subst hs
        simp only [Store.step] at h
        rw [hr.stack, hstk] at h
        simp only at h
        split at h
        · rename_i hw
          rw [inWindow_iff] at hw
          split at h
          · rename_i hnone
            simp only [Option.some.injEq] at h
            subst h
            intro p hp
            simp only [hnone, Option.isSome_none, Bool.false_eq_true, if_false] at hp
            exact hb p hp
          · rename_i r0 hsome
            split at h
            · simp at h
            · rename_i st2 hst2
              intro p hp
              simp only [hsome, Option.isSome_some, if_true, SpecSt.draw] at hp
              obtain ⟨q, hq⟩ : ∃ q, sp.pics L = some q := by
                split at hp
                · simp only [Option.map_eq_some_iff] at hp
                  obtain ⟨q, hq, _⟩ := hp
                  exact ⟨q, hq⟩
                · exact ⟨p, hp⟩
              have hLw := (hr.pics L q hq).1
              have hw2 := hw
              rw [hr.n, hr.first] at hw2
              obtain ⟨_, fl, _, _, hfl⟩ := hr.cur M hc.1 hw2
              rw [← hr.n, ← hr.first] at hLw
              have := scheme_le (N := N) (L := L) (M := M) (fl := fl) (fun hml => hop hml) hN (by exact hLw) (by exact hw)
                (by exact hfl) (by exact hb q hq) hst2 h
              rw [this.1]
              exact this.2
        · rename_i hw
          rw [Bool.not_eq_true, inWindow_false, hr.n, hr.first] at hw
          simp only [Option.some.injEq] at h
          subst h
          intro p hp
          simp only [draw_out sp M _ hw, ite_self] at hp
          exact hb p hp
      · simp at hs
    · simp at hs

theorem run_le (env : Env RD) (ops : List Op) (L : Nat) (hN : 0 ≤ N) :
    ∀ (st : Store RD) (sp sp' : SpecSt RD), Rel st sp → (∀ op ∈ ops, OpLe L N op) → specRun env sp ops = some sp' →
      BInv st sp L N → ∃ st', st.run true env ops = some st' ∧ Rel st' sp' ∧ BInv st' sp' L N := by
  induction ops with
  | nil =>
    intro st sp sp' hr _ hs hb
    simp only [specRun, Option.some.injEq] at hs
    subst hs
    exact ⟨st, rfl, hr, hb⟩
  | cons op ops ih =>
    intro st sp sp' hr hop hs hb
    simp only [specRun] at hs
    cases h1 : specStep env sp op with
    | none => simp [h1] at hs
    | some sp1 =>
      rw [h1, Option.bind_some] at hs
      obtain ⟨st1, e1, e2⟩ := step_rel env st sp sp1 op hr h1
      have hb1 := step_le env st st1 sp sp1 op L hN hr (hop op (by simp)) h1 e1 hb
      obtain ⟨st', e3, e4⟩ := ih st1 sp1 sp' e2 (fun o ho => hop o (by simp [ho])) hs hb1
      exact ⟨st', by rw [Store.run, e1, Option.bind_some, e3], e4⟩

end Bound

/-- a node of the store as the writers see it; `names` gives a region's names (its own and its ancestors'), `sname` a scheme's -/
def toReg (names : Nat → Str × List Str) (sname : Nat → Str) (t : LR Def) : Reg :=
  { start := t.start, stop := t.stop, special := t.special, region := t.pay.region.map names, rdef := t.pay.rdef,
    scheme := t.pay.scheme.map sname }

theorem inOrder_special (line : Str) (shown : Reg → Bool) (names : Nat → Str × List Str) (sname : Nat → Str)
    (hsp : ∀ r, r.special = true → shown r = false) (l : List (LR Def)) (h : ∀ t ∈ l, t.special = true) (pos : Int) (h0 : 0 ≤ pos)
    (h1 : pos ≤ line.length) : InOrder line shown pos (l.map (toReg names sname)) := by
  induction l with
  | nil => exact ⟨h0, h1⟩
  | cons t r ih =>
    rw [List.map_cons, InOrder, if_neg]
    · exact ih (fun u hu => h u (by simp [hu]))
    · have := hsp (toReg names sname t) (h t (by simp))
      simp [this]

theorem inOrder_tile (line : Str) (shown : Reg → Bool) (names : Nat → Str × List Str) (sname : Nat → Str)
    (hsp : ∀ r, r.special = true → shown r = false) (spl : List (LR Def)) (hspl : ∀ t ∈ spl, t.special = true)
    (ns : List (LR Def)) : ∀ (a pos : Int), Tile a ns → (∀ t ∈ ns, ColLe (line.length : Int) t) → 0 ≤ pos → pos ≤ a →
      InOrder line shown pos ((ns ++ spl).map (toReg names sname)) := by
  induction ns with
  | nil => intro a pos h; exact absurd h (by simp [Tile])
  | cons t r ih =>
    intro a pos h hb h0 hp
    have ht := hb t (by simp)
    have hst : (toReg names sname t).start = t.start := rfl
    have hso : (toReg names sname t).stop = t.stop := rfl
    rw [List.cons_append, List.map_cons, InOrder, hst, hso]
    cases r with
    | nil =>
      obtain ⟨h1, h2, h3⟩ := h
      have hs : stopOf line (toReg names sname t) = line.length := by
        unfold stopOf
        rw [hso, if_pos h3]
      have hle := ht.1
      split
      · rw [hs]
        refine ⟨h0, by omega, by omega, by omega, ?_⟩
        exact inOrder_special line shown names sname hsp spl hspl _ (by omega) (by omega)
      · exact inOrder_special line shown names sname hsp spl hspl _ h0 (by omega)
    | cons u v =>
      obtain ⟨h1, h2, h3, h4⟩ := h
      have hs : stopOf line (toReg names sname t) = t.stop := by
        unfold stopOf
        rw [hso, if_neg (by omega)]
      have hle := ht.2
      have hb' : ∀ t ∈ u :: v, ColLe (line.length : Int) t := fun x hx => hb x (by simp only [List.mem_cons] at hx ⊢; exact Or.inr hx)
      split
      · rw [hs]
        exact ⟨h0, by omega, by omega, by omega, ih t.stop t.stop h4 hb' (by omega) (by omega)⟩
      · exact ih t.stop pos h4 hb' h0 (by omega)

/-- Whatever legal history of events, as long as the events for line `L` lie inside its text, the regions the compact store
returns for that line are in order inside the line. -/
theorem store_inOrder (env : Env Def) (ops : List Op) (sp : SpecSt Def) (hs : specRun env SpecSt.init ops = some sp)
    (L : Nat) (p : Picture Def) (hp : sp.pics L = some p) (line : Str) (hcol : ∀ op ∈ ops, OpLe L line.length op)
    (names : Nat → Str × List Str) (sname : Nat → Str) :
    ∃ st, Store.init.run true env ops = some st ∧ ∀ shown : Reg → Bool, (∀ r, r.special = true → shown r = false) →
      InOrder line shown 0 ((st.lineRegions L).map (toReg names sname)) := by
  obtain ⟨st, h1, h2, h3⟩ := run_le (N := (line.length : Int)) env ops L (by omega) Store.init SpecSt.init sp init_rel hcol hs
    (by intro q hq; simp [SpecSt.init] at hq)
  refine ⟨st, h1, ?_⟩
  intro shown hsp
  obtain ⟨hw, fl, ⟨ns, spl, e1, e2, e3, e4, e5⟩⟩ := h2.pics L p hp
  have hw' : inWin st.first st.n L := by rw [h2.n, h2.first]; exact hw
  have hl : st.lineRegions L = ns ++ spl := by
    rw [Store.lineRegions, if_pos ((inWindow_iff st L).2 hw'), index_eq st L hw', e1]
  rw [hl]
  refine inOrder_tile line shown names sname hsp spl (fun t ht => (e3 t ht).1) ns 0 0 e2.tile ?_ (by omega) (by omega)
  intro t ht
  exact h3 p hp t (by rw [e1]; simp [ht])

/-- C06 (end to end): after any legal history of region events whose columns for line `L` lie inside its text, writing the
line with the regions the compact store returns produces exactly the text of the line, in all three formats. -/
theorem C06_written_text_is_the_line (env : Env Def) (ops : List Op) (sp : SpecSt Def)
    (hs : specRun env SpecSt.init ops = some sp) (L : Nat) (p : Picture Def) (hp : sp.pics L = some p) (line : Str)
    (hcol : ∀ op ∈ ops, OpLe L line.length op) (names : Nat → Str × List Str) (sname : Nat → Str) :
    ∃ st, Store.init.run true env ops = some st ∧
      (∃ out, tokenWrite line ((st.lineRegions L).map (toReg names sname)) = .ok out ∧ textOf out = line) ∧
      ((∀ t ∈ st.lineRegions L, ∀ s, t.pay.rdef ≠ some (.styled s)) →
        ∃ out, markupWrite line ((st.lineRegions L).map (toReg names sname)) = .ok out ∧ textOf out = line) ∧
      (∀ links, (∀ t ∈ st.lineRegions L, ∀ s, t.pay.rdef ≠ some (.texted s)) →
        ∃ out, htmlRGBWrite links line ((st.lineRegions L).map (toReg names sname)) = .ok out ∧ textOf out = line) := by
  obtain ⟨st, h1, h2⟩ := store_inOrder env ops sp hs L p hp line hcol names sname
  refine ⟨st, h1, ?_, ?_, ?_⟩
  · obtain ⟨out, a, b, _⟩ := C06_tokenWrite line _ (h2 (fun r => !(r.special || r.region.isNone)) (by intro r hr; simp [hr]))
    exact ⟨out, a, b⟩
  · intro hk
    obtain ⟨out, a, b, _⟩ := C06_markupWrite line _ (h2 (fun r => !(r.special || r.rdef.isNone)) (by intro r hr; simp [hr])) (by
      intro r hr s
      obtain ⟨t, ht, rfl⟩ := List.mem_map.1 hr
      exact hk t ht s)
    exact ⟨out, a, b⟩
  · intro links hk
    obtain ⟨out, a, b, _⟩ := C06_htmlRGBWrite links line _ (h2 (fun r => !(r.special || r.rdef.isNone)) (by intro r hr; simp [hr])) (by
      intro r hr s
      obtain ⟨t, ht, rfl⟩ := List.mem_map.1 hr
      exact hk t ht s)
    exact ⟨out, a, b⟩

/-- a line of seven characters with a region on columns 2..5 and a scheme entered at 1 -/
def demoOps : List Op := [.resize 4, .start 0, .clearLine 0, .enter 0 1 1 (some 7) 3, .region 0 2 5 8]
def demoEnv : Env Def := ⟨none, fun a _ => a, fun _ => false, none⟩

/-- non-vacuity of C06 -/
example : (specRun demoEnv SpecSt.init demoOps).isSome ∧ (∀ op ∈ demoOps, OpLe 0 7 op) ∧
    (((specRun demoEnv SpecSt.init demoOps).map fun sp => (sp.pics 0).isSome) = some true) := by
  refine ⟨by rfl, ?_, by rfl⟩
  intro op hop
  simp only [demoOps, List.mem_cons, List.not_mem_nil, or_false] at hop
  rcases hop with rfl | rfl | rfl | rfl | rfl <;> simp [OpLe]

/-- C06, false when a region ends beyond the line: a character outside the line is read. -/
theorem C06_violated_beyond_line_end : tokenWrite [97, 98] [⟨1, 3, false, some ([120], []), none, none⟩] = .error .outside := by
  rfl

end Verif.Viewer
