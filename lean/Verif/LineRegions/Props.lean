import Verif.LineRegions.Refine
/-!
# Property theorems C01–C05 (compact line region store)

`ops` is any sequence of calls on a fresh store that is legal according to `Spec.specStep`; `sp.pics L` is
the picture (layers and special list) the caller described for line `L` if the line is in the window.
-/
namespace Verif.LineRegions
open Spec
variable {RD : Type}

/-- A list of regions as promised by `BaseEditor::setRegionCompact` : ordinary regions first, sorted, pairwise
disjoint, only the last may be open ended, specials after them. -/
structure Compact (l : List (LR RD)) : Prop where
  order : l = l.filter (fun t => !t.special) ++ l.filter (fun t => t.special)
  bounds : ∀ t ∈ l, t.special = false → 0 ≤ t.start ∧ (t.start ≤ t.stop ∨ t.stop = -1)
  disjoint : (l.filter (fun t => !t.special)).Pairwise (fun a b => a.stop ≠ -1 ∧ a.stop ≤ b.start)

theorem Seg.disj {a b : Int} {l : List (LR RD)} (h : Seg a b l) :
    l.Pairwise (fun a b => a.stop ≠ -1 ∧ a.stop ≤ b.start) := by
  induction l generalizing a with
  | nil => simp
  | cons t r ih =>
    obtain ⟨h1, h2, h3, h4⟩ := h
    refine List.Pairwise.cons ?_ (ih h4)
    intro u hu
    have := h4.mem_ge u hu
    omega

theorem Tile.disj {a : Int} {l : List (LR RD)} (h : Tile a l) :
    l.Pairwise (fun a b => a.stop ≠ -1 ∧ a.stop ≤ b.start) := by
  induction l generalizing a with
  | nil => simp
  | cons t r ih =>
    cases r with
    | nil => simp
    | cons v w =>
      obtain ⟨h1, h2, h3, h4⟩ := h
      refine List.Pairwise.cons ?_ (ih h4)
      intro u hu
      have := h4.mem_ge u hu
      omega

theorem Tile.bounds {a : Int} {l : List (LR RD)} (h : Tile a l) :
    ∀ t ∈ l, 0 ≤ t.start ∧ (t.start ≤ t.stop ∨ t.stop = -1) := by
  induction l generalizing a with
  | nil => simp
  | cons t r ih =>
    intro u hu
    cases r with
    | nil => obtain ⟨h1, h2, h3⟩ := h; simp only [List.mem_singleton] at hu; subst hu; omega
    | cons v w =>
      obtain ⟨h1, h2, h3, h4⟩ := h
      rcases List.mem_cons.1 hu with rfl | hu
      · omega
      · exact ih h4 u hu

theorem filter_parts {ns sp : List (LR RD)} (h1 : ∀ t ∈ ns, t.special = false) (h2 : ∀ t ∈ sp, t.special = true) :
    (ns ++ sp).filter (fun t => !t.special) = ns ∧ (ns ++ sp).filter (fun t => t.special) = sp := by
  constructor
  · rw [List.filter_append, List.filter_eq_self.2 (by intro t ht; simp [h1 t ht]),
      List.filter_eq_nil_iff.2 (by intro t ht; simp [h2 t ht])]
    simp
  · rw [List.filter_append, List.filter_eq_nil_iff.2 (by intro t ht; simp [h1 t ht]),
      List.filter_eq_self.2 (by intro t ht; simp [h2 t ht])]
    simp

/-- everything about a line in one place -/
theorem run_line (env : Env RD) (ops : List Op) (sp : SpecSt RD)
    (hs : specRun env SpecSt.init ops = some sp) :
    ∃ st, Store.init.run true env ops = some st ∧ ∀ L p, sp.pics L = some p →
      ∃ ns spl, st.lineRegions L = ns ++ spl ∧ Tile 0 ns ∧ (∀ t ∈ ns, t.special = false) ∧
        (∀ t ∈ spl, t.special = true) ∧ (∀ x, 0 ≤ x → paint ns x = p.shown x) ∧
        spl.map (fun t => (t.start, t.stop, t.pay)) = p.specials := by
  obtain ⟨st, h1, h2⟩ := run_rel env ops Store.init SpecSt.init sp init_rel hs
  refine ⟨st, h1, ?_⟩
  intro L p hp
  obtain ⟨hw, fl, ⟨ns, spl, e1, e2, e3, e4, e5⟩⟩ := h2.pics L p hp
  have hw' : inWin st.first st.n L := by rw [h2.n, h2.first]; exact hw
  refine ⟨ns, spl, ?_, e2.tile, e2.nonspec, fun t ht => (e3 t ht).1, e4, e5⟩
  rw [Store.lineRegions, if_pos ((inWindow_iff st L).2 hw'), index_eq st L hw', e1]

/-- **C01** For every legal history of calls the store never reaches undefined behaviour and the list returned
for every reported line of the window is compact: sorted, non-overlapping, specials last. -/
theorem C01_compact_regions_never_overlap (env : Env RD) (ops : List Op) (sp : SpecSt RD)
    (hs : specRun env SpecSt.init ops = some sp) :
    ∃ st, Store.init.run true env ops = some st ∧
      ∀ L p, sp.pics L = some p → Compact (st.lineRegions L) := by
  obtain ⟨st, h1, h2⟩ := run_line env ops sp hs
  refine ⟨st, h1, ?_⟩
  intro L p hp
  obtain ⟨ns, spl, e1, e2, e3, e4, _, _⟩ := h2 L p hp
  obtain ⟨f1, f2⟩ := filter_parts e3 e4
  rw [e1]
  refine ⟨by rw [f1, f2], ?_, by rw [f1]; exact e2.disj⟩
  intro t ht hsp
  rcases List.mem_append.1 ht with ht | ht
  · exact e2.bounds t ht
  · rw [e4 t ht] at hsp; simp at hsp

/-- Node `t` is drawn at column `x`. -/
def LR.showsAt (t : LR RD) (x : Int) : Prop :=
  t.special = false ∧ t.start ≤ x ∧ (x < t.stop ∨ t.stop = -1)

/-- **C02** For every legal history, every reported line of the window and every column: some returned region
is drawn there, and every returned region drawn there is the topmost layer the caller reported. -/
theorem C02_compact_regions_paint_like_layers (env : Env RD) (ops : List Op) (sp : SpecSt RD)
    (hs : specRun env SpecSt.init ops = some sp) :
    ∃ st, Store.init.run true env ops = some st ∧
      ∀ L p, sp.pics L = some p → ∀ x, 0 ≤ x →
        (∃ t ∈ st.lineRegions L, t.showsAt x) ∧
        ∀ t ∈ st.lineRegions L, t.showsAt x → p.shown x = some t.pay := by
  obtain ⟨st, h1, h2⟩ := run_line env ops sp hs
  refine ⟨st, h1, ?_⟩
  intro L p hp x hx
  obtain ⟨ns, spl, e1, e2, e3, e4, e5, _⟩ := h2 L p hp
  have hsome := e2.paint_some hx
  constructor
  · simp only [paint, Option.isSome_map] at hsome
    rw [Option.isSome_iff_exists] at hsome
    obtain ⟨t, ht⟩ := hsome
    have hm := List.mem_of_find?_eq_some ht
    have hc := List.find?_some ht
    simp only [LR.covers, Bool.and_eq_true, decide_eq_true_eq, Bool.or_eq_true] at hc
    exact ⟨t, by rw [e1]; simp [hm], e3 t hm, hc⟩
  · intro t ht hsh
    obtain ⟨g1, g2, g3⟩ := hsh
    have hm : t ∈ ns := by
      rw [e1] at ht
      rcases List.mem_append.1 ht with ht | ht
      · exact ht
      · rw [e4 t ht] at g1; simp at g1
    rw [← e5 x hx]
    -- uniqueness of the covering tile
    have key : ∀ (a : Int) (l : List (LR RD)), Tile a l → t ∈ l → paint l x = some t.pay := by
      intro a l
      induction l generalizing a with
      | nil => intro h; simp [Tile] at h
      | cons u r ih =>
        intro h hm
        rcases List.mem_cons.1 hm with rfl | hm
        · have : t.covers x = true := by
            simp only [LR.covers, Bool.and_eq_true, decide_eq_true_eq, Bool.or_eq_true]; exact ⟨g2, g3⟩
          simp [paint, this]
        · cases r with
          | nil => simp at hm
          | cons v w =>
            obtain ⟨k1, k2, k3, k4⟩ := h
            have := k4.mem_ge t hm
            have hu : u.covers x = false := by simp [LR.covers]; omega
            have := ih _ k4 hm
            simpa [paint, hu] using this
    exact key 0 ns e2 hm

/-- **C05** The special regions of a line are returned verbatim: exactly the reported ones, in the reported
order, after all ordinary regions. -/
theorem C05_special_regions_kept (env : Env RD) (ops : List Op) (sp : SpecSt RD)
    (hs : specRun env SpecSt.init ops = some sp) :
    ∃ st, Store.init.run true env ops = some st ∧
      ∀ L p, sp.pics L = some p →
        ((st.lineRegions L).filter (·.special)).map (fun t => (t.start, t.stop, t.pay)) = p.specials ∧
        st.lineRegions L = (st.lineRegions L).filter (fun t => !t.special) ++ (st.lineRegions L).filter (·.special) := by
  obtain ⟨st, h1, h2⟩ := run_line env ops sp hs
  refine ⟨st, h1, ?_⟩
  intro L p hp
  obtain ⟨ns, spl, e1, e2, e3, e4, e5, e6⟩ := h2 L p hp
  obtain ⟨f1, f2⟩ := filter_parts e3 e4
  rw [e1, f1, f2]
  exact ⟨e6, rfl⟩

/-! ## C03: the window -/

/-- **C03** (a) two different lines of the window never share a slot and every slot index is in range. -/
theorem C03_window_lines_do_not_alias (st : Store RD) (L M : Nat) (hL : st.inWindow L = true)
    (hM : st.inWindow M = true) : st.index L < st.n ∧ (st.index L = st.index M → L = M) := by
  rw [inWindow_iff] at hL hM
  have : 0 < st.n := by have := hL.1; have := hL.2; omega
  refine ⟨Nat.mod_lt _ this, ?_⟩
  rw [index_eq st L hL, index_eq st M hM]
  exact mod_inj hL hM

/-- **C03** (b) moving the window keeps the regions of every line that stays inside it. -/
theorem C03_window_move_keeps_lines (c : Bool) (env : Env RD) (st st' : Store RD) (f L : Nat)
    (h : st.step c env (.setFirst f) = some st') (h1 : st.inWindow L = true) (h2 : st'.inWindow L = true) :
    st'.lineRegions L = st.lineRegions L := by
  simp only [Store.step, Option.some.injEq] at h
  subst h
  rw [inWindow_iff] at h1 h2
  rw [Store.lineRegions, Store.lineRegions, if_pos ((inWindow_iff _ L).2 h1), if_pos ((inWindow_iff _ L).2 h2),
    index_eq _ L h1, index_eq _ L h2]

/-- The line an event talks about. -/
def Op.line : Op → Option Nat
  | .clearLine L | .region L _ _ _ | .enter L _ _ _ _ | .leave L _ _ _ _ => some L
  | _ => none

theorem addLine_frame {c : Bool} {st st' : Store RD} {L M : Nat} {ladd : LR RD}
    (h : st.addLine c L ladd = some st') (hL : st.inWindow L = true) (hM : st.inWindow M = true) (hne : L ≠ M) :
    st'.lineRegions M = st.lineRegions M ∧ st'.n = st.n ∧ st'.first = st.first := by
  unfold Store.addLine at h
  simp only at h
  split at h
  · simp at h
  · simp only [Option.some.injEq] at h
    subst h
    refine ⟨?_, rfl, rfl⟩
    have h1 := (C03_window_lines_do_not_alias st L M hL hM).2
    rw [Store.lineRegions, Store.lineRegions]
    have e : ∀ s1 s2 s3 s4, (⟨st.n, st.first, s1, s2, s3, s4⟩ : Store RD).inWindow M = st.inWindow M := fun _ _ _ _ => rfl
    have e2 : ∀ s1 s2 s3 s4, (⟨st.n, st.first, s1, s2, s3, s4⟩ : Store RD).index M = st.index M := fun _ _ _ _ => rfl
    rw [e, e2, hM]
    simp only [if_true, setSlot]
    rw [if_neg (fun he => hne (h1 he.symm))]

theorem setFlowEnd_frame {st st' : Store RD} {e : Int} {i id : Nat} {M : Nat} (hf : st.flow = some (i, id))
    (h : st.setFlowEnd e = some st') (hi : st.inWindow M = true → st.index M ≠ i) :
    st'.lineRegions M = st.lineRegions M ∧ st'.n = st.n ∧ st'.first = st.first := by
  unfold Store.setFlowEnd at h
  simp only [hf] at h
  split at h
  · simp only [Option.some.injEq] at h
    subst h
    refine ⟨?_, rfl, rfl⟩
    rw [Store.lineRegions, Store.lineRegions]
    have e : ∀ s1 s2 s3 s4, (⟨st.n, st.first, s1, s2, s3, s4⟩ : Store RD).inWindow M = st.inWindow M := fun _ _ _ _ => rfl
    have e2 : ∀ s1 s2 s3 s4, (⟨st.n, st.first, s1, s2, s3, s4⟩ : Store RD).index M = st.index M := fun _ _ _ _ => rfl
    rw [e, e2]
    by_cases hw : st.inWindow M = true
    · simp only [hw, if_true, setSlot]
      rw [if_neg (hi hw)]
    · simp [hw]
  · simp at h

/-- **C03** (c) an event for a line outside the window stores nothing and disturbs no stored line. -/
theorem C03_outside_events_ignored (c : Bool) (env : Env RD) (st st' : Store RD) (op : Op) (L : Nat)
    (hop : op.line = some L) (hout : st.inWindow L = false) (h : st.step c env op = some st') :
    st'.slots = st.slots ∧ st'.n = st.n ∧ st'.first = st.first := by
  cases op <;> simp only [Op.line, Option.some.injEq, reduceCtorEq] at hop
  all_goals subst hop
  · simp [Store.step, hout] at h; subst h; exact ⟨rfl, rfl, rfl⟩
  · simp [Store.step, hout] at h; subst h; exact ⟨rfl, rfl, rfl⟩
  · simp only [Store.step, hout] at h
    split at h
    · simp at h
    · simp at h; subst h; exact ⟨rfl, rfl, rfl⟩
  · simp only [Store.step, hout] at h
    split at h
    · simp at h
    · simp at h
    · simp at h; subst h; exact ⟨rfl, rfl, rfl⟩

/-- **C03** (d) in a legal history, what is returned for a reported line of the window is determined by the events
reported for that very line since its clearLine, whatever was reported for other lines:
see `C02_compact_regions_paint_like_layers`, whose picture `sp.pics L` only changes by events of line `L`. -/
theorem C03_picture_changes_only_by_own_events (env : Env RD) (sp sp' : SpecSt RD) (op : Op) (L M : Nat)
    (hop : op.line = some L) (hne : M ≠ L) (h : specStep env sp op = some sp') : sp'.pics M = sp.pics M := by
  cases op <;> simp only [Op.line, Option.some.injEq, reduceCtorEq] at hop
  all_goals subst hop
  all_goals simp only [specStep] at h
  all_goals split at h
  all_goals try split at h
  all_goals try (simp at h; done)
  all_goals simp only [Option.some.injEq] at h
  all_goals subst h
  · simp [hne]
  · simp [SpecSt.draw, hne]
  · simp only; split <;> simp [SpecSt.draw, hne]
  · simp only; split <;> simp [SpecSt.draw, hne]

/-! ## C04: backgrounds -/

/-- A well-nested sequence of scheme events on one line (with any other events of the line in between). -/
inductive Nested (L : Nat) : List Op → Prop
  | nil : Nested L []
  | region (s e : Int) (r : Nat) (ops : List Op) : Nested L ops → Nested L (.region L s e r :: ops)
  | clearLine (M : Nat) (ops : List Op) : Nested L ops → Nested L (.clearLine M :: ops)
  | block (M N : Nat) (s e s' e' : Int) (r r' : Option Nat) (sch sch' : Nat) (ins ops : List Op) :
      Nested L ins → Nested L ops →
      Nested L (.enter M s e r sch :: ins ++ .leave N s' e' r' sch' :: ops)

theorem run_append (c : Bool) (env : Env RD) (st : Store RD) (a b : List Op) :
    st.run c env (a ++ b) = (st.run c env a).bind (fun s => s.run c env b) := by
  induction a generalizing st with
  | nil => rfl
  | cons op ops ih =>
    simp only [List.cons_append, Store.run]
    cases st.step c env op with
    | none => rfl
    | some s => simp [ih]

theorem addLine_stack {c : Bool} {st st' : Store RD} {L : Nat} {ladd : LR RD}
    (h : st.addLine c L ladd = some st') : st'.stack = st.stack := by
  unfold Store.addLine at h
  simp only at h
  split at h
  · simp at h
  · simp only [Option.some.injEq] at h; subst h; rfl

theorem setFlowEnd_stack {st st' : Store RD} {e : Int} (h : st.setFlowEnd e = some st') : st'.stack = st.stack := by
  unfold Store.setFlowEnd at h
  split at h
  · simp at h
  · split at h
    · simp only [Option.some.injEq] at h; subst h; rfl
    · simp at h

theorem enter_stack {c : Bool} {env : Env RD} {st st' : Store RD} {L : Nat} {s e : Int} {r : Option Nat} {sch : Nat}
    (h : st.step c env (.enter L s e r sch) = some st') : ∃ pay, st'.stack = pay :: st.stack := by
  simp only [Store.step] at h
  split at h
  · simp at h
  · refine ⟨⟨r, some sch, resolve env r (st.stack.headD ⟨none, none, none⟩)⟩, ?_⟩
    split at h
    · split at h
      · simp only [Option.some.injEq] at h; subst h; rfl
      · split at h
        · simp at h
        · rename_i h2
          rw [addLine_stack h]
          simpa using setFlowEnd_stack h2
    · simp only [Option.some.injEq] at h; subst h; rfl

theorem leave_stack {c : Bool} {env : Env RD} {st st' : Store RD} {L : Nat} {s e : Int} {r : Option Nat} {sch : Nat}
    (h : st.step c env (.leave L s e r sch) = some st') : ∃ pay, st.stack = pay :: st'.stack := by
  simp only [Store.step] at h
  split at h
  · simp at h
  · simp at h
  · rename_i old top rest hst
    refine ⟨old, ?_⟩
    rw [hst]
    split at h
    · split at h
      · simp only [Option.some.injEq] at h; subst h; rfl
      · split at h
        · simp at h
        · rename_i h2
          rw [addLine_stack h]
          have := setFlowEnd_stack h2
          simp only at this
          simp [this]
    · simp only [Option.some.injEq] at h; subst h; rfl

/-- **C04** After any well-nested sequence of scheme events of any depth (and any other events in between) the
background stack - hence the background used for the rest of the line and for the next line - is the one
that was current before the sequence. -/
theorem C04_background_restored_after_blocks (c : Bool) (env : Env RD) (L : Nat) (ops : List Op) (hN : Nested L ops)
    (st st' : Store RD) (h : st.run c env ops = some st') : st'.stack = st.stack := by
  induction hN generalizing st st' with
  | nil => simp [Store.run] at h; rw [h]
  | region s e r ops _ ih =>
    simp only [Store.run] at h
    cases h1 : st.step c env (.region L s e r) with
    | none => simp [h1] at h
    | some s1 =>
      rw [h1, Option.bind_some] at h
      rw [ih s1 st' h]
      simp only [Store.step] at h1
      split at h1
      · split at h1
        · simp at h1
        · exact addLine_stack h1
      · simp only [Option.some.injEq] at h1; rw [h1]
  | clearLine M ops _ ih =>
    simp only [Store.run] at h
    cases h1 : st.step c env (.clearLine M) with
    | none => simp [h1] at h
    | some s1 =>
      rw [h1, Option.bind_some] at h
      rw [ih s1 st' h]
      simp only [Store.step] at h1
      split at h1
      · split at h1
        · simp at h1
        · simp only [Option.some.injEq] at h1; subst h1; rfl
      · simp only [Option.some.injEq] at h1; rw [h1]
  | block M N s e s' e' r r' sch sch' ins ops _ _ ih1 ih2 =>
    rw [List.cons_append, Store.run] at h
    cases h1 : st.step c env (.enter M s e r sch) with
    | none => simp [h1] at h
    | some s1 =>
      rw [h1, Option.bind_some, run_append] at h
      cases h2 : s1.run c env ins with
      | none => simp [h2] at h
      | some s2 =>
        rw [h2, Option.bind_some, Store.run] at h
        cases h3 : s2.step c env (.leave N s' e' r' sch') with
        | none => simp [h3] at h
        | some s3 =>
          rw [h3, Option.bind_some] at h
          rw [ih2 s3 st' h]
          obtain ⟨p1, e1⟩ := enter_stack h1
          obtain ⟨p2, e2⟩ := leave_stack h3
          have := ih1 s1 s2 h2
          rw [e1, e2] at this
          exact (List.cons.inj this).2

/-- **C04** A scheme without region is transparent: entering or leaving it changes no stored region. -/
theorem C04_transparent_scheme_adds_nothing (c : Bool) (env : Env RD) (st st1 : Store RD) (L : Nat) (s e : Int)
    (sch : Nat) (h : st.step c env (.enter L s e none sch) = some st1) :
    st1.slots = st.slots ∧
    ∀ N s' e' r' sch' st2, st1.step c env (.leave N s' e' r' sch') = some st2 → st2.slots = st.slots := by
  simp only [Store.step] at h
  split at h
  · simp at h
  · have hst : st1.slots = st.slots ∧ ∃ x rest, st1.stack = x :: rest ∧ x.region = none := by
      split at h <;> (simp only [Option.some.injEq] at h; subst h; exact ⟨rfl, _, _, rfl, rfl⟩)
    obtain ⟨e1, x, rest, e2, e3⟩ := hst
    refine ⟨e1, ?_⟩
    intro N s' e' r' sch' st2 h2
    simp only [Store.step, e2] at h2
    split at h2
    · simp at h2
    · simp at h2
    · rename_i old top rest' heq
      obtain ⟨rfl, rfl⟩ := List.cons.inj heq
      rw [e3] at h2
      split at h2 <;> (simp only [Option.some.injEq] at h2; subst h2; exact e1)

/-! ## Concrete cases meeting the hypotheses -/

/-- a small style table used in the examples -/
def exEnv : Env Nat :=
  { mapper := some fun r => if r = 3 then none else some (10 * r)
    assignParent := fun a b => a + b.getD 0
    isSpecial := fun r => r == 9
    background := some 1 }

/-- line 0: a block from column 2 holding a region, a pair region and a nested transparent block; then line 1. -/
def exOps : List Op :=
  [.resize 3, .setFirst 0, .start 0, .clearLine 0, .region 0 0 4 1, .enter 0 2 3 (some 5) 7,
   .region 0 3 6 2, .region 0 3 4 9, .enter 0 4 4 none 8, .region 0 1 5 4, .leave 0 5 5 none 8,
   .leave 0 6 8 (some 5) 7, .clearLine 1, .region 1 0 2 3]

example : (specRun exEnv SpecSt.init exOps).isSome = true := by decide
example : ((specRun exEnv SpecSt.init exOps).bind (·.pics 0)).isSome = true := by decide
/-- the resulting list of line 0 -/
example : ((Store.init.run true exEnv exOps).map fun st => (st.lineRegions 0).map fun t => (t.start, t.stop, t.special, t.pay.region))
    = some [(0, 1, false, some 1), (1, 5, false, some 4), (5, 6, false, some 2), (6, 8, false, some 5),
      (8, -1, false, none), (3, 4, true, some 9)] := by decide +kernel
example : Nested 0 [.enter 0 2 3 (some 5) 7, .region 0 3 6 2, .enter 0 4 4 none 8, .leave 0 5 5 none 8, .leave 0 6 8 (some 5) 7] :=
  Nested.block 0 0 2 3 6 8 (some 5) (some 5) 7 7
    [.region 0 3 6 2, .enter 0 4 4 none 8, .leave 0 5 5 none 8] []
    (.region 3 6 2 [.enter 0 4 4 none 8, .leave 0 5 5 none 8]
      (.block 0 0 4 4 5 5 none none 8 8 [] [] .nil .nil)) .nil

end Verif.LineRegions
