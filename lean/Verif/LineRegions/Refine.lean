import Verif.LineRegions.Lemmas
namespace Verif.LineRegions
open Spec
variable {RD : Type}

/-! ### the ring index -/

theorem index_eq (st : Store RD) (L : Nat) (h : inWin st.first st.n L) : st.index L = L % st.n := by
  unfold Store.index
  obtain ⟨h1, h2⟩ := h
  have hn : 0 < st.n := by omega
  have hd := Nat.div_add_mod st.first st.n
  have : L = (st.first % st.n + L - st.first) + st.n * (st.first / st.n) := by omega
  conv => rhs; rw [this]
  rw [Nat.add_mul_mod_self_left]

theorem mod_inj {f n L M : Nat} (hL : inWin f n L) (hM : inWin f n M) (h : L % n = M % n) : L = M := by
  obtain ⟨h1, h2⟩ := hL
  obtain ⟨h3, h4⟩ := hM
  have e1 := Nat.div_add_mod L n
  have e2 := Nat.div_add_mod M n
  rcases Nat.lt_trichotomy (L / n) (M / n) with hc | hc | hc
  · have : n * (L / n + 1) ≤ n * (M / n) := Nat.mul_le_mul_left _ hc
    rw [Nat.mul_add] at this
    omega
  · rw [hc] at e1; omega
  · have : n * (M / n + 1) ≤ n * (L / n) := Nat.mul_le_mul_left _ hc
    rw [Nat.mul_add] at this
    omega

theorem inWindow_iff (st : Store RD) (L : Nat) : st.inWindow L = true ↔ inWin st.first st.n L := by
  simp [Store.inWindow, inWin]

theorem inWindow_false (st : Store RD) (L : Nat) : st.inWindow L = false ↔ ¬ inWin st.first st.n L := by
  rw [← inWindow_iff]; simp

/-- The line `l` shows the picture `p`. -/
structure LineOk (l : List (LR RD)) (p : Picture RD) (next fl : Nat) : Prop where
  ex : ∃ ns sp, l = ns ++ sp ∧ LineInv ns fl next ∧
    (∀ t ∈ sp, t.special = true ∧ t.id < next ∧ ∀ u ∈ ns, u.id ≠ t.id) ∧
    (∀ x, 0 ≤ x → paint ns x = p.shown x) ∧
    sp.map (fun t => (t.start, t.stop, t.pay)) = p.specials

theorem LineOk.mono {l : List (LR RD)} {p : Picture RD} {next next' fl : Nat} (h : LineOk l p next fl)
    (hn : next ≤ next') : LineOk l p next' fl := by
  obtain ⟨ns, sp, h1, h2, h3, h4, h5⟩ := h
  refine ⟨ns, sp, h1, ⟨h2.tile, h2.nonspec, h2.nodup, ?_, h2.last⟩, ?_, h4, h5⟩
  · intro t ht; have := h2.ids t ht; omega
  · intro t ht; obtain ⟨a, b, c⟩ := h3 t ht; exact ⟨a, by omega, c⟩

structure Rel (st : Store RD) (sp : SpecSt RD) : Prop where
  n : st.n = sp.n
  first : st.first = sp.first
  stack : st.stack = sp.stack
  pics : ∀ L p, sp.pics L = some p → inWin sp.first sp.n L ∧ ∃ fl, LineOk (st.slots (L % st.n)) p st.next fl
  cur : ∀ L, sp.cur = some L → inWin sp.first sp.n L →
    ∃ p fl, sp.pics L = some p ∧ LineOk (st.slots (L % st.n)) p st.next fl ∧ st.flow = some (L % st.n, fl)

theorem resolve_eq (env : Env RD) (r : Option Nat) (top : Payload RD) :
    resolve env r top = styleOn env r top.rdef := by
  unfold resolve styleOn
  cases env.mapper with
  | none => rfl
  | some f =>
    cases r with
    | none => cases h : top.rdef <;> simp
    | some r => cases h : top.rdef <;> cases h2 : f r <;> simp [h2]

/-- frame lemma: one line of the window is replaced -/
theorem Rel.update {st : Store RD} {sp : SpecSt RD} (h : Rel st sp) {L : Nat} (hc : sp.cur = some L)
    (hw : inWin sp.first sp.n L) (l' : List (LR RD)) (next' fl' : Nat) (stk : List (Payload RD))
    (f : Picture RD → Picture RD) (hn : st.next ≤ next')
    (hl : ∀ p, sp.pics L = some p → LineOk l' (f p) next' fl') :
    Rel { st with slots := setSlot st.slots (L % st.n) l', next := next', flow := some (L % st.n, fl'), stack := stk }
        { sp with pics := sp.draw L f, stack := stk } := by
  refine ⟨h.n, h.first, rfl, ?_, ?_⟩
  · intro M p hp
    simp only [SpecSt.draw] at hp
    by_cases hM : M = L
    · subst hM
      rw [if_pos ⟨rfl, hw⟩] at hp
      cases hq : sp.pics M with
      | none => simp [hq] at hp
      | some q =>
        simp [hq] at hp
        subst hp
        refine ⟨hw, fl', ?_⟩
        simp only [setSlot, if_true]
        exact hl q hq
    · rw [if_neg (by simp [hM])] at hp
      obtain ⟨h1, fl, h2⟩ := h.pics M p hp
      refine ⟨h1, fl, ?_⟩
      have : M % st.n ≠ L % st.n := fun he => hM (mod_inj h1 hw (by rw [h.n] at he; exact he))
      simp only [setSlot, if_neg this]
      exact h2.mono hn
  · intro M hM hwM
    rw [hc] at hM
    cases hM
    obtain ⟨p, fl, h1, _, _⟩ := h.cur L hc hw
    refine ⟨f p, fl', ?_, ?_, rfl⟩
    · simp [SpecSt.draw, hw, h1]
    · simp only [setSlot, if_true]; exact hl p h1

theorem draw_out (sp : SpecSt RD) (L : Nat) (f : Picture RD → Picture RD) (h : ¬ inWin sp.first sp.n L) :
    sp.draw L f = sp.pics := by
  funext M
  simp [SpecSt.draw, h]

theorem Rel.stack_only {st : Store RD} {sp : SpecSt RD} (h : Rel st sp) (stk : List (Payload RD)) :
    Rel { st with stack := stk } { sp with stack := stk } :=
  ⟨h.n, h.first, rfl, h.pics, h.cur⟩

theorem shown_cons (y : Layer RD) (ys : List (Layer RD)) (sps) (x : Int) :
    ({ layers := y :: ys, specials := sps } : Picture RD).shown x =
      if y.covers x then some y.pay else ({ layers := ys, specials := sps } : Picture RD).shown x := by
  simp only [Picture.shown, List.find?_cons]
  cases y.covers x <;> simp

/-- the scheme-change step shared by enter and leave -/
theorem scheme_step {st : Store RD} {sp : SpecSt RD} (h : Rel st sp) {L : Nat} (hc : sp.cur = some L)
    (hw : inWin sp.first sp.n L) (s : Int) (hs : 0 ≤ s) (pay : Payload RD) (stk : List (Payload RD)) :
    ∃ st2 st', Store.setFlowEnd { st with stack := stk } s = some st2 ∧
      ({ st2 with flow := some (st2.index L, st2.next) } : Store RD).addLine true L
        { id := st2.next, start := s, stop := -1, special := false, pay := pay } = some st' ∧
      Rel st' { sp with stack := stk, pics := sp.draw L fun p => { p with layers := ⟨s, none, pay⟩ :: p.layers } } := by
  obtain ⟨p, fl, hp, ⟨ns, spl, e1, e2, e3, e4, e5⟩, hfl⟩ := h.cur L hc hw
  have hne : ns ≠ [] := by rintro rfl; have := e2.tile; simp [Tile] at this
  rcases List.eq_nil_or_concat ns with h0 | ⟨B, q, h0⟩
  · exact absurd h0 hne
  rw [List.concat_eq_append] at h0
  subst h0
  have hq : q.id = fl := by simpa using e2.last
  have hnd := e2.nodup
  have hBq : ∀ t ∈ B, t.id ≠ q.id := by
    intro t ht he
    rw [List.map_append, List.nodup_append] at hnd
    exact hnd.2.2 t.id (List.mem_map_of_mem ht) q.id (by simp) he
  have hlt : L % st.n < st.n := Nat.mod_lt _ (by have := h.n; have := hw.1; have := hw.2; omega)
  have hmap : ((st.slots (L % st.n)).map fun t => if t.id = fl then { t with stop := s } else t) =
      B ++ [{ q with stop := s }] ++ spl := by
    rw [e1, List.map_append, List.map_append]
    congr 1
    · congr 1
      · conv => rhs; rw [← List.map_id B]
        apply List.map_congr_left
        intro t ht
        rw [if_neg (by rw [← hq]; exact hBq t ht)]; rfl
      · simp [hq]
    · conv => rhs; rw [← List.map_id spl]
      apply List.map_congr_left
      intro t ht
      have := (e3 t ht).2.2 q (by simp)
      rw [if_neg (by rw [← hq]; exact fun he => this he.symm)]; rfl
  refine ⟨{ st with stack := stk, slots := setSlot st.slots (L % st.n) (B ++ [{ q with stop := s }] ++ spl) }, ?_⟩
  have hidx : Store.index { st with stack := stk, slots := setSlot st.slots (L % st.n) (B ++ [{ q with stop := s }] ++ spl) } L
      = L % st.n := index_eq _ L (by show inWin st.first st.n L; rw [h.n, h.first]; exact hw)
  obtain ⟨ns', f1, f2, f3, f4⟩ := compactAdd_scheme
    { id := st.next, start := s, stop := -1, special := false, pay := pay } q B spl st.next (st.next + 1)
    e2.tile e2.nonspec e2.nodup (fun t ht => by have := e2.ids t ht; omega) (fun t ht => (e3 t ht).1) rfl hs rfl
    (by simp) (fun t ht => by have := e2.ids t ht; simp; omega)
  have hss : setSlot (setSlot st.slots (L % st.n) (B ++ [{ q with stop := s }] ++ spl)) (L % st.n) (ns' ++ spl)
      = setSlot st.slots (L % st.n) (ns' ++ spl) := by
    funext j; simp only [setSlot]; split <;> rfl
  refine ⟨⟨st.n, st.first, setSlot st.slots (L % st.n) (ns' ++ spl), stk, some (L % st.n, st.next), st.next + 1⟩,
    ?_, ?_, ?_⟩
  · unfold Store.setFlowEnd
    simp only [hfl, hmap]
    rw [if_pos]
    refine ⟨hlt, ?_⟩
    rw [e1]
    simp [hq]
  · unfold Store.addLine
    have hidx2 : Store.index { st with
        slots := setSlot st.slots (L % st.n) (B ++ [{ q with stop := s }] ++ spl), stack := stk,
        flow := some (L % st.n, st.next) } L = L % st.n := hidx
    simp only [hidx]
    simp only [hidx2, if_true]
    have hsl : setSlot st.slots (L % st.n) (B ++ [{ q with stop := s }] ++ spl) (L % st.n) =
      B ++ [{ q with stop := s }] ++ spl := by simp [setSlot]
    simp only [hsl]
    rw [f1]
    simp only [hss]
  · have hR := h.update hc hw (ns' ++ spl) (st.next + 1) st.next stk
      (fun p => { p with layers := ⟨s, none, pay⟩ :: p.layers }) (by omega) (by
        intro p' hp'
        rw [hp] at hp'
        cases hp'
        refine ⟨ns', spl, rfl, f2, ?_, ?_, e5⟩
        · intro t ht
          obtain ⟨a, b, c⟩ := e3 t ht
          refine ⟨a, by omega, ?_⟩
          intro u hu
          rcases f3 u hu with ⟨w, hw1, hw2⟩ | hw1
          · rw [← hw2]; exact c w hw1
          · simp at hw1; omega
        · intro x hx
          rw [f4 x hx, shown_cons, e4 x hx]
          simp [Layer.covers])
    exact hR

theorem step_rel (env : Env RD) (st : Store RD) (sp sp' : SpecSt RD) (op : Op) (h : Rel st sp)
    (hs : specStep env sp op = some sp') :
    ∃ st', st.step true env op = some st' ∧ Rel st' sp' := by
  cases op with
  | start lno =>
    simp only [specStep, Option.some.injEq] at hs
    subst hs
    exact ⟨_, rfl, h.n, h.first, rfl, h.pics, by intro L hL; simp at hL⟩
  | clearLine L =>
    simp only [specStep] at hs
    simp only [Store.step, h.stack]
    cases hstk : sp.stack with
    | nil => simp [hstk] at hs
    | cons bg rest =>
      simp only [hstk, Option.some.injEq] at hs
      by_cases hw : inWin sp.first sp.n L
      · have hw' : inWin st.first st.n L := by rw [h.n, h.first]; exact hw
        rw [if_pos ((inWindow_iff st L).2 hw')]
        refine ⟨_, rfl, ?_⟩
        subst hs
        have hok : LineOk [{ id := st.next, start := 0, stop := -1, special := false, pay := bg }]
            ({ layers := [⟨0, none, bg⟩], specials := [] } : Picture RD) (st.next + 1) st.next := by
          refine ⟨[{ id := st.next, start := 0, stop := -1, special := false, pay := bg }], [], rfl,
            ⟨⟨rfl, by simp, rfl⟩, by simp, by simp, by simp, by simp⟩, by simp, ?_, by simp⟩
          intro x hx
          have h1 : LR.covers { id := st.next, start := 0, stop := -1, special := false, pay := bg } x = true := by
            simp [LR.covers, hx]
          have h2 : Layer.covers (⟨0, none, bg⟩ : Layer RD) x = true := by simp [Layer.covers, hx]
          simp [paint, h1, Picture.shown, h2]
        refine ⟨h.n, h.first, by simp, ?_, ?_⟩
        · intro M p hp
          simp only at hp
          by_cases hM : M = L
          · subst hM
            rw [if_pos ⟨rfl, hw⟩] at hp
            cases hp
            refine ⟨hw, st.next, ?_⟩
            simp only [index_eq st M hw', setSlot, if_true]
            exact hok
          · rw [if_neg (by simp [hM])] at hp
            obtain ⟨g1, fl, g2⟩ := h.pics M p hp
            refine ⟨g1, fl, ?_⟩
            have : M % st.n ≠ L % st.n := fun he => hM (mod_inj g1 hw (by rw [h.n] at he; exact he))
            simp only [index_eq st L hw', setSlot, if_neg this]
            exact g2.mono (by omega)
        · intro M hM _
          simp only [Option.some.injEq] at hM
          subst hM
          refine ⟨_, st.next, by simp only; rw [if_pos ⟨trivial, hw⟩], ?_, ?_⟩
          · simp only [index_eq st L hw', setSlot, if_true]
            exact hok
          · simp only [index_eq st L hw']
      · have hw' : ¬ inWin st.first st.n L := by rw [h.n, h.first]; exact hw
        rw [if_neg (by simp [(inWindow_false st L).2 hw'])]
        refine ⟨_, rfl, ?_⟩
        subst hs
        refine ⟨h.n, h.first, by simp [h.stack, hstk], ?_, ?_⟩
        · intro M p hp
          simp only [hw, and_false, if_false] at hp
          exact h.pics M p hp
        · intro M hM hwM
          simp only [Option.some.injEq] at hM
          subst hM
          exact absurd hwM hw
  | region L s e r =>
    simp only [specStep] at hs
    simp only [Store.step, h.stack]
    cases hstk : sp.stack with
    | nil => simp [hstk] at hs
    | cons bg rest =>
      simp only [hstk] at hs
      split at hs
      · rename_i hg
        obtain ⟨hc, h0, hle⟩ := hg
        simp only [Option.some.injEq] at hs
        by_cases hw : inWin sp.first sp.n L
        · have hw' : inWin st.first st.n L := by rw [h.n, h.first]; exact hw
          rw [if_pos ((inWindow_iff st L).2 hw')]
          obtain ⟨p, fl, hp, ⟨ns, spl, e1, e2, e3, e4, e5⟩, hfl⟩ := h.cur L hc hw
          simp only [Store.addLine, index_eq st L hw', hfl, if_true, resolve_eq, e1]
          cases hspec : env.isSpecial r with
          | true =>
            simp only [compactAdd, if_true]
            refine ⟨_, rfl, ?_⟩
            subst hs
            have := h.update hc hw ((ns ++ spl) ++ [⟨st.next, s, e, true, ⟨some r, bg.scheme, styleOn env (some r) bg.rdef⟩⟩]) (st.next + 1) fl st.stack
              (fun p => if env.isSpecial r then ⟨p.layers, p.specials ++
                  [(s, e, ⟨some r, bg.scheme, styleOn env (some r) bg.rdef⟩)]⟩
                else ⟨⟨s, some e, ⟨some r, bg.scheme, styleOn env (some r) bg.rdef⟩⟩ :: p.layers, p.specials⟩)
              (by omega) (by
                intro p' hp'
                rw [hp] at hp'
                cases hp'
                simp only [hspec, if_true]
                refine ⟨ns, spl ++ [_], by simp; rfl, ⟨e2.tile, e2.nonspec, e2.nodup,
                  fun t ht => by have := e2.ids t ht; omega, e2.last⟩, ?_, e4, by simp [e5]⟩
                intro t ht
                rcases List.mem_append.1 ht with ht | ht
                · obtain ⟨a, b, c⟩ := e3 t ht
                  exact ⟨a, by omega, c⟩
                · simp only [List.mem_singleton] at ht
                  subst ht
                  refine ⟨rfl, by simp, ?_⟩
                  intro u hu
                  have := e2.ids u hu
                  simp; omega)
            rw [h.stack] at this
            simp only [h.stack, hstk] at this ⊢
            exact this
          | false =>
            obtain ⟨ns', fl', next', f1, f2, f3, f4, f5⟩ := compactAdd_region
              ⟨st.next, s, e, false, ⟨some r, bg.scheme, styleOn env (some r) bg.rdef⟩⟩ ns spl fl (st.next + 1)
              ⟨e2.tile, e2.nonspec, e2.nodup, fun t ht => by have := e2.ids t ht; omega, e2.last⟩
              (fun t ht => (e3 t ht).1) rfl h0 hle (by simp)
              (fun t ht => by have := e2.ids t ht; simp; omega)
            rw [f1]
            refine ⟨_, rfl, ?_⟩
            subst hs
            have := h.update hc hw (ns' ++ spl) next' fl' st.stack
              (fun p => if env.isSpecial r then ⟨p.layers, p.specials ++
                  [(s, e, ⟨some r, bg.scheme, styleOn env (some r) bg.rdef⟩)]⟩
                else ⟨⟨s, some e, ⟨some r, bg.scheme, styleOn env (some r) bg.rdef⟩⟩ :: p.layers, p.specials⟩)
              (by omega) (by
                intro p' hp'
                rw [hp] at hp'
                cases hp'
                simp only [hspec]
                refine ⟨ns', spl, rfl, f2, ?_, ?_, by simp [e5]⟩
                · intro t ht
                  obtain ⟨a, b, c⟩ := e3 t ht
                  refine ⟨a, by omega, ?_⟩
                  intro u hu
                  rcases f4 u hu with ⟨w, hw1, hw2⟩ | hw1 | hw1
                  · rw [← hw2]; exact c w hw1
                  · simp at hw1; omega
                  · omega
                · intro x hx
                  rw [f5 x hx, e4 x hx]
                  simp only [if_neg (show ¬ (false = true) by simp)]
                  rw [shown_cons]
                  simp [Layer.covers])
            rw [h.stack] at this
            simp only [h.stack, hstk] at this ⊢
            exact this
        · have hw' : ¬ inWin st.first st.n L := by rw [h.n, h.first]; exact hw
          rw [if_neg (by simp [(inWindow_false st L).2 hw'])]
          refine ⟨_, rfl, ?_⟩
          subst hs
          rw [draw_out sp L _ hw]
          exact ⟨h.n, h.first, by rw [h.stack, hstk], h.pics, h.cur⟩
      · simp at hs
  | enter L s e r scheme =>
    simp only [specStep] at hs
    simp only [Store.step, h.stack]
    cases hstk : sp.stack with
    | nil => simp [hstk] at hs
    | cons bg rest =>
      simp only [hstk] at hs
      split at hs
      · rename_i hg
        obtain ⟨hc, h0⟩ := hg
        simp only [Option.some.injEq] at hs
        simp only [List.headD_cons, resolve_eq]
        by_cases hw : inWin sp.first sp.n L
        · have hw' : inWin st.first st.n L := by rw [h.n, h.first]; exact hw
          rw [if_pos ((inWindow_iff st L).2 hw')]
          cases r with
          | none =>
            refine ⟨_, rfl, ?_⟩
            subst hs
            have := h.stack_only (⟨none, some scheme, styleOn env none bg.rdef⟩ :: bg :: rest)
            simpa using this
          | some r =>
            simp only [Option.isSome_some, if_true] at hs
            obtain ⟨st2, st', g1, g2, g3⟩ := scheme_step h hc hw s h0
              ⟨some r, some scheme, styleOn env (some r) bg.rdef⟩
              (⟨some r, some scheme, styleOn env (some r) bg.rdef⟩ :: bg :: rest)
            simp only [g1]
            exact ⟨st', g2, hs ▸ g3⟩
        · have hw' : ¬ inWin st.first st.n L := by rw [h.n, h.first]; exact hw
          rw [if_neg (by simp [(inWindow_false st L).2 hw'])]
          refine ⟨_, rfl, ?_⟩
          subst hs
          rw [draw_out sp L _ hw]
          have := h.stack_only (⟨r, some scheme, styleOn env r bg.rdef⟩ :: bg :: rest)
          simpa using this
      · simp at hs
  | leave L s e r scheme =>
    simp only [specStep] at hs
    simp only [Store.step, h.stack]
    cases hstk : sp.stack with
    | nil => simp [hstk] at hs
    | cons old rest0 =>
      cases rest0 with
      | nil => simp [hstk] at hs
      | cons bg rest =>
      simp only [hstk] at hs
      split at hs
      · rename_i hg
        obtain ⟨hc, h0⟩ := hg
        simp only [Option.some.injEq] at hs
        dsimp only
        by_cases hw : inWin sp.first sp.n L
        · have hw' : inWin st.first st.n L := by rw [h.n, h.first]; exact hw
          rw [if_pos ((inWindow_iff st L).2 hw')]
          cases hr : old.region with
          | none =>
            refine ⟨_, rfl, ?_⟩
            subst hs
            have := h.stack_only (bg :: rest)
            simpa [hr] using this
          | some r =>
            simp only [hr, Option.isSome_some, if_true] at hs
            obtain ⟨st2, st', g1, g2, g3⟩ := scheme_step h hc hw e h0 bg (bg :: rest)
            simp only [g1]
            exact ⟨st', g2, hs ▸ g3⟩
        · have hw' : ¬ inWin st.first st.n L := by rw [h.n, h.first]; exact hw
          rw [if_neg (by simp [(inWindow_false st L).2 hw'])]
          refine ⟨_, rfl, ?_⟩
          subst hs
          rw [draw_out sp L _ hw]
          have := h.stack_only (bg :: rest)
          simpa using this
      · simp at hs
  | setFirst f =>
    simp only [specStep, Option.some.injEq] at hs
    subst hs
    refine ⟨_, rfl, h.n, rfl, h.stack, ?_, by intro L hL; simp at hL⟩
    intro M p hp
    simp only at hp
    split at hp
    · rename_i hw
      obtain ⟨g1, g2⟩ := h.pics M p hp
      exact ⟨hw, g2⟩
    · simp at hp
  | resize n =>
    simp only [specStep, Option.some.injEq] at hs
    subst hs
    exact ⟨_, rfl, rfl, h.first, h.stack, by intro M p hp; simp at hp, by intro L hL; simp at hL⟩
  | clear =>
    simp only [specStep, Option.some.injEq] at hs
    subst hs
    exact ⟨_, rfl, h.n, h.first, h.stack, by intro M p hp; simp at hp, by intro L hL; simp at hL⟩

theorem init_rel : Rel (Store.init : Store RD) SpecSt.init :=
  ⟨rfl, rfl, rfl, by intro L p hp; simp [SpecSt.init] at hp, by intro L hL; simp [SpecSt.init] at hL⟩

theorem run_rel (env : Env RD) (ops : List Op) (st : Store RD) (sp sp' : SpecSt RD) (h : Rel st sp)
    (hs : specRun env sp ops = some sp') : ∃ st', st.run true env ops = some st' ∧ Rel st' sp' := by
  induction ops generalizing st sp with
  | nil => simp [specRun] at hs; subst hs; exact ⟨st, rfl, h⟩
  | cons op ops ih =>
    simp only [specRun] at hs
    cases h1 : specStep env sp op with
    | none => simp [h1] at hs
    | some sp1 =>
      simp only [h1, Option.bind_some] at hs
      obtain ⟨st1, g1, g2⟩ := step_rel env st sp sp1 op h h1
      obtain ⟨st2, g3, g4⟩ := ih st1 sp1 g2 hs
      exact ⟨st2, by simp [Store.run, g1, g3], g4⟩

end Verif.LineRegions
