import Verif.Whole.Props
import Verif.LineRegions.Clean
/-!
# The regions of the background of a line, in the whole editor

After every legal history the pieces of background in the store carry only regions of blocks of the grammar, or regions that are not special.
-/
namespace Verif.Whole
open Verif.TextParser (Ev PState Result Mode Parses Text fresh Pure RangesOk Opaque Reach Step Sess CacheOk BlocksAre pseudos opened NoPseudo)
open Verif.LineRegions (LR Store LineOk Rel Payload Compact Tile paint Clean OpQ run_clean)
open Verif.LineRegions.Spec
open Verif.Editor (target idleAhead Plan PageUp)

variable {RD : Type} {Q : Option Nat → Prop}

/-- the region of a block entered or replayed meets `Q` -/
def EvQ (Q : Option Nat → Prop) : Ev → Prop
  | .enter _ _ _ r _ => Q r
  | .pseudo _ r _ => Q r
  | _ => True

theorem ops_q {st : Styles RD} (hsp : ∀ r, st.isSpecial r = true ∨ Q (some r)) {es : List Ev} (h : ∀ e ∈ es, EvQ Q e) : ∀ o ∈ ops es, OpQ Q st o := by
  intro o ho
  unfold ops at ho
  obtain ⟨e, he, hop⟩ := List.mem_filterMap.1 ho
  have h := h e he
  cases e <;> simp only [op, Option.some.injEq, reduceCtorEq] at hop <;> subst hop
  · trivial
  · trivial
  · exact hsp _
  · exact h
  · exact h
  · trivial

theorem entOk_evQ {e : Ev} (h : TextParser.EntOk Q e) (hn : TextParser.notPseudo e = true) : EvQ Q e := by
  cases e <;> first | trivial | exact h | (simp [TextParser.notPseudo] at hn)

/-- a parse resumed with an up-to-date cache enters and replays blocks of the grammar only -/
theorem resumed_regions {env : TextParser.Env} (hp : Pure env) (hb : BlocksAre Q env) {base : Nat} {s : Sess} (hs : CacheOk env base s) {F E : Int}
    (hF : 0 ≤ F) (hgood : F ≤ s.good) (hFE : F < E) {r0 : Result} (h0 : Parses (env.text s.text) (fresh base) 0 E .update r0) (hh : r0.hit = false)
    (mode : Mode) (hm : mode ≠ .off) {r : Result} (h : Parses (env.text s.text) s.p F (E - F) mode r) : ∀ e ∈ r.evs, EvQ Q e := by
  obtain ⟨i1, i2, i3, i4⟩ := hs
  obtain ⟨rF', x1, x2, x3⟩ := i4 F hF hgood
  obtain ⟨fs, c, rF, eF, rest, b1, b2, b3, b4, b5, b6, b7, b8, b9, b10, b11, b12, b13⟩ :=
    TextParser.split_core (hp.text s.text) (p0 := fresh base) rfl hF hFE (by omega) h0 hh
  have := x1.det b1
  subst this
  obtain ⟨r', sch, c1, c2, c3, c4, c5, c6⟩ := b13 s.p mode hm i1 (x3.trans b3)
  have := c1.det h
  subst this
  have hbt : BlocksAre Q (env.text s.text) := hb
  have full := TextParser.parse_opaque hbt (p := fresh base) rfl h0
  have short := TextParser.parse_opaque hbt (p := fresh base) rfl b1
  have hfs : ∀ f ∈ fs, Q f.info.block.region := by
    intro f hf
    exact TextParser.nest_open (Q := Q) (es := eF) (fun e he => short e (by rw [b5]; simp [he])) b9 b11 (by intro o ho; simp at ho)
      (f.info.block.region, some f.info.scheme) (by unfold opened; exact List.mem_map.2 ⟨f, hf, rfl⟩)
  intro e he
  rw [c4] at he
  simp only [List.cons_append, List.mem_cons, List.mem_append, List.not_mem_nil, or_false] at he
  rcases he with rfl | rfl | (he | he) | rfl
  · trivial
  · trivial
  · unfold pseudos at he
    simp only [List.mem_map] at he
    obtain ⟨f, hf, rfl⟩ := he
    exact hfs f (by simpa using hf)
  · exact entOk_evQ (full e (by rw [b7]; simp [he])) (b10 e he)
  · trivial

theorem parse_clean {env : TextParser.Env} (hp : Pure env) (hQ : Q none) (hb : BlocksAre Q env) {g : Bool} {c c' : Ed RD} {stop : Int}
    {a : Editor.Ed (Tagged RD) (Option (Obs RD))} (h : Sim0 env g c a) (hsp : ∀ r, c.regs.isSpecial r = true ∨ Q (some r)) (hcl : Clean Q c.store)
    {from' to' : Int} (hf : 0 ≤ from') (hgood : from' ≤ a.good) (hlt : from' < to') (hto : to' ≤ c.lineCount) (mode : Editor.Mode)
    (hpa : c.parse env from' to' mode = some (c', stop)) : Clean Q c'.store ∧ c'.regs = c.regs := by
  obtain ⟨r0, h0, hh⟩ := h.tame.shorter hp (E := to') (by omega) hto
  have hm : toMode mode ≠ .off := by cases mode <;> simp [toMode]
  unfold Ed.parse at hpa
  rw [Option.bind_eq_some_iff] at hpa
  obtain ⟨r, h1, h2⟩ := hpa
  rw [Option.map_eq_some_iff] at h2
  obtain ⟨st, h2, h3⟩ := h2
  cases h3
  have hpar : Parses (env.text c.text) c.parser from' (to' - from') (toMode mode) r := by
    unfold parseOf at h1
    split at h1
    · rename_i hex
      cases h1
      exact hex.choose_spec
    · simp at h1
  have hev := resumed_regions hp hb (TextParser.reach_ok hp h.reach) hf hgood hlt h0 hh (toMode mode) hm hpar
  exact ⟨run_clean c.regs hQ _ _ _ (ops_q hsp hev) hcl h2, rfl⟩

theorem run_clean' {env : TextParser.Env} (hp : Pure env) (hQ : Q none) (hb : BlocksAre Q env) {g : Bool} {c c' : Ed RD}
    {a : Editor.Ed (Tagged RD) (Option (Obs RD))} (h : Sim0 env g c a) (hsp : ∀ r, c.regs.isSpecial r = true ∨ Q (some r)) (hcl : Clean Q c.store)
    {from' to' : Int} (hf : 0 ≤ from') (hgood : from' ≤ a.good) (mode : Editor.Mode) (hr : c.run env from' to' mode = some c') :
    Clean Q c'.store ∧ c'.regs = c.regs := by
  unfold Ed.run at hr
  dsimp only at hr
  generalize hto : (if to' > c.lineCount then c.lineCount else to') = to1 at hr
  have hto1 : to1 ≤ c.lineCount := by subst hto; split <;> omega
  split at hr
  · rw [Option.map_eq_some_iff] at hr
    obtain ⟨⟨c1, stop⟩, h1, h2⟩ := hr
    obtain ⟨k1, k2⟩ := parse_clean hp hQ hb h hsp hcl hf hgood (by omega) hto1 mode h1
    cases mode with
    | read => cases h2; exact ⟨k1, k2⟩
    | update => cases h2; exact ⟨k1, k2⟩
  · cases hr; exact ⟨hcl, rfl⟩

theorem validate_clean {env : TextParser.Env} (hp : Pure env) (hQ : Q none) (hb : BlocksAre Q env) {g : Bool} {c c' : Ed RD}
    {a : Editor.Ed (Tagged RD) (Option (Obs RD))} (h : Sim env g c a) (hsp : ∀ r, c.regs.isSpecial r = true ∨ Q (some r)) (hcl : Clean Q c.store)
    {lno : Int} (hl : 0 ≤ target c.lineCount lno) (rebuild : Bool) (hreb : rebuild = false → c.lrSize = c.wSize * 2)
    (hv : c.validate env lno rebuild = some c') : Clean Q c'.store ∧ c'.regs = c.regs := by
  obtain ⟨c1, f1, f2, f3⟩ := fixSize_sim h.sim
  obtain ⟨g1, g2⟩ := fixStart_sim f2 hl
  have hpos : 0 ≤ a.wStart + a.wSize := by
    have := h.sim.ws; have := h.sim.wpos; rw [h.sim.wStart, h.sim.wSize]; omega
  obtain ⟨c3, a3, plan, w1, w2, w3, w4⟩ := fixWindow_sim g1 a.fixSize.2 (a.wStart + a.wSize) hpos rebuild
  have hready := Editor.validate_ready (aenv env g) a (target c.lineCount lno) rebuild h.inv
    (fun hx => by rw [h.sim.lrSize, h.sim.wSize]; exact hreb hx) a3 plan w2
  have hgood : (a3.startAt plan).1 ≤ a3.good := by
    have := hready.inv1.good
    rcases hready.mode with hm | hm <;> omega
  have hnn : 0 ≤ (a3.startAt plan).1 := by
    have := hready.inv1.nonneg
    rcases Editor.startAt_spec a3 plan with hm | hm <;> omega
  have e1 : Clean Q c1.store ∧ c1.regs = c.regs := by
    generalize a.fixSize.2 = lay at f1
    unfold Ed.fixSize at f1
    split at f1
    · rw [Option.map_eq_some_iff] at f1
      obtain ⟨st, s1, s2⟩ := f1
      have hk := run_clean c.regs hQ _ _ _ (by
        intro o ho
        simp only [List.mem_cons, List.not_mem_nil, or_false] at ho
        rcases ho with rfl | rfl <;> trivial) hcl s1
      cases s2
      exact ⟨hk, rfl⟩
    · cases f1; exact ⟨hcl, rfl⟩
  have e2 : Clean Q (c1.fixStart (target c.lineCount lno)).store ∧ (c1.fixStart (target c.lineCount lno)).regs = c.regs := by
    unfold Ed.fixStart
    split
    · exact e1
    · exact e1
  have e3 : Clean Q c3.store ∧ c3.regs = c.regs := by
    have w1 := w1
    unfold Ed.fixWindow at w1
    split at w1
    · split at w1
      · simp at w1
      · dsimp only at w1
        rw [Option.map_eq_some_iff] at w1
        obtain ⟨st, s1, s2⟩ := w1
        cases s2
        refine ⟨?_, e2.2⟩
        cases rebuild with
        | true =>
          exact run_clean _ hQ _ _ _ (by
            intro o ho
            simp only [List.mem_singleton] at ho
            subst ho
            trivial) e2.1 s1
        | false => cases s1; exact e2.1
    · cases w1; exact e2
  unfold Ed.validate at hv
  simp only [f1, Option.bind_some] at hv
  rw [show (c.store.first : Int) = ((c1.fixStart (target c.lineCount lno)).store.first : Int) from by rw [g2, f3],
    ← h.sim.wStart, ← h.sim.wSize, w1] at hv
  simp only [Option.bind_some, startAt_sim w3] at hv
  obtain ⟨k1, k2⟩ := run_clean' hp hQ hb w3 (by rw [e3.2]; exact hsp) e3.1 hnn hgood _ hv
  exact ⟨k1, k2.trans e3.2⟩

theorem query_clean {env : TextParser.Env} (hp : Pure env) (hQ : Q none) (hb : BlocksAre Q env) {g : Bool} {c c' : Ed RD} {rl : List (LR RD)}
    {a : Editor.Ed (Tagged RD) (Option (Obs RD))} (h : Sim env g c a) (hsp : ∀ r, c.regs.isSpecial r = true ∨ Q (some r)) (hcl : Clean Q c.store)
    {l : Int} (h0 : 0 ≤ l) (hl : 0 < c.lineCount ∨ l ≤ c.lineCount) (hq : c.getLineRegions env l = some (c', rl)) :
    Clean Q c'.store ∧ c'.regs = c.regs ∧ ∀ t ∈ rl, t.special = false → Q t.pay.region := by
  unfold Ed.getLineRegions at hq
  split at hq
  · cases hq; exact ⟨hcl, rfl, by intro t ht; simp at ht⟩
  · rw [Option.map_eq_some_iff] at hq
    obtain ⟨c1, h1, h2⟩ := hq
    obtain ⟨k1, k2⟩ := validate_clean hp hQ hb h hsp hcl (by have := h.sim.tame.pos; unfold target; split <;> omega) true (by simp) h1
    cases h2
    refine ⟨k1, k2, ?_⟩
    intro t ht
    split at ht
    · simp at ht
    · unfold Store.lineRegions at ht
      split at ht
      · exact k1.nodes _ t ht
      · simp at ht

/-- Legal histories in which the special regions stay the same: in the library they are those below `def:Special`, set once
(BaseEditor.cpp:46-51, 89-113). -/
inductive SHist (env : TextParser.Env) (sp : Nat → Bool) (e0 : Ed RD) : Ed RD → Prop
  | nil : e0.regs.isSpecial = sp → SHist env sp e0 e0
  | snoc {e e' : Ed RD} (op : EOp RD) : SHist env sp e0 e → Legal env e op → (∀ st, op = .setStyles st → st.isSpecial = sp) → e.step env op = some e' →
      SHist env sp e0 e'

theorem SHist.hist {env : TextParser.Env} {sp : Nat → Bool} {e0 e : Ed RD} (h : SHist env sp e0 e) : Hist env e0 e := by
  induction h with
  | nil => exact .nil
  | snoc op _ h1 _ h2 ih => exact .snoc op ih h1 h2

theorem shist_clean {env : TextParser.Env} (hp : Pure env) (hr : RangesOk env) (hQ : Q none) (hb : BlocksAre Q env) {base : Nat} {st : Styles RD}
    (hc : Calm st) {text : Int → Option Text} {sp : Nat → Bool} (hsp : ∀ r, sp r = true ∨ Q (some r)) {e : Ed RD}
    (h : SHist env sp (Ed.init base st text) e) : Clean Q e.store ∧ e.regs.isSpecial = sp := by
  induction h with
  | nil h0 => exact ⟨⟨by intro i t ht; simp [Ed.init, Store.init] at ht, by intro p hp; simp [Ed.init, Store.init] at hp⟩, h0⟩
  | @snoc e1 e2 op hh hop hst hs ih =>
    obtain ⟨a, ha⟩ := hist_sim (g := false) hp hr (by simp) hc hh.hist
    have hsp1 : ∀ r, e1.regs.isSpecial r = true ∨ Q (some r) := by rw [ih.2]; exact hsp
    cases op with
    | edit l t n => cases hs; exact ih
    | visible s z => cases hs; exact ih
    | idle t =>
      have hs : e1.idleJob env t = some e2 := hs
      unfold Ed.idleJob at hs
      split at hs
      · rename_i hlt
        have hop : e1.invalid < e1.lineCount → e1.lrSize = e1.wSize * 2 := hop
        have hah : 0 ≤ idleAhead t := by unfold idleAhead; dsimp only; split <;> split <;> omega
        have hi := ha.inv.inv1.nonneg
        have hi' := ha.sim.invalid
        obtain ⟨k1, k2⟩ := validate_clean hp hQ hb ha hsp1 ih.1 (by unfold target; split <;> omega) false (fun _ => hop hlt) hs
        exact ⟨k1, by rw [k2]; exact ih.2⟩
      · cases hs; exact ih
    | query l =>
      have hs : (e1.getLineRegions env l).map (·.1) = some e2 := hs
      rw [Option.map_eq_some_iff] at hs
      obtain ⟨⟨e3, rl⟩, h1, h2⟩ := hs
      cases h2
      obtain ⟨k1, k2, _⟩ := query_clean hp hQ hb ha hsp1 ih.1 hop.1 hop.2 h1
      exact ⟨k1, by rw [k2]; exact ih.2⟩
    | setType b => cases hs; exact ih
    | setStyles st' => cases hs; exact ⟨ih.1, hst st' rfl⟩
    | backParse v => cases hs; exact ih

end Verif.Whole
