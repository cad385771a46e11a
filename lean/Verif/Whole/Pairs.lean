import Verif.Whole.Clean
import Verif.Whole.Down
import Verif.Editor.Lazy
/-!
# C24: the search for pairs in the whole editor

`searchLocalPair` and `searchGlobalPair` (BaseEditor.cpp:309-318) over the editor with its parser and its line store: every line is coloured when the
search asks for it. The specification knows only the current text coloured from scratch (`Paints`): the pair regions of a line are the special regions
of its picture that are pair starts or pair ends.
-/
namespace Verif.Whole
open Verif.TextParser (PState Result Parses Text fresh Pure RangesOk Opaque BlocksAre)
open Verif.LineRegions (LR Store LineOk Payload Clean)
open Verif.LineRegions.Spec
open Verif.Editor (Look PReg marksOf lazySearch Answers IsPairAt Partner after Hit Place Served)

variable {RD : Type}

/-- what the search looks at in a `LineRegion`; `ps r`, `pe r`: region `r` has the parent `def:PairStart`, `def:PairEnd` -/
def look (ps pe : Nat → Bool) : Look (LR RD) :=
  { start := fun t => t.start, stop := fun t => t.stop, region := fun t => t.pay.region, isStart := ps, isEnd := pe }

/-- `searchPair` (259-307) -/
noncomputable def Ed.searchPair (env : TextParser.Env) (ps pe : Nat → Bool) (fuel : Nat) (e : Ed RD) (lineNo pos startLine endLine : Int) :
    Option (Ed RD × Option (LR RD × Hit (LR RD))) :=
  lazySearch (fun s l => s.getLineRegions env l) (look ps pe) fuel e lineNo pos startLine endLine

/-- `getLastVisibleLine` (363-368) -/
def Ed.lastVisible (e : Ed RD) : Int :=
  (if e.wStart + e.wSize > e.lineCount then e.lineCount else e.wStart + e.wSize) - 1

/-- `searchLocalPair` (309-313) -/
noncomputable def Ed.searchLocalPair (env : TextParser.Env) (ps pe : Nat → Bool) (fuel : Nat) (e : Ed RD) (lineNo pos : Int) :
    Option (Ed RD × Option (LR RD × Hit (LR RD))) :=
  e.searchPair env ps pe fuel lineNo pos e.wStart e.lastVisible

/-- `searchGlobalPair` (315-318) -/
noncomputable def Ed.searchGlobalPair (env : TextParser.Env) (ps pe : Nat → Bool) (fuel : Nat) (e : Ed RD) (lineNo pos : Int) :
    Option (Ed RD × Option (LR RD × Hit (LR RD))) :=
  e.searchPair env ps pe fuel lineNo pos 0 e.lineCount

/-! ## Specification -/

/-- a special region of a picture, as a pair region -/
def pairReg (ps pe : Nat → Bool) (t : Int × Int × Payload RD) : PReg :=
  ⟨t.1, t.2.1, t.2.2.region.isSome, t.2.2.region.any ps, t.2.2.region.any pe⟩

/-- the pair regions of a picture, in order -/
def pairsOf (ps pe : Nat → Bool) (p : Picture RD) : List PReg := (p.specials.map (pairReg ps pe)).filter fun r => r.isStart || r.isEnd

/-- `regs` are the pair regions of the lines of the text, coloured from scratch -/
def TextPairs (env : TextParser.Env) (ps pe : Nat → Bool) (e : Ed RD) (regs : Int → List PReg) : Prop :=
  ∀ l, 0 ≤ l → l < e.lineCount → ∀ p, Paints env e.parser.base e.regs e.text e.lineCount l.toNat p → regs l = pairsOf ps pe p

/-- the grammar and the styles treat pair regions as they should: pair regions are special, and no block has a pair region as its background -/
structure PairsSpecial (env : TextParser.Env) (ps pe : Nat → Bool) (sp : Nat → Bool) : Prop where
  special : ∀ r, (ps r || pe r) = true → sp r = true
  blocks  : ∀ s b, TextParser.Node.block b ∈ env.nodes s → ∀ r, b.region = some r → (ps r || pe r) = false

/-- the store holds the visible window (true as soon as a visible line has been asked for since the window was announced: `settled_after_a_query`) -/
def Ed.Holds (e : Ed RD) : Prop :=
  e.lrSize = e.wSize * 2 ∧ (e.store.first : Int) ≤ e.wStart ∧ e.wStart + e.wSize ≤ e.store.first + e.lrSize

/-! ## Proof -/

/-- background regions: no pair region -/
def NoPair (ps pe : Nat → Bool) (o : Option Nat) : Prop := ∀ r, o = some r → (ps r || pe r) = false

theorem PairsSpecial.clean {env : TextParser.Env} {ps pe sp : Nat → Bool} (h : PairsSpecial env ps pe sp) :
    BlocksAre (NoPair ps pe) env ∧ ∀ r, sp r = true ∨ NoPair ps pe (some r) := by
  refine ⟨h.blocks, ?_⟩
  intro r
  cases hr : (ps r || pe r) with
  | true => exact Or.inl (h.special r hr)
  | false =>
    right
    intro r' he
    cases he
    exact hr

theorem shows_marks {ps pe : Nat → Bool} {g : Bool} {l : List (LR RD)} {p : Picture RD} (h : Shows g l p)
    (hq : ∀ t ∈ l, t.special = false → NoPair ps pe t.pay.region) : marksOf (look ps pe) l = pairsOf ps pe p := by
  have hk : ∀ t ∈ l, t.special = false → (((look ps pe).reg t).isStart || ((look ps pe).reg t).isEnd) = false := by
    intro t ht hs
    have := hq t ht hs
    show ((t.pay.region).any ps || (t.pay.region).any pe) = false
    cases hr : t.pay.region with
    | none => rfl
    | some r => exact this r hr
  have h1 : marksOf (look ps pe) l = marksOf (look ps pe) (l.filter (·.special)) := by
    clear h hq
    induction l with
    | nil => rfl
    | cons t l ih =>
      have ih := ih (fun u hu => hk u (by simp [hu]))
      cases hs : t.special with
      | false =>
        rw [Editor.marksOf_cons_plain _ _ _ (hk t (by simp) hs), ih, List.filter_cons_of_neg (by simp [hs])]
      | true =>
        rw [List.filter_cons_of_pos (by simp [hs])]
        cases hm : (((look ps pe).reg t).isStart || ((look ps pe).reg t).isEnd) with
        | true => rw [Editor.marksOf_cons_mark _ _ _ hm, Editor.marksOf_cons_mark _ _ _ hm, ih]
        | false => rw [Editor.marksOf_cons_plain _ _ _ hm, Editor.marksOf_cons_plain _ _ _ hm, ih]
  rw [h1]
  have h2 := h.special
  unfold pairsOf marksOf
  congr 1
  have e1 : ∀ x : List (LR RD), x.map (look ps pe).reg =
      (x.map fun t => (t.start, t.stop, t.pay.rdef, t.pay.region)).map fun y => (⟨y.1, y.2.1, y.2.2.2.isSome, y.2.2.2.any ps, y.2.2.2.any pe⟩ : PReg) := by
    intro x
    rw [List.map_map]
    rfl
  rw [e1, h2, List.map_map]
  rfl

/-- nothing but the window and the store changes -/
def Same (e e' : Ed RD) : Prop :=
  e'.parser.base = e.parser.base ∧ e'.regs = e.regs ∧ e'.text = e.text ∧ e'.lineCount = e.lineCount

/-- one request for a visible line, or a line above -/
theorem up_query {env : TextParser.Env} (hp : Pure env) (hr : RangesOk env) {ps pe sp : Nat → Bool} (hps : PairsSpecial env ps pe sp) {e : Ed RD}
    {a : Editor.Ed (Tagged RD) (Option (Obs RD))} (ha : Sim env false e a) (hcl : Clean (NoPair ps pe) e.store) (hsp : e.regs.isSpecial = sp)
    (hbp : e.backParse ≤ 0) {lno : Int} (h0 : 0 ≤ lno) (hlc : lno < e.lineCount) (hvis : lno < e.wStart + e.wSize)
    (hset : lno ≤ e.wStart ∨ Editor.Settled a) :
    ∃ e' a' l p, e.getLineRegions env lno = some (e', l) ∧ Sim env false e' a' ∧ Editor.Settled a' ∧ Clean (NoPair ps pe) e'.store ∧ Same e e' ∧
      e'.backParse = e.backParse ∧ (e'.wStart = if lno < e.wStart then lno else e.wStart) ∧ e'.wSize = e.wSize ∧
      Paints env e.parser.base e.regs e.text e.lineCount lno.toNat p ∧ marksOf (look ps pe) l = pairsOf ps pe p := by
  have hs := ha.sim
  have hws := hs.ws
  have hwp := hs.wpos
  have hnp : lno ≤ e.wStart ∨ lno < e.invalid ∨ ¬ Editor.PageUp a lno := by
    rcases hset with h | h
    · exact Or.inl h
    · by_cases hl : lno ≤ e.wStart
      · exact Or.inl hl
      · right; right
        have hfl := Editor.tdiv_floor e.wStart e.wSize hws hwp
        unfold Editor.PageUp
        rw [hs.wStart, hs.wSize, if_neg (by omega)]
        rintro ⟨_, hx⟩
        have := h.2.1
        rw [hs.wStart] at this
        omega
  obtain ⟨e', a', r, p, x1, x2, x3, x4, x5, x6⟩ := query_shows hp hr (g := false) (by simp) ha (lno := lno) h0 hlc hvis hnp (Or.inl hbp)
  obtain ⟨k1, k2, k3, k4, k5, k6⟩ := Editor.query_settles_any (aenv env false) a a' lno _ (by rw [hs.wSize]; exact hwp) (by rw [hs.wStart]; exact hws) h0
      (by rw [hs.lineCount]; exact hlc) (by rw [hs.wStart, hs.wSize]; exact hvis) (by rw [hs.backParse]; exact hbp) x2
  have hs' := x3.sim
  rw [hs.wStart, hs'.wStart] at k2
  rw [hs.wSize, hs'.wSize] at k3
  rw [hs.lineCount, hs'.lineCount] at k4
  rw [hs.backParse, hs'.backParse] at k6
  have htx : e'.text = e.text := by
    funext i
    rw [← hs'.text i, ← hs.text i, k5]
  have htag : (e'.parser.base, e'.regs) = (e.parser.base, e.regs) := by
    rw [← hs'.tag 0 (Int.le_refl 0), ← hs.tag 0 (Int.le_refl 0), k5]
  simp only [Prod.mk.injEq] at htag
  obtain ⟨c1, c2⟩ := hps.clean
  obtain ⟨y1, y2, y3⟩ := query_clean hp (Q := NoPair ps pe) (by intro r hr; simp at hr) c1 ha (by rw [hsp]; exact c2) hcl h0 (by omega) x1
  exact ⟨e', a', r, p, x1, x3, k1, y1, ⟨htag.1, htag.2, htx, k4⟩, k6, k2, k3, x4, shows_marks x5 y3⟩

/-- the state of a search on the screen `e`, or above it -/
def OnScreen (env : TextParser.Env) (ps pe sp : Nat → Bool) (e s : Ed RD) : Prop :=
  ∃ a, Sim env false s a ∧ Clean (NoPair ps pe) s.store ∧ s.regs.isSpecial = sp ∧ s.backParse ≤ 0 ∧ Same e s ∧ Editor.Settled a

theorem screen_step {env : TextParser.Env} (hp : Pure env) (hr : RangesOk env) {ps pe sp : Nat → Bool} (hps : PairsSpecial env ps pe sp) {e s : Ed RD}
    (hs : OnScreen env ps pe sp e s) {regs : Int → List PReg} (hreg : TextPairs env ps pe e regs) {lno : Int} (h0 : 0 ≤ lno) (hlc : lno < e.lineCount)
    (hvis : lno < s.wStart + s.wSize) :
    ∃ s' rs, s.getLineRegions env lno = some (s', rs) ∧ OnScreen env ps pe sp e s' ∧ (s'.wStart = if lno < s.wStart then lno else s.wStart) ∧
      s'.wSize = s.wSize ∧ marksOf (look ps pe) rs = regs lno := by
  obtain ⟨a, a1, a2, a3, a4, a5, a6⟩ := hs
  obtain ⟨s', a', l, p, x1, x2, x3, x4, x5, x6, x7, x8, x9, x10⟩ := up_query hp hr hps a1 a2 a3 a4 h0 (by rw [a5.2.2.2]; exact hlc) hvis (Or.inr a6)
  refine ⟨s', l, x1, ⟨a', x2, x4, by rw [x5.2.1]; exact a3, by omega, ⟨x5.1.trans a5.1, x5.2.1.trans a5.2.1, x5.2.2.1.trans a5.2.2.1,
    x5.2.2.2.trans a5.2.2.2⟩, x3⟩, x7, x8, ?_⟩
  rw [x10]
  refine (hreg lno h0 hlc p ?_).symm
  rw [a5.1, a5.2.1, a5.2.2.1, a5.2.2.2] at x9
  exact x9

theorem screen_init {env : TextParser.Env} (hp : Pure env) (hr : RangesOk env) {ps pe sp : Nat → Bool} (hps : PairsSpecial env ps pe sp) {base : Nat}
    {st : Styles RD} (hc : Calm st) {text : Int → Option Text} {e : Ed RD} (h : SHist env sp (Ed.init base st text) e) (hbp : e.backParse ≤ 0)
    (hh : e.Holds) : OnScreen env ps pe sp e e ∧ 0 ≤ e.wStart := by
  obtain ⟨a, ha⟩ := hist_sim (g := false) hp hr (by simp) hc h.hist
  obtain ⟨c1, c2⟩ := hps.clean
  obtain ⟨y1, y2⟩ := shist_clean hp hr (Q := NoPair ps pe) (by intro r hr; simp at hr) c1 hc c2 h
  refine ⟨⟨a, ha, y1, y2, hbp, ⟨rfl, rfl, rfl, rfl⟩, ?_⟩, ha.sim.ws⟩
  unfold Editor.Settled
  rw [ha.sim.lrSize, ha.sim.wSize, ha.sim.wStart, ha.sim.first]
  exact hh

/-- after a visible line has been asked for, the store holds the visible window -/
theorem settled_after_a_query {env : TextParser.Env} (hp : Pure env) (hr : RangesOk env) {base : Nat} {st : Styles RD} (hc : Calm st)
    {text : Int → Option Text} {e e' : Ed RD} (h : Hist env (Ed.init base st text) e) {lno : Int} (h0 : 0 ≤ lno) (hlc : lno < e.lineCount)
    (hvis : lno < e.wStart + e.wSize) (hbp : e.backParse ≤ 0) {l : List (LR RD)} (hq : e.getLineRegions env lno = some (e', l)) : e'.Holds := by
  obtain ⟨a, ha⟩ := hist_sim (g := false) hp hr (by simp) hc h
  have hs := ha.sim
  obtain ⟨e1, a', rl, ans, x1, x2, x3, _⟩ := query_sim hp hr (g := false) (by simp) ha h0 (by omega)
  rw [hq] at x1
  cases x1
  have := (Editor.query_settles_any (aenv env false) a a' lno _ (by rw [hs.wSize]; exact hs.wpos) (by rw [hs.wStart]; exact hs.ws) h0
      (by rw [hs.lineCount]; exact hlc) (by rw [hs.wStart, hs.wSize]; exact hvis) (by rw [hs.backParse]; exact hbp) x2).1
  unfold Editor.Settled at this
  rw [x3.sim.lrSize, x3.sim.wSize, x3.sim.wStart, x3.sim.first] at this
  exact this

/-! ## Theorems -/

/-- C24: the search on the screen. After any legal history, with the store holding the visible window, `searchLocalPair` from a visible line returns: null
if no pair region of the line in the text coloured from scratch touches the position; otherwise the last one that does and the first region after (or
before) it on the screen (the lines from `wStart` to the end of the window or of the text) where openings and closings cancel out. It always ends. -/
theorem C24_local_search_in_the_editor (env : TextParser.Env) (hp : Pure env) (hr : RangesOk env) (ps pe sp : Nat → Bool) (hps : PairsSpecial env ps pe sp)
    (base : Nat) (st : Styles RD) (hc : Calm st) (text : Int → Option Text) (e : Ed RD) (h : SHist env sp (Ed.init base st text) e) (hbp : e.backParse ≤ 0)
    (hh : e.Holds) (regs : Int → List PReg) (hreg : TextPairs env ps pe e regs) (lineNo pos : Int) (h1 : e.wStart ≤ lineNo)
    (h2 : lineNo < e.wStart + e.wSize) (h3 : lineNo < e.lineCount) :
    ∃ N, ∀ fuel, N ≤ fuel → ∃ e' res, e.searchLocalPair env ps pe fuel lineNo pos = some (e', res) ∧
      Answers (look ps pe) regs lineNo pos e.wStart (min (e.wStart + e.wSize) e.lineCount - 1) res := by
  have hlv : e.lastVisible = min (e.wStart + e.wSize) e.lineCount - 1 := by
    unfold Ed.lastVisible
    split <;> omega
  rw [← hlv]
  obtain ⟨hon, hws⟩ := screen_init hp hr hps hc h hbp hh
  have hlast : e.lastVisible < e.lineCount ∧ e.lastVisible < e.wStart + e.wSize := by
    unfold Ed.lastVisible
    split <;> omega
  have step : ∀ (s : Ed RD) (l : Int), OnScreen env ps pe sp e s ∧ s.wStart = e.wStart ∧ s.wSize = e.wSize → e.wStart ≤ l → l < e.lineCount →
      l < e.wStart + e.wSize → ∃ s' rs, s.getLineRegions env l = some (s', rs) ∧ (OnScreen env ps pe sp e s' ∧ s'.wStart = e.wStart ∧ s'.wSize = e.wSize) ∧
        marksOf (look ps pe) rs = regs l := by
    rintro s l ⟨hs, e1, e2⟩ l1 l2 l3
    obtain ⟨s', rs, x1, x2, x3, x4, x5⟩ := screen_step hp hr hps hs hreg (lno := l) (by omega) l2 (by omega)
    rw [if_neg (by omega)] at x3
    exact ⟨s', rs, x1, ⟨x2, by omega, by omega⟩, x5⟩
  obtain ⟨s1, rs, x1, x2, x3⟩ := step e lineNo ⟨hon, rfl, rfl⟩ h1 h3 h2
  refine Editor.lazy_answers _ (look ps pe) regs e s1 rs lineNo pos e.wStart e.lastVisible ⟨x1, x3⟩ ?_ ?_
  · intro _ _ _ _
    refine ⟨fun s l => (OnScreen env ps pe sp e s ∧ s.wStart = e.wStart ∧ s.wSize = e.wSize) ∧ e.wStart ≤ l, ⟨x2, h1⟩, ?_⟩
    rintro s l ⟨hs, hl⟩ hlt
    obtain ⟨s', rs', y1, y2, y3⟩ := step s (l + 1) hs (by omega) (by omega) (by omega)
    exact ⟨s', rs', y1, ⟨y2, by omega⟩, y3⟩
  · intro _ _ _ _
    refine ⟨fun s l => (OnScreen env ps pe sp e s ∧ s.wStart = e.wStart ∧ s.wSize = e.wSize) ∧ l < e.lineCount ∧ l < e.wStart + e.wSize, ⟨x2, h3, h2⟩, ?_⟩
    rintro s l ⟨hs, hl⟩ hlt
    obtain ⟨s', rs', y1, y2, y3⟩ := step s (l - 1) hs (by omega) (by omega) (by omega)
    exact ⟨s', rs', y1, ⟨y2, by omega, by omega⟩, y3⟩

/-- C24 (partial: closing regions only): the search in the whole text. After any legal history, with the store holding the visible window,
`searchGlobalPair` from a closing region on the screen finds exactly its opening in the text coloured from scratch, however far above, or nothing if there
is none. -/
theorem C24_global_search_upwards_partial (env : TextParser.Env) (hp : Pure env) (hr : RangesOk env) (ps pe sp : Nat → Bool)
    (hps : PairsSpecial env ps pe sp) (base : Nat) (st : Styles RD) (hc : Calm st) (text : Int → Option Text) (e : Ed RD)
    (h : SHist env sp (Ed.init base st text) e) (hbp : e.backParse ≤ 0) (hh : e.Holds) (regs : Int → List PReg) (hreg : TextPairs env ps pe e regs)
    (lineNo pos : Int) (h1 : e.wStart ≤ lineNo) (h2 : lineNo < e.wStart + e.wSize) (h3 : lineNo < e.lineCount)
    (hcl : ∀ r ∈ regs lineNo, IsPairAt pos r → r.isStart = false) :
    ∃ N, ∀ fuel, N ≤ fuel → ∃ e' res, e.searchGlobalPair env ps pe fuel lineNo pos = some (e', res) ∧
      Answers (look ps pe) regs lineNo pos 0 e.lineCount res := by
  obtain ⟨hon, hws⟩ := screen_init hp hr hps hc h hbp hh
  obtain ⟨s1, rs, x1, x2, x3, x4, x5⟩ := screen_step hp hr hps hon hreg (lno := lineNo) (by omega) h3 h2
  rw [if_neg (by omega)] at x3
  refine Editor.lazy_answers _ (look ps pe) regs e s1 rs lineNo pos 0 e.lineCount ⟨x1, x5⟩ ?_ ?_
  · intro t ht hpt hst
    have hm : (look ps pe).reg t ∈ regs lineNo := by
      rw [← x5]
      unfold marksOf
      exact List.mem_filter.2 ⟨List.mem_map.2 ⟨t, ht, rfl⟩, Editor.isPairAt_mark hpt⟩
    rw [hcl _ hm hpt] at hst
    simp at hst
  · intro _ _ _ _
    refine ⟨fun s l => OnScreen env ps pe sp e s ∧ l < e.lineCount ∧ l < s.wStart + s.wSize ∧ 0 < s.wSize, ⟨x2, h3, by omega, by
      have := x2.choose_spec.1.sim.wpos; omega⟩, ?_⟩
    rintro s l ⟨hs, hl, hv, hw⟩ hlt
    obtain ⟨s', rs', y1, y2, y3, y4, y5⟩ := screen_step hp hr hps hs hreg (lno := l - 1) (by omega) (by omega) (by omega)
    refine ⟨s', rs', y1, ⟨y2, by omega, ?_, by omega⟩, y5⟩
    rw [y3, y4]
    split <;> omega

/-- C24 (partial: no line asked for since the window got its size): the search downwards in the whole text. If the text coloured from scratch has a partner
for the last pair region that touches the position, and that is an opening, `searchGlobalPair` finds it, however far below. Missing: texts read
before (C24_violated_below_the_screen), openings without a partner (C24_violated_past_the_end). -/
theorem C24_global_search_downwards_partial (env : TextParser.Env) (hp : Pure env) (hr : RangesOk env) (ps pe sp : Nat → Bool)
    (hps : PairsSpecial env ps pe sp) (base : Nat) (st : Styles RD) (hc : Calm st) (text : Int → Option Text) (e : Ed RD)
    (h : SHist env sp (Ed.init base st text) e) (hbp : e.backParse ≤ 0) (hnew : e.lrSize ≠ e.wSize * 2) (regs : Int → List PReg)
    (hreg : TextPairs env ps pe e regs) (lineNo pos : Int) (h1 : 0 ≤ lineNo) (h3 : lineNo < e.lineCount) (i : Nat) (r : PReg)
    (hi : (regs lineNo)[i]? = some r) (hat : IsPairAt pos r) (hst : r.isStart = true)
    (hlast : ∀ j r', i < j → (regs lineNo)[j]? = some r' → ¬ IsPairAt pos r') (q : Place) (hq : Partner (after regs (e.lineCount - 1) ⟨lineNo, i⟩) 1 q) :
    ∃ N, ∀ fuel, N ≤ fuel → ∃ e' t u, e.searchGlobalPair env ps pe fuel lineNo pos = some (e', some (t, .at q.line u)) ∧
      (look ps pe).reg t = r ∧ (regs q.line)[q.idx]? = some ((look ps pe).reg u) := by
  obtain ⟨a, ha⟩ := hist_sim (g := false) hp hr (by simp) hc h.hist
  obtain ⟨c1, c2⟩ := hps.clean
  obtain ⟨y1, y2⟩ := shist_clean hp hr (Q := NoPair ps pe) (by intro r hr; simp at hr) c1 hc c2 h
  have step : ∀ (s : Ed RD) (a : Editor.Ed (Tagged RD) (Option (Obs RD))) (l : Int), Sim env false s a → Clean (NoPair ps pe) s.store → s.regs.isSpecial = sp →
      s.backParse ≤ 0 → Same e s → (Editor.Down (aenv env false) a ∧ s.wStart ≤ l) ∨ s.lrSize ≠ s.wSize * 2 → 0 ≤ l → l < e.lineCount →
      ∃ s' a' rs, s.getLineRegions env l = some (s', rs) ∧ Sim env false s' a' ∧ Clean (NoPair ps pe) s'.store ∧ s'.regs.isSpecial = sp ∧
        s'.backParse ≤ 0 ∧ Same e s' ∧ Editor.Down (aenv env false) a' ∧ s'.wStart ≤ l ∧ marksOf (look ps pe) rs = regs l := by
    intro s a l b1 b2 b3 b4 b5 b6 b7 b8
    obtain ⟨s', a', rs, p, z1, z2, z3, z4, z5, z6, _, z7, z8, _⟩ := down_query hp hr (g := false) (by simp) b1 b7 (by rw [b5.2.2.2]; exact b8) b4 b6
    obtain ⟨w1, w2, w3⟩ := query_clean hp (Q := NoPair ps pe) (by intro r hr; simp at hr) c1 b1 (by rw [b3]; exact c2) b2 b7
      (by rw [b5.2.2.2]; omega) z1
    refine ⟨s', a', rs, z1, z2, w1, by rw [w2]; exact b3, by omega, ⟨z5.1.trans b5.1, z5.2.1.trans b5.2.1, z5.2.2.1.trans b5.2.2.1,
      z5.2.2.2.trans b5.2.2.2⟩, z3, z4, ?_⟩
    rw [shows_marks z8 w3]
    refine (hreg l b7 b8 p ?_).symm
    rw [b5.1, b5.2.1, b5.2.2.1, b5.2.2.2] at z7
    exact z7
  obtain ⟨s1, a1, rs, z1, z2, z3, z4, z5, z6, z7, z8, z9⟩ := step e a lineNo ha y1 y2 hbp ⟨rfl, rfl, rfl, rfl⟩ (Or.inr hnew) h1 h3
  refine Editor.lazy_found _ (look ps pe) regs e s1 rs lineNo pos 0 e.lineCount (e.lineCount - 1) (by omega) ⟨z1, z9⟩
    (fun s l => ∃ a, Sim env false s a ∧ Clean (NoPair ps pe) s.store ∧ s.regs.isSpecial = sp ∧ s.backParse ≤ 0 ∧ Same e s ∧
      Editor.Down (aenv env false) a ∧ s.wStart ≤ l ∧ 0 ≤ l) ⟨a1, z2, z3, z4, z5, z6, z7, z8, h1⟩ ?_ i r hi hat hst hlast q hq
  rintro s l ⟨a, b1, b2, b3, b4, b5, b6, b7, b8⟩ hlt
  obtain ⟨s', a', rs', w1, w2, w3, w4, w5, w6, w7, w8, w9⟩ := step s a (l + 1) b1 b2 b3 b4 b5 (Or.inl ⟨b6, by omega⟩) (by omega) (by omega)
  exact ⟨s', rs', w1, ⟨a', w2, w3, w4, w5, w6, w7, by omega, by omega⟩, w9⟩

end Verif.Whole
