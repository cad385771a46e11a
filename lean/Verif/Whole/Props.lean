import Verif.Whole.Sim
/-!
# C58: the editor, its parser and its line store together

The colours an application gets for a visible line are those of the line in the current text coloured from scratch, after any history of
edits, scrolling, queries, idle jobs, changes of the type and of the styles.
-/
namespace Verif.Whole
open Verif.TextParser (PState Result Parses Text fresh Pure RangesOk Opaque Reach Step Sess)
open Verif.LineRegions (LR Store LineOk Rel Payload Compact Tile paint)
open Verif.LineRegions.Spec
open Verif.Editor (target idleAhead Plan PageUp)

variable {RD : Type}

/-! ## Specification -/

/-- What an operation has to meet in the state it is applied to: edits are announced correctly and leave a text that can be parsed; the visible
window starts at a line and is not empty; an idle job is not called between a change of the window's size and the next query; lines asked for
exist (or the text has a line at all); a new type can parse the text; new styles are `Calm`. -/
def Legal (env : TextParser.Env) (e : Ed RD) : EOp RD → Prop
  | .edit line text count => 0 ≤ line ∧ line ≤ count ∧ (∀ i, i < line → text i = e.text i) ∧ Tame env e.parser.base text count
  | .visible s z => 0 ≤ s ∧ 0 < z
  | .idle _ => e.invalid < e.lineCount → e.lrSize = e.wSize * 2
  | .query l => 0 ≤ l ∧ (0 < e.lineCount ∨ l ≤ e.lineCount)
  | .setType b => Tame env b e.text e.lineCount
  | .setStyles st => Calm st
  | .backParse _ => True

/-- a history of legal operations of a new editor -/
inductive Hist (env : TextParser.Env) (e0 : Ed RD) : Ed RD → Prop
  | nil : Hist env e0 e0
  | snoc {e e' : Ed RD} (op : EOp RD) : Hist env e0 e → Legal env e op → e.step env op = some e' → Hist env e0 e'

/-- `l` shows the picture `p`: the list is in order and without overlaps (specials last); every column has a region; a region drawn at a
column has the style seen there, and, if `g`, is the region seen there; the special regions are those of the picture, in order. -/
structure Shows (g : Bool) (l : List (LR RD)) (p : Picture RD) : Prop where
  compact : Compact l
  covered : ∀ x : Nat, ∃ t ∈ l, t.showsAt x
  style   : ∀ (x : Nat), ∀ t ∈ l, t.showsAt x → ∃ y, p.shown x = some y ∧ t.pay.rdef = y.rdef ∧ (g = true → t.pay.region = y.region)
  special : (l.filter (·.special)).map (fun t => (t.start, t.stop, t.pay.rdef, t.pay.region)) =
              p.specials.map fun t => (t.1, t.2.1, t.2.2.rdef, t.2.2.region)

/-! ## Proof -/

theorem tile_unique {a : Int} {l : List (LR RD)} {t : LR RD} {x : Int} (h : Tile a l) (hm : t ∈ l) (hc : t.start ≤ x ∧ (x < t.stop ∨ t.stop = -1)) :
    paint l x = some t.pay := by
  induction l generalizing a with
  | nil => simp [Tile] at h
  | cons u r ih =>
    rcases List.mem_cons.1 hm with rfl | hm
    · have : t.covers x = true := by
        simp only [LR.covers, Bool.and_eq_true, decide_eq_true_eq, Bool.or_eq_true]; exact hc
      simp [paint, this]
    · cases r with
      | nil => simp at hm
      | cons v w =>
        obtain ⟨k1, k2, k3, k4⟩ := h
        have := k4.mem_ge t hm
        have hu : u.covers x = false := by simp [LR.covers]; omega
        have := ih k4 hm
        simpa [paint, hu] using this

theorem shows_of {g : Bool} {l : List (LR RD)} {p q : Picture RD} {next fl : Nat} (h : LineOk l p next fl) (ho : obs g p = obs g q) : Shows g l q := by
  obtain ⟨ns, sp, e1, e2, e3, e4, e5⟩ := h
  have hspec : ∀ t ∈ sp, t.special = true := fun t ht => (e3 t ht).1
  obtain ⟨f1, f2⟩ := LineRegions.filter_parts e2.nonspec hspec
  simp only [obs, Prod.mk.injEq] at ho
  refine ⟨?_, ?_, ?_, ?_⟩
  · rw [e1]
    refine ⟨by rw [f1, f2], ?_, by rw [f1]; exact e2.tile.disj⟩
    intro t ht hs
    rcases List.mem_append.1 ht with ht | ht
    · exact e2.tile.bounds t ht
    · rw [hspec t ht] at hs; simp at hs
  · intro x
    have hsome := e2.tile.paint_some (x := (x : Int)) (by omega)
    simp only [paint, Option.isSome_map] at hsome
    rw [Option.isSome_iff_exists] at hsome
    obtain ⟨t, ht⟩ := hsome
    have hm := List.mem_of_find?_eq_some ht
    have hc := List.find?_some ht
    simp only [LR.covers, Bool.and_eq_true, decide_eq_true_eq, Bool.or_eq_true] at hc
    exact ⟨t, by rw [e1]; simp [hm], e2.nonspec t hm, hc⟩
  · intro x t ht ⟨g1, g2⟩
    have hm : t ∈ ns := by
      rw [e1] at ht
      rcases List.mem_append.1 ht with ht | ht
      · exact ht
      · rw [hspec t ht] at g1; simp at g1
    have h1 := tile_unique e2.tile hm g2
    rw [e4 x (by omega)] at h1
    have h2 := congrFun ho.1 x
    rw [h1, Option.map_some] at h2
    cases hq : q.shown x with
    | none => rw [hq] at h2; simp at h2
    | some y =>
      rw [hq, Option.map_some, Option.some.injEq] at h2
      simp only [key, Prod.mk.injEq] at h2
      refine ⟨y, rfl, h2.1, ?_⟩
      intro hg
      simpa [hg] using h2.2
  · rw [e1, f2]
    have h2 := ho.2
    rw [← e5, List.map_map] at h2
    have key1 : ∀ (A : List (LR RD)) (B : List (Int × Int × Payload RD)),
        A.map ((fun t : Int × Int × Payload RD => (t.1, t.2.1, key true t.2.2)) ∘ fun t => (t.start, t.stop, t.pay)) =
          B.map (fun t => (t.1, t.2.1, key true t.2.2)) →
        A.map (fun t => (t.start, t.stop, t.pay.rdef, t.pay.region)) = B.map fun t => (t.1, t.2.1, t.2.2.rdef, t.2.2.region) := by
      intro A
      induction A with
      | nil => intro B hB; cases B with
        | nil => rfl
        | cons b B => simp at hB
      | cons a A ih =>
        intro B hB
        cases B with
        | nil => simp at hB
        | cons b B =>
          rw [List.map_cons, List.map_cons, List.cons.injEq] at hB
          rw [List.map_cons, List.map_cons, ih B hB.2]
          have := hB.1
          simp only [Function.comp_apply, key, if_true, Prod.mk.injEq] at this
          simp [this]
    exact key1 sp q.specials h2

theorem init_sim {env : TextParser.Env} (g : Bool) (base : Nat) {st : Styles RD} (hc : Calm st) (text : Int → Option Text) :
    Sim env g (Ed.init base st text) (Editor.Ed.init fun i => ((base, st), text i)) := by
  refine ⟨⟨rfl, rfl, rfl, rfl, rfl, rfl, rfl, rfl, fun _ => rfl, fun _ _ => rfl, .init rfl rfl, hc, ⟨?_, ?_, ?_⟩, ?_, ?_, ?_⟩, ?_⟩
  · show (0 : Int) ≤ 0; omega
  · show (0 : Int) ≤ _; omega
  · obtain ⟨r, a, b, _⟩ := TextParser.parse_zero (env.text text) (fresh base) rfl
    exact ⟨r, a, b⟩
  · show (0 : Int) ≤ 0; omega
  · show (0 : Int) < 20; omega
  · intro i _ o ho
    have ho : (none : Option (Option (Obs RD))) = some (some o) := ho
    simp at ho
  · refine ⟨⟨by simp [Editor.Ed.init], by simp [Editor.Ed.init], by simp [Editor.Ed.init]⟩, rfl, by simp [Editor.Ed.init], by simp [Editor.Ed.init], ?_⟩
    intro L h0 _ _ h3
    simp only [Editor.Ed.init] at h3
    omega

theorem reach_edit {env : TextParser.Env} {base : Nat} {s : Sess} (h : Reach env base s) {T : Int → Option Text} {k : Int} (hk : 0 ≤ k)
    (hT : ∀ l, l < k → T l = s.text l) : Reach env base ⟨T, s.p, if k < s.good then k else s.good⟩ := by
  have := Reach.step h (.edit (T := T) hk hT)
  rw [show min s.good k = if k < s.good then k else s.good from by split <;> omega] at this
  exact this

/-- every legal operation succeeds, and the abstract editor follows -/
theorem step_sim {env : TextParser.Env} (hp : Pure env) (hr : RangesOk env) {g : Bool} (hg : g = true → Opaque env) {c : Ed RD}
    {a : Editor.Ed (Tagged RD) (Option (Obs RD))} (h : Sim env g c a) (op : EOp RD) (hop : Legal env c op) :
    ∃ c' a', c.step env op = some c' ∧ Sim env g c' a' := by
  have hs := h.sim
  have sane := aenv_sane (RD := RD) hp g
  have unb := aenv_unbroken (RD := RD) env g
  -- a step of the abstract editor that changes the text from line `k` on
  have edit : ∀ (k : Int) (t : Int → Tagged RD) (count : Int), 0 ≤ k → k ≤ count → (∀ i, i < k → t i = a.text i) →
      Editor.Inv2 (aenv env g) { a with text := t, good := if k < a.good then k else a.good, invalid := if a.invalid > k then k else a.invalid, lineCount := count } :=
    fun k t count h1 h2 h3 => Editor.step_inv2 (aenv env g) sane unb a _ (.edit k t count) h.inv ⟨h1, h2, h3⟩ trivial rfl
  have hlc := hs.tame.pos
  have hinv0 : 0 ≤ a.invalid := h.inv.inv1.nonneg
  have hz : (if a.invalid > 0 then 0 else a.invalid) = 0 := by split <;> omega
  cases op with
  | edit line text count =>
    obtain ⟨h1, h2, h3, h4⟩ := hop
    refine ⟨_, _, rfl, ?_, edit line (fun i => ((a.text i).1, text i)) count h1 h2 ?_⟩
    · refine ⟨hs.wStart, hs.wSize, rfl, hs.lrSize, ?_, hs.backParse, hs.first, hs.n, fun _ => rfl, hs.tag, reach_edit hs.reach h1 h3, hs.calm, h4, hs.ws,
        hs.wpos, hs.slots⟩
      show (if a.invalid > line then line else a.invalid) = if c.invalid > line then line else c.invalid
      rw [hs.invalid]
    · intro i hi
      show ((a.text i).1, text i) = a.text i
      rw [h3 i hi, ← hs.text i]
  | visible s z =>
    obtain ⟨h1, h2⟩ := hop
    refine ⟨_, _, rfl, ?_, Editor.step_inv2 (aenv env g) sane unb a _ (.visible s z) h.inv trivial h2 rfl⟩
    exact ⟨rfl, rfl, hs.lineCount, hs.lrSize, hs.invalid, hs.backParse, hs.first, hs.n, hs.text, hs.tag, hs.reach, hs.calm, hs.tame, h1, h2, hs.slots⟩
  | idle t =>
    have hop : c.invalid < c.lineCount → c.lrSize = c.wSize * 2 := hop
    show ∃ c' a', c.idleJob env t = some c' ∧ Sim env g c' a'
    unfold Ed.idleJob
    split
    · rename_i hlt
      have hah : 0 ≤ idleAhead t := by unfold idleAhead; dsimp only; split <;> split <;> omega
      have hi := hs.invalid
      obtain ⟨c', a', v1, _, v3⟩ := validate_sim hp hr hg h (lno := c.invalid + idleAhead t) (by unfold target; split <;> omega) false (fun _ => hop hlt)
      exact ⟨c', a', v1, v3⟩
    · exact ⟨c, a, rfl, h⟩
  | query l =>
    obtain ⟨h1, h2⟩ := hop
    show ∃ c' a', (c.getLineRegions env l).map (·.1) = some c' ∧ Sim env g c' a'
    unfold Ed.getLineRegions
    split
    · exact ⟨c, a, rfl, h⟩
    · obtain ⟨c', a', v1, _, v3⟩ := validate_sim hp hr hg h (lno := l) (by unfold target; split <;> omega) true (by simp)
      rw [v1]
      exact ⟨c', a', rfl, v3⟩
  | setType b =>
    have hop : Tame env b c.text c.lineCount := hop
    have hinv := edit 0 (fun i => if i < 0 then a.text i else ((b, c.regs), (a.text i).2)) a.lineCount (Int.le_refl 0) (by rw [hs.lineCount]; exact hlc) (by
      intro i hi; rw [if_pos hi])
    refine ⟨_, _, rfl, ?_, hinv⟩
    refine ⟨hs.wStart, hs.wSize, hs.lineCount, hs.lrSize, hz, hs.backParse, hs.first, hs.n, ?_, ?_, ?_, hs.calm, hop, hs.ws, hs.wpos, hs.slots⟩
    · intro i
      show (if i < 0 then a.text i else ((b, c.regs), (a.text i).2)).2 = c.text i
      split <;> exact hs.text i
    · intro i hi
      show (if i < 0 then a.text i else ((b, c.regs), (a.text i).2)).1 = (b, c.regs)
      rw [if_neg (by omega)]
    · show Reach env b ⟨c.text, { c.parser with cache := [], base := b }, if 0 < a.good then 0 else a.good⟩
      have hgd := h.inv.inv1.good
      rw [show (if 0 < a.good then 0 else a.good) = 0 from by split <;> omega]
      exact .init rfl rfl
  | setStyles st =>
    have hop : Calm st := hop
    have hinv := edit 0 (fun i => if i < 0 then a.text i else ((c.parser.base, st), (a.text i).2)) a.lineCount (Int.le_refl 0) (by rw [hs.lineCount]; exact hlc) (by
      intro i hi; rw [if_pos hi])
    refine ⟨_, _, rfl, ?_, hinv⟩
    refine ⟨hs.wStart, hs.wSize, hs.lineCount, hs.lrSize, hz, hs.backParse, hs.first, hs.n, ?_, ?_, reach_edit hs.reach (Int.le_refl 0) fun _ _ => rfl, hop,
      hs.tame, hs.ws, hs.wpos, hs.slots⟩
    · intro i
      show (if i < 0 then a.text i else ((c.parser.base, st), (a.text i).2)).2 = c.text i
      split <;> exact hs.text i
    · intro i hi
      show (if i < 0 then a.text i else ((c.parser.base, st), (a.text i).2)).1 = (c.parser.base, st)
      rw [if_neg (by omega)]
  | backParse v =>
    refine ⟨_, _, rfl, ?_, Editor.step_inv2 (aenv env g) sane unb a _ (.backParse v) h.inv trivial trivial rfl⟩
    exact ⟨hs.wStart, hs.wSize, hs.lineCount, hs.lrSize, hs.invalid, rfl, hs.first, hs.n, hs.text, hs.tag, hs.reach, hs.calm, hs.tame, hs.ws, hs.wpos, hs.slots⟩

theorem hist_sim {env : TextParser.Env} (hp : Pure env) (hr : RangesOk env) {g : Bool} (hg : g = true → Opaque env) {base : Nat} {st : Styles RD}
    (hc : Calm st) {text : Int → Option Text} {e : Ed RD} (h : Hist env (Ed.init base st text) e) : ∃ a, Sim env g e a := by
  induction h with
  | nil => exact ⟨_, init_sim g base hc text⟩
  | snoc op _ hop hst ih =>
    obtain ⟨a, ha⟩ := ih
    obtain ⟨c', a', h1, h2⟩ := step_sim hp hr hg ha op hop
    rw [hst] at h1
    cases h1
    exact ⟨a', h2⟩

/-- a query follows the abstract one; a known answer of the abstract editor is shown -/
theorem query_sim {env : TextParser.Env} (hp : Pure env) (hr : RangesOk env) {g : Bool} (hg : g = true → Opaque env) {c : Ed RD}
    {a : Editor.Ed (Tagged RD) (Option (Obs RD))} (h : Sim env g c a) {l : Int} (h0 : 0 ≤ l) (hl : 0 < c.lineCount ∨ l ≤ c.lineCount) :
    ∃ c' a' rl ans, c.getLineRegions env l = some (c', rl) ∧ a.getLineRegions (aenv env g) l = some (a', ans) ∧ Sim env g c' a' ∧
      ∀ o, ans = some (some o) → ∃ p next fl, LineOk rl p next fl ∧ obs g p = o.1 ∧ Fits env o.2 rl := by
  have hs := h.sim
  unfold Ed.getLineRegions Editor.Ed.getLineRegions
  rw [hs.backParse, hs.invalid]
  split
  · exact ⟨c, a, [], none, rfl, rfl, h, by intro o ho; simp at ho⟩
  · obtain ⟨c', a', v1, v2, v3⟩ := validate_sim hp hr hg h (lno := l) (by have := hs.tame.pos; unfold target; split <;> omega) true (by simp)
    rw [v1, v2]
    refine ⟨c', a', _, _, rfl, rfl, v3, ?_⟩
    intro o ho
    rw [if_neg (by omega)]
    unfold Editor.Ed.stored at ho
    split at ho
    · rename_i hw
      rw [v3.sim.first, v3.sim.n] at hw
      have hwin : inWin c'.store.first c'.store.n l.toNat := ⟨by omega, by omega⟩
      rw [Store.lineRegions, if_pos ((LineRegions.inWindow_iff _ _).2 hwin), LineRegions.index_eq _ _ hwin]
      have hn : 0 < c'.store.n := by omega
      rw [v3.sim.n, show l % (c'.store.n : Int) = ((l.toNat % c'.store.n : Nat) : Int) from by
        rw [Int.natCast_emod]; congr 1; omega] at ho
      obtain ⟨p, fl, k1, k2, k3⟩ := v3.sim.slots _ (Nat.mod_lt _ hn) o ho
      exact ⟨p, _, fl, k1, k2, k3⟩
    · simp at ho

/-! ## Theorems -/

/-- C58: in a grammar whose expressions report proper ranges, every legal operation of an editor with a legal history succeeds: no parse runs
forever or throws, no dangling pointer is followed, no calls in a wrong order reach the store. -/
theorem C58_legal_operations_succeed (env : TextParser.Env) (hp : Pure env) (hr : RangesOk env) (base : Nat) (st : Styles RD) (hc : Calm st)
    (text : Int → Option Text) (e : Ed RD) (h : Hist env (Ed.init base st text) e) (op : EOp RD) (hop : Legal env e op) :
    ∃ e', e.step env op = some e' := by
  obtain ⟨a, ha⟩ := hist_sim (g := false) hp hr (by simp) hc h
  obtain ⟨c', _, h1, _⟩ := step_sim hp hr (g := false) (by simp) ha op hop
  exact ⟨c', h1⟩

theorem query_shows {env : TextParser.Env} (hp : Pure env) (hr : RangesOk env) {g : Bool} (hg : g = true → Opaque env) {e : Ed RD}
    {a : Editor.Ed (Tagged RD) (Option (Obs RD))} (ha : Sim env g e a) {lno : Int} (h0 : 0 ≤ lno) (hlc : lno < e.lineCount)
    (hvis : lno < e.wStart + e.wSize) (hpg : lno ≤ e.wStart ∨ lno < e.invalid ∨ ¬ PageUp a lno) (hbp : e.backParse ≤ 0 ∨ lno - e.invalid ≤ e.backParse) :
    ∃ e' a' l p, e.getLineRegions env lno = some (e', l) ∧ a.getLineRegions (aenv env g) lno = some (a', some ((aenv env g).F a.text lno)) ∧ Sim env g e' a' ∧
      Paints env e.parser.base e.regs e.text e.lineCount lno.toNat p ∧ Shows g l p ∧ Fits env (width e.text lno) l := by
  have hs := ha.sim
  obtain ⟨p, hpp, hlk⟩ := hs.tame.looks hp hr g e.regs h0 hlc
  have hF := hs.lookOf h0 hlk
  obtain ⟨a1, q1, _, _⟩ := Editor.query_fresh (aenv env g) (aenv_sane hp g) (aenv_unbroken env g) a ha.inv lno h0 (by rw [hs.lineCount]; exact hlc)
    (by rw [hs.wStart]; exact hs.ws) (by rw [hs.wStart, hs.wSize]; exact hvis) (by rw [hs.wStart, hs.invalid]; exact hpg)
    (by rw [hs.backParse, hs.invalid]; exact hbp)
  obtain ⟨e', a', l, ans, x1, x2, x3, x4⟩ := query_sim hp hr hg ha h0 (by omega)
  rw [q1] at x2
  cases x2
  rw [hF] at x4
  obtain ⟨p', next, fl, y1, y2, y3⟩ := x4 _ rfl
  exact ⟨e', a1, l, p, x1, q1, x3, hpp, shows_of y1 y2, y3⟩

/-- the page above the store's window is being shown, and the line asked for is not its first (see C22) -/
def PageUpOf (e : Ed RD) (lno : Int) : Prop :=
  e.lrSize = e.wSize * 2 ∧ (e.store.first : Int) - (if lno < e.wStart then lno else e.wStart).tdiv e.wSize * e.wSize = e.wSize

/-- C58 (partial: the restrictions of C22): after any legal history, the answer for a visible line shows the picture of that line in the
current text, coloured from scratch with the current type and styles: same style at every column, same special regions. -/
theorem C58_query_shows_text_partial (env : TextParser.Env) (hp : Pure env) (hr : RangesOk env) (base : Nat) (st : Styles RD) (hc : Calm st)
    (text : Int → Option Text) (e : Ed RD) (h : Hist env (Ed.init base st text) e) (lno : Int) (h0 : 0 ≤ lno) (hlc : lno < e.lineCount)
    (hvis : lno < e.wStart + e.wSize) (hpg : lno ≤ e.wStart ∨ lno < e.invalid ∨ ¬ PageUpOf e lno) (hbp : e.backParse ≤ 0 ∨ lno - e.invalid ≤ e.backParse) :
    ∃ e' l p, e.getLineRegions env lno = some (e', l) ∧ Paints env e.parser.base e.regs e.text e.lineCount lno.toNat p ∧ Shows false l p := by
  obtain ⟨a, ha⟩ := hist_sim (g := false) hp hr (by simp) hc h
  obtain ⟨e', _, l, p, x1, _, _, x4, x5, _⟩ := query_shows hp hr (g := false) (by simp) ha h0 hlc hvis (by
    unfold PageUp; rw [ha.sim.lrSize, ha.sim.wSize, ha.sim.first, ha.sim.wStart]; exact hpg) hbp
  exact ⟨e', l, p, x1, x4, x5⟩

/-- C58 (partial: the restrictions of C22): if every block of the grammar has a region, the regions are those of the picture, too. -/
theorem C58_query_shows_regions_partial (env : TextParser.Env) (hp : Pure env) (hr : RangesOk env) (ho : Opaque env) (base : Nat) (st : Styles RD)
    (hc : Calm st) (text : Int → Option Text) (e : Ed RD) (h : Hist env (Ed.init base st text) e) (lno : Int) (h0 : 0 ≤ lno) (hlc : lno < e.lineCount)
    (hvis : lno < e.wStart + e.wSize) (hpg : lno ≤ e.wStart ∨ lno < e.invalid ∨ ¬ PageUpOf e lno) (hbp : e.backParse ≤ 0 ∨ lno - e.invalid ≤ e.backParse) :
    ∃ e' l p, e.getLineRegions env lno = some (e', l) ∧ Paints env e.parser.base e.regs e.text e.lineCount lno.toNat p ∧ Shows true l p := by
  obtain ⟨a, ha⟩ := hist_sim (g := true) hp hr (fun _ => ho) hc h
  obtain ⟨e', _, l, p, x1, _, _, x4, x5, _⟩ := query_shows hp hr (g := true) (fun _ => ho) ha h0 hlc hvis (by
    unfold PageUp; rw [ha.sim.lrSize, ha.sim.wSize, ha.sim.first, ha.sim.wStart]; exact hpg) hbp
  exact ⟨e', l, p, x1, x4, x5⟩

/-- answers and pictures, line by line; the regions lie in the line, if expressions and keyword lists report what lies in the text -/
inductive AllShow (env : TextParser.Env) (g : Bool) (e : Ed RD) : List Int → List (List (LR RD)) → Prop
  | nil : AllShow env g e [] []
  | cons {l : Int} {ls : List Int} {r : List (LR RD)} {rs : List (List (LR RD))} {p : Picture RD} :
      Paints env e.parser.base e.regs e.text e.lineCount l.toNat p → Shows g r p →
      Fits env (width e.text l) r → AllShow env g e ls rs → AllShow env g e (l :: ls) (r :: rs)

/-- the regions of every answer lie in the line asked for -/
inductive AllIn (e : Ed RD) : List Int → List (List (LR RD)) → Prop
  | nil : AllIn e [] []
  | cons {l : Int} {ls : List Int} {r : List (LR RD)} {rs : List (List (LR RD))} : (∀ t ∈ r, Viewer.ColLe (width e.text l) t) → AllIn e ls rs →
      AllIn e (l :: ls) (r :: rs)

theorem AllShow.allIn {env : TextParser.Env} {g : Bool} {e : Ed RD} {ls : List Int} {rs : List (List (LR RD))} (hi : TextParser.RangesIn env)
    (h : AllShow env g e ls rs) : AllIn e ls rs := by
  induction h with
  | nil => exact .nil
  | cons _ _ c _ ih => exact .cons (c hi) ih

theorem settled_shows {env : TextParser.Env} (hp : Pure env) (hr : RangesOk env) {g : Bool} (hg : g = true → Opaque env) (e0 : Ed RD) (ls : List Int) :
    ∀ (e : Ed RD) (a : Editor.Ed (Tagged RD) (Option (Obs RD))), Sim env g e a → Editor.Settled a → e.backParse ≤ 0 →
      (e.parser.base = e0.parser.base ∧ e.regs = e0.regs ∧ e.text = e0.text ∧ e.lineCount = e0.lineCount) →
      (∀ l ∈ ls, e.wStart ≤ l ∧ l < e.wStart + e.wSize ∧ l < e.lineCount) →
      ∃ rs, e.answers env ls = some rs ∧ AllShow env g e0 ls rs := by
  induction ls with
  | nil => intro e a _ _ _ _ _; exact ⟨[], rfl, .nil⟩
  | cons l ls ih =>
    intro e a ha hset hbp heq hl
    obtain ⟨h1, h2, h3⟩ := hl l (by simp)
    have hs := ha.sim
    have hws := hs.ws
    have hwp := hs.wpos
    have hfl := Editor.tdiv_floor e.wStart e.wSize hws hwp
    have hnp : ¬ PageUp a l := by
      unfold PageUp
      rw [hs.wStart, hs.wSize, if_neg (by omega)]
      rintro ⟨_, hx⟩
      have := hset.2.1
      rw [hs.wStart] at this
      omega
    obtain ⟨e', a', r, p, x1, x2, x3, x4, x5, x6⟩ := query_shows hp hr hg ha (lno := l) (by omega) h3 h2 (Or.inr (Or.inr hnp)) (Or.inl hbp)
    obtain ⟨k1, k2, k3, k4, k5, k6⟩ := Editor.query_settles (aenv env g) a a' l _ (by rw [hs.wSize]; exact hwp) (by rw [hs.wStart]; exact hws) (by omega)
      (by rw [hs.lineCount]; exact h3) (by rw [hs.wStart]; exact h1) (by rw [hs.wStart, hs.wSize]; exact h2) (by rw [hs.backParse]; exact hbp) x2
    have hs' := x3.sim
    rw [hs.wStart, hs'.wStart] at k2
    rw [hs.wSize, hs'.wSize] at k3
    rw [hs.lineCount, hs'.lineCount] at k4
    rw [hs.backParse, hs'.backParse] at k6
    have htx : e'.text = e.text := by
      funext i
      rw [← hs'.text i, ← hs.text i, k5]
    have htag : (e'.parser.base, e'.regs) = (e.parser.base, e.regs) := by
      rw [← hs'.tag 0 (Int.le_refl 0), ← hs.tag 0 (Int.le_refl 0), k5]
    simp only [Prod.mk.injEq] at htag
    obtain ⟨rs, y1, y2⟩ := ih e' a' x3 k1 (by omega) ⟨by rw [htag.1]; exact heq.1, by rw [htag.2]; exact heq.2.1, by rw [htx]; exact heq.2.2.1,
      by rw [k4]; exact heq.2.2.2⟩ (by
        intro x hx
        have := hl x (by simp [hx])
        rw [k2, k3, k4]; exact this)
    refine ⟨r :: rs, ?_, .cons (p := p) ?_ x5 (heq.2.2.1 ▸ x6) y2⟩
    · rw [Ed.answers, x1, Option.bind_some, y1]; rfl
    · rw [heq.1, heq.2.1, heq.2.2.1, heq.2.2.2] at x4
      exact x4

/-- C58 (partial): painting a screen. After any legal history, asking for the first visible line and then for any visible lines in any order and
number, every answer shows the picture of its line in the current text, coloured from scratch. -/
theorem C58_screen_shows_text_partial (env : TextParser.Env) (hp : Pure env) (hr : RangesOk env) (base : Nat) (st : Styles RD) (hc : Calm st)
    (text : Int → Option Text) (e : Ed RD) (h : Hist env (Ed.init base st text) e) (hbp : e.backParse ≤ 0) (hlc : e.wStart < e.lineCount) (ls : List Int)
    (hl : ∀ l ∈ ls, e.wStart ≤ l ∧ l < e.wStart + e.wSize ∧ l < e.lineCount) (g : Bool) (hg : g = true → Opaque env) :
    ∃ rs, e.answers env (e.wStart :: ls) = some rs ∧ AllShow env g e (e.wStart :: ls) rs := by
  obtain ⟨a, ha⟩ := hist_sim (g := g) hp hr hg hc h
  have hs := ha.sim
  have hws := hs.ws
  have hwp := hs.wpos
  obtain ⟨e', a', r, p, x1, x2, x3, x4, x5, x6⟩ := query_shows hp hr hg ha (lno := e.wStart) hws hlc (by omega) (Or.inl (by omega)) (Or.inl hbp)
  obtain ⟨k1, k2, k3, k4, k5, k6⟩ := Editor.query_settles (aenv env g) a a' e.wStart _ (by rw [hs.wSize]; exact hwp) (by rw [hs.wStart]; exact hws) hws
    (by rw [hs.lineCount]; exact hlc) (by rw [hs.wStart]; omega) (by rw [hs.wStart, hs.wSize]; omega) (by rw [hs.backParse]; exact hbp) x2
  have hs' := x3.sim
  rw [hs.wStart, hs'.wStart] at k2
  rw [hs.wSize, hs'.wSize] at k3
  rw [hs.lineCount, hs'.lineCount] at k4
  rw [hs.backParse, hs'.backParse] at k6
  have htx : e'.text = e.text := by
    funext i
    rw [← hs'.text i, ← hs.text i, k5]
  have htag : (e'.parser.base, e'.regs) = (e.parser.base, e.regs) := by
    rw [← hs'.tag 0 (Int.le_refl 0), ← hs.tag 0 (Int.le_refl 0), k5]
  simp only [Prod.mk.injEq] at htag
  obtain ⟨rs, y1, y2⟩ := settled_shows hp hr hg e ls e' a' x3 k1 (by omega) ⟨htag.1, htag.2, htx, k4⟩ (by
    intro x hx
    have := hl x hx
    rw [k2, k3, k4]; exact this)
  exact ⟨r :: rs, by rw [Ed.answers, x1, Option.bind_some, y1]; rfl, .cons x4 x5 x6 y2⟩

end Verif.Whole
