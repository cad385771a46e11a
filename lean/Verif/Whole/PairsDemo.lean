import Verif.Whole.Pairs
import Verif.Whole.Demo
/-!
# The pair search at work
-/
namespace Verif.Whole

/-- the pair regions of the text always exist: there is one picture of a line at most -/
theorem textPairs_exist {RD : Type} (env : TextParser.Env) (ps pe : Nat → Bool) (e : Ed RD) : ∃ regs, TextPairs env ps pe e regs := by
  classical
  refine ⟨fun l => if h : ∃ p, Paints env e.parser.base e.regs e.text e.lineCount l.toNat p then pairsOf ps pe h.choose else [], ?_⟩
  intro l _ _ p hp
  have h : ∃ p, Paints env e.parser.base e.regs e.text e.lineCount l.toNat p := ⟨p, hp⟩
  dsimp only
  rw [dif_pos h, h.choose_spec.det hp]

namespace PairsDemo
open Verif.TextParser (Ev PState Result Parses Text fresh Pure RangesOk Node parse)
open Verif.TextParser.Demo (env nodes line okk blk env_pure)
open Verif.LineRegions.Spec
open Verif.LineRegions (LR)
open Verif.Whole.Demo (Style ranges text1 tame1)
open Verif.Editor (PReg Place after before Partner Answers Hit IsPairAt)

/-- the styles of Verif.Whole.Demo; both brackets are special -/
def pstyles : Styles Style := { Demo.styles with isSpecial := fun r => r == 7 || r == 8 }

theorem pcalm : Calm pstyles := ⟨Demo.calm.self, fun h => by cases h⟩

def isOpen (r : Nat) : Bool := r == 7
def isClose (r : Nat) : Bool := r == 8

theorem special : PairsSpecial env isOpen isClose pstyles.isSpecial where
  special := by
    intro r h
    simpa [isOpen, isClose, pstyles] using h
  blocks := by
    intro s b h r hr
    have h : Node.block b ∈ nodes s := h
    unfold nodes at h
    split at h <;> simp [blk] at h <;> subst h <;> cases hr <;> rfl

/-- the pair regions of line `L` of the text coloured from scratch -/
def scratchPairs (L : Nat) : Option (List PReg) :=
  match parse (env.text text1) 200 (fresh 0) 0 4 .update with
  | .ok r => (specRun pstyles (blank (Int.toNat 4)) (ops r.evs)).bind fun s => (s.pics L).map fun p => pairsOf isOpen isClose p
  | .error _ => none

theorem scratchPairs_paints {L : Nat} {p : Picture Style} (h : Paints env 0 pstyles text1 4 L p) : scratchPairs L = some (pairsOf isOpen isClose p) := by
  have hp : okk (parse (env.text text1) 200 (fresh 0) 0 4 .update) = true := by decide +kernel
  obtain ⟨r, hr⟩ := Demo.of_okk hp
  obtain ⟨r', s, a1, _, a3, a4⟩ := h
  have := a1.det (TextParser.parses_of_parse hr)
  subst this
  unfold scratchPairs
  rw [hr]
  dsimp only
  rw [a3, Option.bind_some, a4]
  rfl

/-- `a(`, `[x`, `]x`, `)` -/
def table : Int → List PReg := fun l =>
  if l = 0 then [⟨1, 2, true, true, false⟩] else if l = 1 then [⟨0, 1, true, true, false⟩] else if l = 2 then [⟨0, 1, true, false, true⟩]
  else if l = 3 then [⟨0, 1, true, false, true⟩] else []

theorem table_scratch : ∀ L : Nat, L < 4 → scratchPairs L = some (table L) := by
  have h : (List.range 4).all (fun L => scratchPairs L == some (table L)) = true := by decide +kernel
  intro L hL
  exact eq_of_beq (List.all_eq_true.1 h L (List.mem_range.2 hL))

theorem table_ok {e : Ed Style} (h1 : e.parser.base = 0) (h2 : e.regs = pstyles) (h3 : e.text = text1) (h4 : e.lineCount = 4) :
    TextPairs env isOpen isClose e table := by
  intro l l0 l4 p hp
  rw [h1, h2, h3, h4] at hp
  rw [h4] at l4
  have k := table_scratch l.toNat (by omega)
  rw [scratchPairs_paints hp, Option.some.injEq, Int.toNat_of_nonneg l0] at k
  exact k.symm

/-- the text has been loaded -/
theorem loaded : SHist env pstyles.isSpecial (Ed.init 0 pstyles text1) { Ed.init 0 pstyles text1 with lineCount := 4 } := by
  refine .snoc (.edit 0 text1 4) (.nil rfl) ⟨by omega, by omega, fun _ _ => rfl, tame1 0 (Or.inl rfl)⟩ (by intro st h; cases h) ?_
  rfl

/-- … and line 0 has been asked for -/
theorem shown : ∃ e, SHist env pstyles.isSpecial (Ed.init 0 pstyles text1) e ∧ e.Holds ∧ e.parser.base = 0 ∧ e.regs = pstyles ∧ e.text = text1 ∧
    e.lineCount = 4 ∧ e.wStart = 0 ∧ e.wSize = 20 ∧ e.backParse = -1 := by
  have hl : Legal env ({ Ed.init 0 pstyles text1 with lineCount := 4 } : Ed Style) (.query 0) := ⟨by omega, Or.inl (by show (0 : Int) < 4; omega)⟩
  obtain ⟨e, h1⟩ := C58_legal_operations_succeed env env_pure ranges 0 pstyles pcalm text1 _ loaded.hist (.query 0) hl
  have hs : SHist env pstyles.isSpecial (Ed.init 0 pstyles text1) e := .snoc (.query 0) loaded hl (by intro st h; cases h) h1
  simp only [Ed.step, Option.map_eq_some_iff] at h1
  obtain ⟨⟨e', rl⟩, h2, rfl⟩ := h1
  have hh := settled_after_a_query env_pure ranges pcalm loaded.hist (by omega) (by show (0 : Int) < 4; omega) (by show (0 : Int) < 20; omega)
    (by show (-1 : Int) ≤ 0; omega) h2
  have hk := h2
  unfold Ed.getLineRegions at hk
  rw [if_neg (by intro h; have h := h.1; simp [Ed.init] at h), Option.map_eq_some_iff] at hk
  obtain ⟨e2, hv, he⟩ := hk
  cases he
  obtain ⟨k, _⟩ := Demo.validate_keeps hv
  obtain ⟨a, ha⟩ := hist_sim (g := false) env_pure ranges (by simp) pcalm loaded.hist
  refine ⟨e', hs, hh, by rw [k.base]; rfl, by rw [k.regs]; rfl, by rw [k.text]; rfl, k.lineCount, ?_, k.wSize, k.backParse⟩
  obtain ⟨e1, a', r, p, x1, x2, x3, _⟩ := query_shows env_pure ranges (g := false) (by simp) ha (lno := 0) (by omega)
    (by show (0 : Int) < 4; omega) (by show (0 : Int) < 20; omega) (Or.inl (by show (0 : Int) ≤ 0; omega)) (Or.inl (by show (-1 : Int) ≤ 0; omega))
  rw [h2] at x1
  cases x1
  have hsim := ha.sim
  obtain ⟨_, k2, _⟩ := Editor.query_settles_any (aenv env false) a a' 0 _ (by rw [hsim.wSize]; exact hsim.wpos) (by rw [hsim.wStart]; exact hsim.ws)
    (by omega) (by rw [hsim.lineCount]; show (0 : Int) < 4; omega) (by rw [hsim.wStart, hsim.wSize]; show (0 : Int) < 20; omega)
    (by rw [hsim.backParse]; show (-1 : Int) ≤ 0; omega) x2
  rw [x3.sim.wStart, hsim.wStart] at k2
  rw [k2]
  rfl

/-- C24 at work on the screen: from the opening bracket in line 0 to its closing one in line 3 -/
example : ∃ (e e' : Ed Style) (fuel : Nat) (t u : LR Style), SHist env pstyles.isSpecial (Ed.init 0 pstyles text1) e ∧
    e.searchLocalPair env isOpen isClose fuel 0 1 = some (e', some (t, .at 3 u)) := by
  obtain ⟨e, hs, hh, b1, b2, b3, b4, b5, b6, b7⟩ := shown
  obtain ⟨N, hN⟩ := C24_local_search_in_the_editor env env_pure ranges isOpen isClose _ special 0 pstyles pcalm text1 e hs (by omega) hh table
    (table_ok b1 b2 b3 b4) 0 1 (by omega) (by omega) (by omega)
  obtain ⟨e', res, h1, h2⟩ := hN N (Nat.le_refl _)
  rcases h2 with ⟨_, h2⟩ | ⟨i, t, h, r1, r2, r3, r4, r5⟩
  · exact absurd ⟨rfl, by decide, by decide, Or.inl rfl⟩ (h2 ⟨1, 2, true, true, false⟩ (by decide))
  · have hi : i = 0 := by
      obtain ⟨hlt, _⟩ := List.getElem?_eq_some_iff.1 r2
      have : (table 0).length = 1 := rfl
      omega
    subst hi
    have ht : (look isOpen isClose).reg t = (⟨1, 2, true, true, false⟩ : PReg) := by
      have : (table 0)[0]? = some (⟨1, 2, true, true, false⟩ : PReg) := rfl
      rw [this] at r2
      exact (Option.some.inj r2).symm
    rw [ht] at r5
    have hlv : min (e.wStart + e.wSize) e.lineCount - 1 = 3 := by rw [b4, b5, b6]; rfl
    simp only [if_true, hlv] at r5
    have hp : Partner (after table 3 ⟨0, 0⟩) 1 ⟨3, 0⟩ :=
      (Editor.scan_some _ 1 _ (by omega)).1 (by decide +kernel)
    rcases r5 with ⟨_, h3⟩ | ⟨q, u, h3, h4, h5⟩
    · exact absurd hp (h3 _)
    · have hq : q = ⟨3, 0⟩ := by
        have e1 := (Editor.scan_some _ 1 q (by omega)).2 h5
        have e2 := (Editor.scan_some _ 1 ⟨3, 0⟩ (by omega)).2 hp
        rw [e1] at e2
        exact Option.some.inj e2
      subst hq
      subst h3
      subst r1
      exact ⟨e, e', N, t, u, hs, h1⟩

/-- C24 at work in the whole text, downwards: from the opening bracket in line 1 to its closing one in line 2, in a new editor -/
example : ∃ (e e' : Ed Style) (fuel : Nat) (t u : LR Style), SHist env pstyles.isSpecial (Ed.init 0 pstyles text1) e ∧
    e.searchGlobalPair env isOpen isClose fuel 1 0 = some (e', some (t, .at 2 u)) := by
  obtain ⟨N, hN⟩ := C24_global_search_downwards_partial env env_pure ranges isOpen isClose _ special 0 pstyles pcalm text1 _ loaded
    (by show (-1 : Int) ≤ 0; omega) (by show (60 : Int) ≠ 20 * 2; omega) table (table_ok rfl rfl rfl rfl) 1 0 (by omega) (by show (1 : Int) < 4; omega) 0
    ⟨0, 1, true, true, false⟩ rfl ⟨rfl, by decide, by decide, Or.inl rfl⟩ rfl (by
      intro j r hj hr
      obtain ⟨hlt, _⟩ := List.getElem?_eq_some_iff.1 hr
      have : (table 1).length = 1 := rfl
      omega) ⟨2, 0⟩ ((Editor.scan_some _ 1 _ (by omega)).1 (by decide +kernel))
  obtain ⟨e', t, u, h1, _, _⟩ := hN N (Nat.le_refl _)
  exact ⟨_, e', N, t, u, loaded, h1⟩

/-- C24 at work in the whole text, upwards: the conditions are met for the closing bracket in line 3 -/
example : ∃ (e : Ed Style), SHist env pstyles.isSpecial (Ed.init 0 pstyles text1) e ∧ e.backParse ≤ 0 ∧ e.Holds ∧ TextPairs env isOpen isClose e table ∧
    e.wStart ≤ 3 ∧ 3 < e.wStart + e.wSize ∧ 3 < e.lineCount ∧ (∀ r ∈ table 3, IsPairAt 0 r → r.isStart = false) ∧
    Partner (before table 0 ⟨3, 0⟩) (-1) ⟨0, 0⟩ := by
  obtain ⟨e, hs, hh, b1, b2, b3, b4, b5, b6, b7⟩ := shown
  refine ⟨e, hs, by omega, hh, table_ok b1 b2 b3 b4, by omega, by omega, by omega, ?_, (Editor.scan_some _ (-1) _ (by omega)).1 (by decide +kernel)⟩
  intro r hr _
  simp only [show table 3 = [(⟨0, 1, true, false, true⟩ : PReg)] from rfl, List.mem_singleton] at hr
  subst hr
  rfl

end PairsDemo
end Verif.Whole
