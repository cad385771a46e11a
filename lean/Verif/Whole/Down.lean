import Verif.Whole.Props
import Verif.Editor.Down
/-!
# C58: reading a text from top to bottom

As `Verif.Editor.Down`, for the editor with its parser and its line store.
-/
namespace Verif.Whole
open Verif.TextParser (PState Result Parses Text fresh Pure RangesOk Opaque Reach Step Sess)
open Verif.LineRegions (LR Store LineOk Rel Payload Compact Tile paint)
open Verif.LineRegions.Spec
open Verif.Editor (target idleAhead Plan Downwards)

variable {RD : Type}

theorem down_query {env : TextParser.Env} (hp : Pure env) (hr : RangesOk env) {g : Bool} (hg : g = true → Opaque env) {e : Ed RD}
    {a : Editor.Ed (Tagged RD) (Option (Obs RD))} (ha : Sim env g e a) {lno : Int} (h0 : 0 ≤ lno) (hlc : lno < e.lineCount) (hbp : e.backParse ≤ 0)
    (hd : (Editor.Down (aenv env g) a ∧ e.wStart ≤ lno) ∨ e.lrSize ≠ e.wSize * 2) :
    ∃ e' a' l p, e.getLineRegions env lno = some (e', l) ∧ Sim env g e' a' ∧ Editor.Down (aenv env g) a' ∧ e'.wStart ≤ lno ∧
      (e'.parser.base = e.parser.base ∧ e'.regs = e.regs ∧ e'.text = e.text ∧ e'.lineCount = e.lineCount) ∧ e'.backParse = e.backParse ∧ lno ≤ e'.wStart + e'.wSize ∧
      Paints env e.parser.base e.regs e.text e.lineCount lno.toNat p ∧ Shows g l p ∧ Fits env (width e.text lno) l := by
  have hs := ha.sim
  obtain ⟨p, hpp, hlk⟩ := hs.tame.looks hp hr g e.regs h0 hlc
  have hF := hs.lookOf h0 hlk
  obtain ⟨a1, q1, q2, q3, q4, q5, q6, q7⟩ := Editor.query_down (aenv env g) (aenv_sane hp g) (aenv_unbroken env g) a lno h0 (by rw [hs.lineCount]; exact hlc)
    (by rw [hs.backParse]; exact hbp) (by
      rcases hd with hd | hd
      · exact Or.inl ⟨hd.1, by rw [hs.wStart]; exact hd.2⟩
      · exact Or.inr ⟨ha.inv, by rw [hs.wStart]; exact hs.ws, by rw [hs.lrSize, hs.wSize]; exact hd⟩)
  obtain ⟨e', a', l, ans, x1, x2, x3, x4⟩ := query_sim hp hr hg ha h0 (by omega)
  rw [q1] at x2
  cases x2
  rw [hF] at x4
  obtain ⟨p', next, fl, y1, y2, y3⟩ := x4 _ rfl
  have hs' := x3.sim
  have htx : e'.text = e.text := by
    funext i
    rw [← hs'.text i, ← hs.text i, q4]
  have htag : (e'.parser.base, e'.regs) = (e.parser.base, e.regs) := by
    rw [← hs'.tag 0 (Int.le_refl 0), ← hs.tag 0 (Int.le_refl 0), q4]
  simp only [Prod.mk.injEq] at htag
  exact ⟨e', a1, l, p, x1, x3, q2, by rw [← hs'.wStart]; exact q3, ⟨htag.1, htag.2, htx, by rw [← hs'.lineCount, q5, hs.lineCount]⟩,
    by rw [← hs'.backParse, q6, hs.backParse], by rw [← hs'.wStart, ← hs'.wSize]; exact q7.2, hpp, shows_of y1 y2, y3⟩

theorem down_shows {env : TextParser.Env} (hp : Pure env) (hr : RangesOk env) {g : Bool} (hg : g = true → Opaque env) (e0 : Ed RD) (ls : List Int) :
    ∀ (e : Ed RD) (a : Editor.Ed (Tagged RD) (Option (Obs RD))) (m : Int), Sim env g e a → e.backParse ≤ 0 →
      (e.parser.base = e0.parser.base ∧ e.regs = e0.regs ∧ e.text = e0.text ∧ e.lineCount = e0.lineCount) →
      ((Editor.Down (aenv env g) a ∧ e.wStart ≤ m) ∨ e.lrSize ≠ e.wSize * 2) → 0 ≤ m → Downwards m ls → (∀ l ∈ ls, l < e.lineCount) →
      ∃ rs, e.answers env ls = some rs ∧ AllShow env g e0 ls rs := by
  induction ls with
  | nil => intro e a _ _ _ _ _ _ _ _; exact ⟨[], rfl, .nil⟩
  | cons l ls ih =>
    intro e a m ha hbp heq hd hm hdn hl
    obtain ⟨hle, hdn⟩ := hdn
    obtain ⟨e', a', r, p, x1, x2, x3, x4, x5, x6, _, x7, x8, x9⟩ := down_query hp hr hg ha (lno := l) (by omega) (hl l (by simp)) hbp (by
      rcases hd with hd | hd
      · exact Or.inl ⟨hd.1, by have := hd.2; omega⟩
      · exact Or.inr hd)
    obtain ⟨rs, y1, y2⟩ := ih e' a' l x2 (by omega) ⟨x5.1.trans heq.1, x5.2.1.trans heq.2.1, x5.2.2.1.trans heq.2.2.1, x5.2.2.2.trans heq.2.2.2⟩
      (Or.inl ⟨x3, x4⟩) (by omega) hdn (by
        intro x hx
        rw [x5.2.2.2]
        exact hl x (by simp [hx]))
    refine ⟨r :: rs, ?_, .cons (p := p) ?_ x8 (heq.2.2.1 ▸ x9) y2⟩
    · rw [Ed.answers, x1, Option.bind_some, y1]; rfl
    · rw [heq.1, heq.2.1, heq.2.2.1, heq.2.2.2] at x7
      exact x7

/-- C58: reading down. After any legal history in which no line was asked for since the window got its size, any lines asked for from top to
bottom are shown as in the current text coloured from scratch; no window needs to be announced. -/
theorem C58_reading_down_shows_text (env : TextParser.Env) (hp : Pure env) (hr : RangesOk env) (base : Nat) (st : Styles RD) (hc : Calm st)
    (text : Int → Option Text) (e : Ed RD) (h : Hist env (Ed.init base st text) e) (hbp : e.backParse ≤ 0) (hnew : e.lrSize ≠ e.wSize * 2) (ls : List Int)
    (hd : Downwards 0 ls) (hl : ∀ l ∈ ls, l < e.lineCount) (g : Bool) (hg : g = true → Opaque env) :
    ∃ rs, e.answers env ls = some rs ∧ AllShow env g e ls rs := by
  obtain ⟨a, ha⟩ := hist_sim (g := g) hp hr hg hc h
  exact down_shows hp hr hg e ls e a 0 ha hbp ⟨rfl, rfl, rfl, rfl⟩ (Or.inr hnew) (Int.le_refl 0) hd hl

/-- the lines `0 .. n-1`, in order -/
def allLines (n : Nat) : List Int := (List.range n).map Int.ofNat

theorem allLines_down (n : Nat) : Downwards 0 (allLines n) := by
  have key : ∀ (k m : Nat) (j : Int), j ≤ m → Downwards j ((List.range' m k).map Int.ofNat) := by
    intro k
    induction k with
    | zero => intro m j _; trivial
    | succ k ih => intro m j hj; exact ⟨hj, ih (m + 1) _ (by show ((m : Nat) : Int) ≤ _; omega)⟩
  unfold allLines
  rw [List.range_eq_range']
  exact key n 0 0 (by omega)

theorem allLines_lt {n : Nat} {l : Int} (h : l ∈ allLines n) : l < n := by
  simp only [allLines, List.mem_map, List.mem_range] at h
  obtain ⟨x, hx, rfl⟩ := h
  show (x : Int) < n
  omega

/-- A program that prints a text: a new editor is told the number of lines and the type, and asked for all lines in order. Every answer is the
line coloured from scratch. -/
theorem C58_printing_a_text (env : TextParser.Env) (hp : Pure env) (hr : RangesOk env) (base0 base : Nat) (st : Styles RD) (hc : Calm st)
    (text : Int → Option Text) (n : Nat) (ht0 : Tame env base0 text n) (ht : Tame env base text n) (g : Bool) (hg : g = true → Opaque env) :
    ∃ e rs, ((Ed.init base0 st text).step env (.edit 0 text n)).bind (fun e => e.step env (.setType base)) = some e ∧
      e.text = text ∧ e.regs = st ∧ e.parser.base = base ∧ e.lineCount = n ∧
      e.answers env (allLines n) = some rs ∧ AllShow env g e (allLines n) rs := by
  have h1 : Hist env (Ed.init base0 st text) { Ed.init base0 st text with text := text, invalid := 0, lineCount := n } :=
    .snoc (.edit 0 text n) .nil ⟨Int.le_refl 0, by omega, fun _ _ => rfl, ht0⟩ rfl
  have h2 := Hist.snoc (.setType base) h1 (show Tame env base text n from ht) rfl
  obtain ⟨rs, x1, x2⟩ := C58_reading_down_shows_text env hp hr base0 st hc text _ h2 (by show (-1 : Int) ≤ 0; omega)
    (by show (60 : Int) ≠ 20 * 2; decide) (allLines n) (allLines_down n) (fun l hl => allLines_lt hl) g hg
  exact ⟨_, rs, rfl, rfl, rfl, rfl, rfl, x1, x2⟩

end Verif.Whole
