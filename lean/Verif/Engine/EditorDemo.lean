import Verif.Engine.Editor
import Verif.Engine.Demo
import Verif.Whole.Demo
/-!
# An editor with the grammar of Demo.lean: the conditions of C34 and C58 are met
-/
namespace Verif.Engine.Demo
open Verif.TextParser (Query Match Env Text PState Result Parses fresh)
open Verif.Whole (Ed EOp Legal Tame Paints Shows)
open Verif.Whole.Demo (styles calm)

theorem env_still : Still lang env where
  re := by
    intro s start low regs h
    rcases nodes_cases h with h | h | h | h <;> simp at h
    · obtain ⟨rfl, _⟩ := h; show RegExp.noTilde number.body = true; decide +kernel
    · obtain ⟨rfl, _⟩ := h; show RegExp.noTilde escaped.body = true; decide +kernel
  start := by
    intro s b h
    rcases nodes_cases h with h | h | h | h <;> simp at h
    subst h
    show RegExp.noTilde quote.body = true; decide +kernel
  stop := by
    intro s b h
    rcases nodes_cases h with h | h | h | h <;> simp at h
    subst h
    show RegExp.noTilde quoteEnd.body = true; decide +kernel
  brk := fun _ => rfl

theorem env_opaque : TextParser.Opaque env := by
  intro s b h
  rcases nodes_cases h with h | h | h | h <;> simp at h
  subst h; rfl

noncomputable def tameB : Bool := match TextParser.parse env 60 (fresh 0) 0 2 .update with | .ok r => !r.hit | .error _ => false

theorem tame : Tame (env.with rx) 0 line 2 := by
  have h : tameB = true := by decide +kernel
  unfold tameB at h
  refine ⟨by omega, by omega, ?_⟩
  cases e : TextParser.parse env 60 (fresh 0) 0 2 .update with
  | error _ => rw [e] at h; simp at h
  | ok r => rw [e] at h; exact ⟨r, TextParser.parses_of_parse e, by simpa using h⟩

/-- an editor whose line source has the two lines, after `lineCountEvent(2)` -/
noncomputable def ed : Ed Whole.Demo.Style := { Ed.init 0 styles line with lineCount := 2 }

theorem ed_hist : HistE lang env (Ed.init 0 styles line) ed := by
  refine .snoc (rx := rx) (.edit 0 line 2) .nil env_engine ⟨by omega, by omega, fun _ _ => rfl, tame⟩ ?_
  rfl

/-- both lines can be asked for and show the picture -/
example (lno : Int) (h : lno = 0 ∨ lno = 1) (rx' : Nat → Query → Bool × Match) (he : Engine lang (env.with rx')) :
    ∃ e' l p, ed.getLineRegions (env.with rx') lno = some (e', l) ∧ Paints env 0 styles line 2 lno.toNat p ∧ Shows true l p := by
  have h0 : 0 ≤ lno := by omega
  have h1 : lno < ed.lineCount := by show lno < 2; omega
  obtain ⟨e', l, p, h1, h2, h3⟩ := C58_query_shows_text_with_the_matcher_partial lang env env_fit env_still 0 styles calm line ed ed_hist lno h0 h1
    (by show lno < 0 + 20; omega) (Or.inr (Or.inr (by
      rintro ⟨h2, _⟩
      have h2 : (60 : Int) = 20 * 2 := h2
      omega)))
    (Or.inl (by show (-1 : Int) ≤ 0; omega)) true (fun _ => env_opaque) rx' he
  exact ⟨e', l, p, h1, h2 rx env_engine, h3⟩

example (rx' : Nat → Query → Bool × Match) (he : Engine lang (env.with rx')) : ∃ e', ed.step (env.with rx') (.query 1) = some e' :=
  C58_legal_operations_succeed_with_the_matcher lang env env_fit env_still 0 styles calm line ed ed_hist (.query 1) rx' he
    ⟨by omega, .inl (by show (0 : Int) < 2; omega)⟩

example (rx' : Nat → Query → Bool × Match) (he : Engine lang (env.with rx')) : ∃ rs, AnswersE lang env ed [0, 1, 0] rs ∧
    Whole.AllShow (env.with rx') true ed [0, 1, 0] rs := by
  obtain ⟨⟨rs, h1⟩, h2⟩ := C58_screen_shows_text_with_the_matcher_partial lang env env_fit env_still 0 styles calm line ed ed_hist (by show (-1 : Int) ≤ 0; omega)
    (by show (0 : Int) < 2; omega) [1, 0] (by
      intro l hl
      show (0 : Int) ≤ l ∧ l < 0 + 20 ∧ l < 2
      simp only [List.mem_cons, List.not_mem_nil, or_false] at hl
      omega) true (fun _ => env_opaque) rx' he
  exact ⟨rs, h1, h2 rs h1⟩

/-- C34: parse both lines, then line 1 alone: inside the string again -/
example : ∃ r1 : Result, ReachE lang env 0 ⟨line, r1.after, 2⟩ ∧ ∀ rx', Engine lang (env.with rx') →
    ∃ r, Parses ((env.with rx').text line) r1.after 1 1 .read r ∧ TextParser.between 1 2 r.evs = TextParser.between 1 2 expected := by
  obtain ⟨r1, h1, h2⟩ := runs
  have hr : r1.hit = false := by
    obtain ⟨r, h3, h4⟩ := tame.ok
    cases h1 with
    | @cons _ _ _ rx1 _ _ a b c =>
      have := runs_same env_fit [job] (properE_fresh lang env 0) (.cons a b .nil) (.cons (rx := rx) env_engine h3 .nil)
      simp only [List.cons.injEq, and_true] at this
      rw [← this]; exact h4
  cases h1 with
  | @cons _ _ _ rx1 _ _ a b c =>
    have hre : ReachE lang env 0 ⟨line, r1.after, 2⟩ := by
      refine .step (rx := rx1) (s := ⟨line, fresh 0, 0⟩) (.init rfl rfl) a ?_
      exact .update (F := 0) (E := 2) (r := r1) (r0 := r1) (Int.le_refl 0) (Int.le_refl 0) (by omega) (by omega) b hr b
    refine ⟨r1, hre, fun rx' he => ?_⟩
    obtain ⟨r, c1, c2, _⟩ := C34_any_history_with_the_matcher_partial lang env env_fit env_still 0 _ hre rx' rx1 he a 1 2 (by omega)
      (by show (1 : Int) ≤ 2; omega) (by omega) .read (by simp) r1 b hr
    exact ⟨r, c1, by rw [c2, h2]⟩

end Verif.Engine.Demo
