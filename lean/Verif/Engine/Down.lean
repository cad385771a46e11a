import Verif.Engine.Screen
import Verif.Whole.Down
/-!
# Reading a text from top to bottom, with the library's own expressions

`Verif.Whole.Down` for the matcher and for loaded types.
-/
namespace Verif.Engine
open Verif.RegExp (Chars)
open Verif.TextParser (Env Text Query Match)
open Verif.LineRegions (LR)
open Verif.Hrc (World Lib Name Act acts)
open Verif.Whole (Ed EOp Legal Hist Styles Calm Tame Paints Shows AllShow AllIn allLines)
open Verif.Editor (Downwards)

variable {RD : Type}

theorem allShow_canon {lang : Lang} {env : Env} (hf : Fit lang env) (hs : Still lang env) {rx : Nat → Query → Bool × Match} (he : Engine lang (env.with rx))
    {g : Bool} {e : Ed RD} {ls : List Int} {rs : List (List (LR RD))} (h : AllShow (env.with (canon lang)) g e ls rs) : AllShow (env.with rx) g e ls rs := by
  induction h with
  | nil => exact .nil
  | cons a b c _ ih => exact .cons (paints_canon hf hs he a) b (fun _ => c (canon_in hf)) ih

/-- **C58** with the library's own expressions: reading down. After any legal history in which no line was asked for since the window got its size, any
lines can be asked for from top to bottom; every answer shows the line as in the current text coloured from scratch, with regions that lie in the line. -/
theorem C58_reading_down_with_the_matcher_partial (lang : Lang) (env : Env) (hf : Fit lang env) (hs : Still lang env) (base : Nat) (st : Styles RD)
    (hc : Calm st) (text : Int → Option Text) (e : Ed RD) (h : HistE lang env (Ed.init base st text) e) (hbp : e.backParse ≤ 0)
    (hnew : e.lrSize ≠ e.wSize * 2) (ls : List Int) (hd : Downwards 0 ls) (hl : ∀ l ∈ ls, l < e.lineCount)
    (g : Bool) (hg : g = true → TextParser.Opaque env) (rx : Nat → Query → Bool × Match) (he : Engine lang (env.with rx)) :
    (∃ rs, AnswersE lang env e ls rs) ∧ ∀ rs, AnswersE lang env e ls rs → AllShow (env.with rx) g e ls rs ∧ AllIn e ls rs := by
  obtain ⟨hh, hp⟩ := hist_canon hf hs h (properE_fresh lang env base)
  obtain ⟨rs, h1, h2⟩ := Whole.C58_reading_down_shows_text _ (canon_pure hf hs) (canon_ranges hf) base st hc text e hh hbp hnew ls hd hl g hg
  refine ⟨⟨rs, canon_answers hf hs he _ e rs hp h1⟩, fun rs' h' => ?_⟩
  have := answers_canon hf hs h' hp
  rw [h1] at this
  cases this
  exact ⟨allShow_canon hf hs he h2, h2.allIn (canon_in hf)⟩

/-- **C58** with the library's own expressions (partial: expressions without `~`, otherwise steady): a program that prints a text. A new editor is told the
number of lines and the type, and asked for all lines in order: all queries are answered, and every answer is the line coloured from scratch, with
regions that lie in the line. -/
theorem C58_printing_a_text_with_the_matcher_partial (lang : Lang) (env : Env) (hf : Fit lang env) (hs : Still lang env) (base : Nat) (st : Styles RD)
    (hc : Calm st) (text : Int → Option Text) (n : Nat) (g : Bool) (hg : g = true → TextParser.Opaque env) (rx : Nat → Query → Bool × Match)
    (he : Engine lang (env.with rx)) (ht : Tame (env.with rx) base text n) :
    ∃ e, ((Ed.init base st text).step (env.with rx) (.edit 0 text n)).bind (fun e => e.step (env.with rx) (.setType base)) = some e ∧
      e.text = text ∧ e.regs = st ∧ e.parser.base = base ∧ e.lineCount = n ∧ (∃ rs, AnswersE lang env e (allLines n) rs) ∧
      ∀ rs, AnswersE lang env e (allLines n) rs → AllShow (env.with rx) g e (allLines n) rs ∧ AllIn e (allLines n) rs := by
  have h1 : HistE lang env (Ed.init base st text) { Ed.init base st text with text := text, invalid := 0, lineCount := n } :=
    .snoc (.edit 0 text n) .nil he ⟨Int.le_refl 0, by omega, fun _ _ => rfl, ht⟩ rfl
  have h2 := HistE.snoc (.setType base) h1 he (show Tame (env.with rx) base text n from ht) rfl
  obtain ⟨x1, x2⟩ := C58_reading_down_with_the_matcher_partial lang env hf hs base st hc text _ h2 (by show (-1 : Int) ≤ 0; omega)
    (by show (60 : Int) ≠ 20 * 2; decide) (allLines n) (Whole.allLines_down n) (fun l hl => Whole.allLines_lt hl) g hg rx he
  exact ⟨_, rfl, rfl, rfl, rfl, rfl, x1, x2⟩

/-- **C63**: printing a text with a type loaded from any sources in any order -/
theorem C63_printing_with_a_loaded_type_partial {W : World} {fuel : Nat} (protos : List Name) (hp : ∀ t ∈ protos, 58 ∉ t) (hf : protos.length < fuel)
    (as : List Act) (L : Lib) (h : acts W fuel (Lib.init protos) as = some L) (hs : SteadyLib L) (hl : StillLib L) (chars : Chars) (env : Env)
    (he : WorksWith chars L env) (hb : ∀ t, env.brk t = false) (base : Nat) (st : Styles RD) (hc : Calm st) (text : Int → Option Text) (n : Nat)
    (rx : Nat → Query → Bool × Match) (hx : Engine (langOf chars L) (env.with rx)) (ht : Tame (env.with rx) base text n) :
    ∃ e, ((Ed.init base st text).step (env.with rx) (.edit 0 text n)).bind (fun e => e.step (env.with rx) (.setType base)) = some e ∧
      e.text = text ∧ e.regs = st ∧ e.parser.base = base ∧ e.lineCount = n ∧ (∃ rs, AnswersE (langOf chars L) env e (allLines n) rs) ∧
      ∀ rs, AnswersE (langOf chars L) env e (allLines n) rs → AllShow (env.with rx) false e (allLines n) rs ∧ AllIn e (allLines n) rs :=
  C58_printing_a_text_with_the_matcher_partial _ env (C63_loaded_grammar_fits protos hp hf as L h hs chars env he) (still_of hl he hb) base st hc text n
    false (fun h => by cases h) rx hx ht

end Verif.Engine
