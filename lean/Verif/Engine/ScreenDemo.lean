import Verif.Engine.Screen
import Verif.Engine.LoadedDemo
import Verif.Engine.Demo
import Verif.Whole.Demo
/-! Concrete library for the editor part of C63. -/
namespace Verif.Engine.ScreenDemo
open Verif.Hrc
open Verif.RegExp.Demo (ascii str)
open Verif.TextParser (Ev)

def types : Name → Option (List TypeDecl)
  | [100] => some [⟨lit "d", [.region (lit "A") none, .region (lit "B") none, .scheme (el "scheme" [("name", "c")] []),
      .scheme (el "scheme" [("name", "s")] [
        el "block" [("start", "/q/"), ("end", "/q/"), ("scheme", "c"), ("region", "A")] [],
        el "regexp" [("match", "/z/"), ("region", "B")] []])]⟩]
  | _ => none

def src : World := world types
def lib : Lib := (acts src 2 (Lib.init [lit "d"]) [.load (lit "d")]).getD (Lib.init [])

def line : Int → Option RegExp.Text
  | 0 => some (str "zqz")
  | 1 => some (str "qz")
  | _ => none

noncomputable def rx (_ : Nat) (q : TextParser.Query) : Bool × TextParser.Match :=
  match call (langOf ascii lib) q 50 with
  | some out => (decide (out.res = .ret true), matchOf ((langOf ascii lib).prog q.re) out.m)
  | none => answer (langOf ascii lib) q

noncomputable def env : TextParser.Env := ⟨gramOf lib, rx, kwOf (langOf ascii lib), fun _ => false, line, 1000, 100, false, 0⟩

def expected : List Ev :=
  [.start 0, .clear 0, .region 0 0 1 1, .enter 0 1 2 (some 0) 0, .clear 1, .leave 1 0 1 (some 0) 0, .region 1 1 2 1, .fin 1]

def sumOf (r : TextParser.R TextParser.Result) : List Ev × Bool := match r with | .ok r => (r.evs, r.hit) | .error _ => ([], true)

theorem parsed : sumOf (TextParser.parse env 30 (TextParser.fresh 1) 0 2 .update) = (expected, false) := by decide +kernel

theorem done : ∃ r, TextParser.parse env 30 (TextParser.fresh 1) 0 2 .update = .ok r ∧ r.evs = expected ∧ r.hit = false := by
  have h := parsed
  cases e : TextParser.parse env 30 (TextParser.fresh 1) 0 2 .update with
  | error _ => rw [e] at h; simp [sumOf] at h
  | ok r => rw [e] at h; simp only [sumOf, Prod.mk.injEq] at h; exact ⟨r, rfl, h⟩

theorem loaded : acts src 2 (Lib.init [lit "d"]) [.load (lit "d")] = some lib := by
  have h : (acts src 2 (Lib.init [lit "d"]) [.load (lit "d")]).isSome = true := by decide +kernel
  unfold lib
  cases e : acts src 2 (Lib.init [lit "d"]) [.load (lit "d")] with
  | none => rw [e] at h; cases h
  | some L => rfl

attribute [local irreducible] lib

def stillB : SNode → Bool
  | .regexp n => RegExp.noTilde n.start.body
  | .block b => RegExp.noTilde b.start.body && RegExp.noTilde b.stop.body
  | .inherit _ _ => true
  | .keywords _ => true

theorem still_ofB {L : Lib} (h : (L.schemes.all fun s => s.nodes.all stillB) = true) : StillLib L := by
  intro s hs nd hn
  have := List.all_eq_true.1 (List.all_eq_true.1 h s hs) nd hn
  cases nd <;> simp_all [stillB]

theorem steady : SteadyLib lib := LoadedDemo.steady_of (by decide +kernel)
theorem ending : EndingLib lib := LoadedDemo.ending_ofB (by decide +kernel)
theorem still : StillLib lib := still_ofB (by decide +kernel)
theorem works : WorksWith ascii lib env := ⟨rfl, rfl, by show (0 : Int) ≤ 1000; omega⟩

theorem fit : Fit (langOf ascii lib) env := C63_loaded_grammar_fits [lit "d"] (by decide) (by decide) _ lib loaded steady ascii env works

theorem engine : Engine (langOf ascii lib) env := by
  refine answer_engine_of (env := env) fit (ending_of ending works) rx ?_ ?_
  · intro t q _ hq _ hs
    have : rx t q = answer (langOf ascii lib) q := by
      unfold rx
      split
      · rename_i out h; exact (answer_of hq h).symm
      · rfl
    rw [this]; exact hs
  · intro t q m h
    unfold rx at h
    split at h
    · rename_i out _; simp only [Prod.mk.injEq] at h; exact ⟨out.m, h.2.symm⟩
    · obtain ⟨_, _, out, _, _, hm⟩ := answer_true h
      exact ⟨out.m, hm⟩

/-- from the text of the source to the events: a string over two lines, coloured by the loaded type -/
theorem coloured : ∃ r, Runs (langOf ascii lib) env (TextParser.fresh 1) [⟨line, 0, 2, .update⟩] [r] ∧ r.evs = expected ∧ r.hit = false := by
  obtain ⟨r, e, h⟩ := done
  exact ⟨r, .cons (rx := rx) engine (TextParser.parses_of_parse e) .nil, h⟩

noncomputable def ed : Whole.Ed Whole.Demo.Style := { Whole.Ed.init 1 Whole.Demo.styles line with lineCount := 2 }

theorem ed_hist : HistE (langOf ascii lib) env (Whole.Ed.init 1 Whole.Demo.styles line) ed := by
  refine .snoc (rx := rx) (.edit 0 line 2) .nil engine ⟨by omega, by omega, fun _ _ => rfl, ⟨by omega, by omega, ?_⟩⟩ rfl
  obtain ⟨r, e, h⟩ := done
  exact ⟨r, TextParser.parses_of_parse e, h.2⟩

/-- C63: both lines can be painted and show what colouring from scratch gives -/
example (rx' : Nat → TextParser.Query → Bool × TextParser.Match) (he : Engine (langOf ascii lib) (env.with rx')) :
    ∃ rs, AnswersE (langOf ascii lib) env ed [0, 1, 0] rs ∧ Whole.AllShow (env.with rx') false ed [0, 1, 0] rs := by
  obtain ⟨⟨rs, h1⟩, h2⟩ := C63_screen_of_a_loaded_type_partial [lit "d"] (by decide) (by decide) _ lib loaded steady still ascii env works (fun _ => rfl) 1
    Whole.Demo.styles Whole.Demo.calm line ed ed_hist (by show (-1 : Int) ≤ 0; omega) (by show (0 : Int) < 2; omega) [1, 0] (by
      intro l hl
      show (0 : Int) ≤ l ∧ l < 0 + 20 ∧ l < 2
      simp only [List.mem_cons, List.not_mem_nil, or_false] at hl
      omega) rx' he
  exact ⟨rs, h1, h2 rs h1⟩

end Verif.Engine.ScreenDemo
