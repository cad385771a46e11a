import Verif.Engine.Editor
import Verif.Engine.Loaded
/-!
# From the sources to the screen

The editor (C58) with a library loaded from any sources: nothing is left of the assumptions on the grammar but conditions on the expressions in the
sources.
-/
namespace Verif.Engine
open Verif.RegExp (Chars)
open Verif.TextParser (Env Text Query Match)
open Verif.Hrc (World Lib Name SNode Act acts)
open Verif.Whole (Ed EOp Legal Styles Calm Paints Shows AllShow)

variable {RD : Type}

/-- no expression uses `~` -/
def StillLib (L : Lib) : Prop := ∀ s ∈ L.schemes, ∀ nd ∈ s.nodes, match nd with
  | .regexp n => RegExp.noTilde n.start.body = true
  | .block b => RegExp.noTilde b.start.body = true ∧ RegExp.noTilde b.stop.body = true
  | .inherit _ _ => True
  | .keywords _ => True

theorem still_of {L : Lib} (hl : StillLib L) {chars : Chars} {env : Env} (he : WorksWith chars L env) (hb : ∀ t, env.brk t = false) :
    Still (langOf chars L) env := by
  refine ⟨?_, ?_, ?_, hb⟩
  · intro i start low regs hm
    rw [he.nodes] at hm
    obtain ⟨s, j, nd, h1, h2, h3, h4⟩ := gram_mem hm
    have hst := hl s (List.mem_of_getElem? h1) _ h3
    cases nd with
    | regexp n =>
      cases h4
      show RegExp.noTilde (exprAt L (startId i j)).body = true
      rw [exprAt_start, h2]
      exact hst
    | inherit _ _ => cases h4
    | block _ => cases h4
    | keywords _ => cases h4
  · intro i b hm
    rw [he.nodes] at hm
    obtain ⟨s, j, nd, h1, h2, h3, h4⟩ := gram_mem hm
    have hst := hl s (List.mem_of_getElem? h1) _ h3
    cases nd with
    | block n =>
      cases h4
      show RegExp.noTilde (exprAt L (startId i j)).body = true
      rw [exprAt_start, h2]
      exact hst.1
    | inherit _ _ => cases h4
    | regexp _ => cases h4
    | keywords _ => cases h4
  · intro i b hm
    rw [he.nodes] at hm
    obtain ⟨s, j, nd, h1, h2, h3, h4⟩ := gram_mem hm
    have hst := hl s (List.mem_of_getElem? h1) _ h3
    cases nd with
    | block n =>
      cases h4
      show RegExp.noTilde (exprAt L (stopId i j)).body = true
      rw [exprAt_stop L i j n h2]
      exact hst.2
    | inherit _ _ => cases h4
    | regexp _ => cases h4
    | keywords _ => cases h4

/-- **C63**: from the sources to the screen. A library loaded from any sources in any order; an editor that colours with one of its schemes; any legal history
of edits, scrolling, queries: painting the visible lines, in any order, shows what colouring the current text from scratch gives. -/
theorem C63_screen_of_a_loaded_type_partial {W : World} {fuel : Nat} (protos : List Name) (hp : ∀ t ∈ protos, 58 ∉ t) (hf : protos.length < fuel)
    (as : List Act) (L : Lib) (h : acts W fuel (Lib.init protos) as = some L) (hs : SteadyLib L) (hl : StillLib L) (chars : Chars) (env : Env)
    (he : WorksWith chars L env) (hb : ∀ t, env.brk t = false) (base : Nat) (st : Styles RD) (hc : Calm st) (text : Int → Option Text) (e : Ed RD)
    (hh : HistE (langOf chars L) env (Ed.init base st text) e) (hbp : e.backParse ≤ 0) (hlc : e.wStart < e.lineCount) (ls : List Int)
    (hv : ∀ l ∈ ls, e.wStart ≤ l ∧ l < e.wStart + e.wSize ∧ l < e.lineCount) (rx : Nat → Query → Bool × Match) (hx : Engine (langOf chars L) (env.with rx)) :
    (∃ rs, AnswersE (langOf chars L) env e (e.wStart :: ls) rs) ∧
      ∀ rs, AnswersE (langOf chars L) env e (e.wStart :: ls) rs → AllShow (env.with rx) false e (e.wStart :: ls) rs :=
  C58_screen_shows_text_with_the_matcher_partial _ env (C63_loaded_grammar_fits protos hp hf as L h hs chars env he) (still_of hl he hb) base st hc text e hh
    hbp hlc ls hv false (fun h => by cases h) rx hx

/-- **C63**: and every legal operation succeeds -/
theorem C63_operations_with_a_loaded_type_succeed_partial {W : World} {fuel : Nat} (protos : List Name) (hp : ∀ t ∈ protos, 58 ∉ t) (hf : protos.length < fuel)
    (as : List Act) (L : Lib) (h : acts W fuel (Lib.init protos) as = some L) (hs : SteadyLib L) (hl : StillLib L) (chars : Chars) (env : Env)
    (he : WorksWith chars L env) (hb : ∀ t, env.brk t = false) (base : Nat) (st : Styles RD) (hc : Calm st) (text : Int → Option Text) (e : Ed RD)
    (hh : HistE (langOf chars L) env (Ed.init base st text) e) (op : EOp RD) (rx : Nat → Query → Bool × Match)
    (hx : Engine (langOf chars L) (env.with rx)) (hop : Legal (env.with rx) e op) : ∃ e', e.step (env.with rx) op = some e' :=
  C58_legal_operations_succeed_with_the_matcher _ env (C63_loaded_grammar_fits protos hp hf as L h hs chars env he) (still_of hl he hb) base st hc text e hh op
    rx hx hop

end Verif.Engine
