import Verif.Engine.Later
import Verif.Hrc.BodyDemo
/-! Concrete library for C63. -/
namespace Verif.Engine.LoadedDemo
open Verif.Hrc
open Verif.RegExp.Demo (ascii str)
open Verif.TextParser (Ev)

def steadyB : SNode → Bool
  | .regexp n => RegExp.tidy n.start && RegExp.fwd n.start.body
  | .block b => RegExp.tidy b.start && RegExp.fwd b.start.body && RegExp.tidy b.stop && RegExp.fwd b.stop.body && RegExp.lacks .start b.start.body &&
    numbersIn b.start.cMatch b.stop.body
  | .inherit _ _ => true
  | .keywords _ => true

theorem steady_of {L : Lib} (h : (L.schemes.all fun s => s.nodes.all steadyB) = true) : SteadyLib L := by
  intro s hs nd hn
  have := List.all_eq_true.1 (List.all_eq_true.1 h s hs) nd hn
  cases nd <;> simp_all [steadyB, SteadyNode, Steady]

def endingB : SNode → Bool
  | .regexp n => RegExp.repsTake n.start.body
  | .block b => RegExp.repsTake b.start.body && RegExp.repsTake b.stop.body
  | .inherit _ _ => true
  | .keywords _ => true

theorem ending_ofB {L : Lib} (h : (L.schemes.all fun s => s.nodes.all endingB) = true) : EndingLib L := by
  intro s hs nd hn
  have := List.all_eq_true.1 (List.all_eq_true.1 h s hs) nd hn
  cases nd <;> simp_all [endingB]

def rank (n : Name) : Nat := if n = lit "t:s" then 2 else if n = lit "u:w" then 1 else 0

def rankedB (s : Sch) : SNode → Bool
  | .inherit l virt => (match l.scheme with | some q => decide (rank q < rank s.name) | none => true) && virt.all fun v =>
      match v.virt.scheme, v.subst.scheme with
      | some x, some y => decide (rank y ≤ rank x)
      | _, _ => true
  | .regexp _ => true
  | .block _ => true
  | .keywords _ => true

theorem ranked_of {L : Lib} (h : (L.schemes.all fun s => s.nodes.all (rankedB s)) = true) : RankedLib L rank := by
  intro s hs l virt hn
  have := List.all_eq_true.1 (List.all_eq_true.1 h s hs) _ hn
  simp only [rankedB, Bool.and_eq_true, List.all_eq_true] at this
  refine ⟨fun q hq => ?_, fun v hv x y hx hy => ?_⟩
  · have := this.1; rw [hq] at this; simpa using this
  · have := this.2 v hv; rw [hx, hy] at this; simpa using this

def protos : List Name := [lit "t", lit "u"]
def doings : List Act := [.getRegion (lit "u:C"), .load (lit "t")]

def check (L : Lib) : Bool := L.schemes.all (fun s => s.nodes.all steadyB) && L.schemes.all (fun s => s.nodes.all endingB) && L.schemes.all (fun s => s.nodes.all (rankedB s))

/-- the premises of C63 are met by the library of Verif.Hrc.BodyDemo: blocks, inherits with substitution, named back references -/
theorem premises : ∃ L, acts bodySrc 3 (Lib.init protos) doings = some L ∧ SteadyLib L ∧ EndingLib L ∧ RankedLib L rank := by
  have h : (acts bodySrc 3 (Lib.init protos) doings).any check = true := by decide +kernel
  cases e : acts bodySrc 3 (Lib.init protos) doings with
  | none => rw [e] at h; cases h
  | some L =>
    rw [e] at h
    simp only [Option.any, check, Bool.and_eq_true] at h
    exact ⟨L, rfl, steady_of h.1.1, ending_ofB h.1.2, ranked_of h.2⟩

def line : Int → Option RegExp.Text
  | 0 => some (str "if xy q")
  | 1 => some (str "r+q")
  | _ => none

def job : TextParser.Job := ⟨line, 0, 2, .update⟩

theorem job_ok : job.Ok := by
  refine ⟨.inr ⟨by simp [job], by simp [job]⟩, fun l h1 h2 => ?_⟩
  have h1 : (0 : Int) ≤ l := h1
  have h2 : l < 0 + 2 := h2
  have : l = 0 ∨ l = 1 := by omega
  rcases this with rfl | rfl <;> exact ⟨_, rfl⟩

/-- so the parser ends on every sequence of calls with this library, e.g. this one, with one result -/
example : ∃ L, acts bodySrc 3 (Lib.init protos) doings = some L ∧ ∀ env, WorksWith ascii L env →
    ∃ rs, Runs (langOf ascii L) env (TextParser.fresh 0) [job, job] rs ∧ ∀ rs', Runs (langOf ascii L) env (TextParser.fresh 0) [job, job] rs' → rs' = rs := by
  obtain ⟨L, h, hs, hl, hr⟩ := premises
  refine ⟨L, h, fun env he => ?_⟩
  obtain ⟨rs, h1⟩ := C63_parsing_a_loaded_type_ends_partial protos (by decide) (by decide) doings L h hs hl ascii env he rank hr 0 [job, job]
    (fun j hj => by simp at hj; subst hj; exact job_ok)
  exact ⟨rs, h1, fun rs' h2 => C63_colours_come_from_sources_and_text_partial protos (by decide) (by decide) doings L h hs ascii env he 0 [job, job] rs rs' h1 h2⟩

/-- C64: `u` is loaded, a document is coloured with `u:v`; `t` is loaded; it is coloured again -/
def between : List Doing := [.job job, .act (.load (lit "t")), .job job]

def check2 (L : Lib) : Bool := decide (0 < L.schemes.length) && (acts bodySrc 3 L (loads between)).any check

example : ∃ L, acts bodySrc 3 (Lib.init protos) [.getRegion (lit "u:C")] = some L ∧ ∀ env : TextParser.Env, 0 ≤ env.maxBlock →
    ∃ rs, Mixed bodySrc 3 ascii env L (TextParser.fresh 0) between rs ∧ Runs (langOf ascii L) (env.gram (gramOf L) (kwOf (langOf ascii L))) (TextParser.fresh 0) [job, job] rs := by
  have h : (acts bodySrc 3 (Lib.init protos) [.getRegion (lit "u:C")]).any check2 = true := by decide +kernel
  cases e : acts bodySrc 3 (Lib.init protos) [.getRegion (lit "u:C")] with
  | none => rw [e] at h; cases h
  | some L =>
    rw [e] at h
    simp only [Option.any, check2, Bool.and_eq_true, decide_eq_true_eq] at h
    obtain ⟨h0, h⟩ := h
    cases e2 : acts bodySrc 3 L (loads between) with
    | none => rw [e2] at h; cases h
    | some L2 =>
      rw [e2] at h
      simp only [check, Bool.and_eq_true] at h
      refine ⟨L, rfl, fun env hm => ?_⟩
      obtain ⟨rs, hr⟩ := C64_calls_between_loads_end_partial protos (by decide) (by decide) _ L L2 e ascii env hm 0 h0 between e2 (steady_of h.1.1)
        (ending_ofB h.1.2) rank (ranked_of h.2) (fun j hj => by simp [between, jobs] at hj; subst hj; exact job_ok)
      exact ⟨rs, hr, C64_later_loads_change_nothing protos (by decide) (by decide) _ L e ascii env hm 0 h0 between rs hr⟩

end Verif.Engine.LoadedDemo
