import Verif.Engine.Same
import Verif.RegExp.Compiled
import Verif.TextParser.EndsDemo
/-!
# A grammar with compiled expressions, parsed by the library's matcher

Numbers, the keyword `if`, and strings in either kind of quotes, whose end refers to the quote the start matched; in a string, `\` takes the
next character.
-/
namespace Verif.Engine.Demo
open Verif.RegExp (Expr Out parse)
open Verif.RegExp.Demo (cx str ascii)
open Verif.TextParser (Query Match Env Text PState Result Job Parses fresh Node Ev)

def comp (c : RegExp.Ctx) (s : String) : Expr := match RegExp.setRE c (str s) with | some (.ok e) => e | _ => ⟨[], 0, 0, ⟨false, false, false⟩, false⟩

def quote : Expr := comp cx "/(\"|')/"
def quoteEnd : Expr := comp { cx with back := some [] } "/\\y1/"
def number : Expr := comp cx "/\\d+/"
def escaped : Expr := comp cx "/\\\\./"

def prog : Nat → Expr
  | 1 => quote
  | 2 => quoteEnd
  | 3 => number
  | _ => escaped

def words : List Keywords.KW := [⟨str "if", some 30, false, none⟩]

def lang : Lang where
  chars := ascii
  prog := prog
  opener _ := 1
  kenv _ := ⟨id, fun c => RegExp.Demo.isLow c || RegExp.Demo.isDig c, none⟩
  klist _ := Keywords.build true id id id words

def nodes : Nat → List Node
  | 0 => [.keywords 0, .block ⟨some 1, 1, 2, false, false, false, some 10, [some 11], [some 12]⟩, .re 3 false [some 20]]
  | 1 => [.re 4 false [some 21]]
  | _ => []

def line : Int → Option Text
  | 0 => some (str "if \"it's")
  | 1 => some (str "\\\" 3\" 42 '")
  | _ => none

/-- the answers of new objects -/
noncomputable def rx (_ : Nat) (q : Query) : Bool × Match :=
  match call lang q 200 with
  | some out => (decide (out.res = .ret true), matchOf (lang.prog q.re) out.m)
  | none => answer lang q

noncomputable def env : Env := ⟨nodes, rx, kwOf lang, fun _ => false, line, 1000, 100, false, 0⟩

theorem nodes_cases {s : Nat} {n : Node} (h : n ∈ nodes s) :
    n = .keywords 0 ∨ n = .block ⟨some 1, 1, 2, false, false, false, some 10, [some 11], [some 12]⟩ ∨ n = .re 3 false [some 20] ∨ n = .re 4 false [some 21] := by
  unfold nodes at h
  split at h <;> simp at h <;> grind

theorem plain_quote : Plain quote ∧ RegExp.lacks .start quote.body = true := ⟨⟨by decide +kernel, by decide +kernel, by decide +kernel, by decide +kernel⟩, by decide +kernel⟩
theorem plain_quoteEnd : Plain quoteEnd := ⟨by decide +kernel, by decide +kernel, by decide +kernel, by decide +kernel⟩
theorem plain_number : Plain number := ⟨by decide +kernel, by decide +kernel, by decide +kernel, by decide +kernel⟩
theorem plain_escaped : Plain escaped := ⟨by decide +kernel, by decide +kernel, by decide +kernel, by decide +kernel⟩

theorem env_fit : Fit lang env where
  re := by
    intro s start low regs h
    rcases nodes_cases h with h | h | h | h <;> simp at h
    · obtain ⟨rfl, _⟩ := h; exact plain_number
    · obtain ⟨rfl, _⟩ := h; exact plain_escaped
  start := by
    intro s b h
    rcases nodes_cases h with h | h | h | h <;> simp at h
    subst h
    exact plain_quote
  stop := by
    intro s b h
    rcases nodes_cases h with h | h | h | h <;> simp at h
    subst h
    exact ⟨plain_quoteEnd, rfl, by decide +kernel⟩
  kw := rfl
  words := fun _ => ⟨true, id, id, id, words, rfl, by
    intro k hk
    simp only [words, List.mem_cons, List.not_mem_nil, or_false] at hk
    subst hk
    exact ⟨by decide, rfl⟩⟩
  maxBlock := by show (0 : Int) ≤ 1000; omega

theorem env_ending : Ending lang env where
  re := by
    intro s start low regs h
    rcases nodes_cases h with h | h | h | h <;> simp at h
    · obtain ⟨rfl, _⟩ := h; show RegExp.repsTake number.body = true; decide +kernel
    · obtain ⟨rfl, _⟩ := h; show RegExp.repsTake escaped.body = true; decide +kernel
  start := by
    intro s b h
    rcases nodes_cases h with h | h | h | h <;> simp at h
    subst h
    show RegExp.repsTake quote.body = true; decide +kernel
  stop := by
    intro s b h
    rcases nodes_cases h with h | h | h | h <;> simp at h
    subst h
    show RegExp.repsTake quoteEnd.body = true; decide +kernel

theorem env_grounded : TextParser.Grounded env := by
  refine TextParser.grounded_of_rank id ?_
  intro s k virt h
  rcases nodes_cases h with h | h | h | h <;> simp at h

theorem env_engine : Engine lang env := by
  refine answer_engine_of (env := env) env_fit env_ending rx ?_ ?_
  · intro t q _ hq _ hs
    have : rx t q = answer lang q := by
      unfold rx
      split
      · rename_i out h; exact (answer_of hq h).symm
      · rfl
    rw [this]; exact hs
  · intro t q m h
    unfold rx at h
    split at h
    · rename_i out _; simp only [Prod.mk.injEq] at h; exact ⟨out.m, h.2.symm⟩
    · obtain ⟨_, _, out, _, _, hm⟩ := answer_true h
      exact ⟨out.m, hm⟩

def evsOf (r : TextParser.R Result) : List Ev := match r with | .ok r => r.evs | .error _ => []

/-- the events: the `'` in the string and the escaped `"` do not end it -/
def expected : List Ev :=
  [.start 0, .clear 0, .region 0 0 2 30, .enter 0 3 4 (some 10) 1, .region 0 3 4 11, .clear 1, .region 1 0 2 21, .region 1 4 5 12,
    .leave 1 4 5 (some 10) 1, .region 1 6 8 20, .enter 1 9 10 (some 10) 1, .region 1 9 10 11, .fin 1]

theorem parsed : evsOf (TextParser.parse env 60 (fresh 0) 0 2 .update) = expected := by decide +kernel

def job : Job := ⟨line, 0, 2, .update⟩

/-- the run exists -/
theorem runs : ∃ r, Runs lang env (fresh 0) [job] [r] ∧ r.evs = expected := by
  have h := parsed
  cases e : TextParser.parse env 60 (fresh 0) 0 2 .update with
  | error _ => rw [e] at h; simp [evsOf, expected] at h
  | ok r =>
    rw [e] at h
    exact ⟨r, .cons (rx := rx) env_engine (TextParser.parses_of_parse e) .nil, h⟩

/-- C59 applied: whatever the objects were used for, these are the events -/
example (rs : List Result) (h : Runs lang env (fresh 0) [job] rs) : ∃ r, rs = [r] ∧ r.evs = expected := by
  obtain ⟨r, h1, h2⟩ := runs
  exact ⟨r, C59_colouring_does_not_depend_on_earlier_uses_partial lang env env_fit 0 [job] [r] rs h1 h, h2⟩

theorem job_ok : job.Ok := by
  refine ⟨.inr ⟨by simp [job], by simp [job]⟩, fun l h1 h2 => ?_⟩
  have h1 : (0 : Int) ≤ l := h1
  have h2 : l < 0 + 2 := h2
  have : l = 0 ∨ l = 1 := by omega
  rcases this with rfl | rfl <;> exact ⟨_, rfl⟩

/-- C60 applied -/
example : ∃ rs, Runs lang env (fresh 0) [job, { job with from' := 1, num := 1 }, job] rs := by
  refine C60_every_call_ends_with_the_matcher lang env env_fit env_ending env_grounded 0 _ ?_
  intro j hj
  simp only [List.mem_cons, List.not_mem_nil, or_false] at hj
  rcases hj with rfl | rfl | rfl
  · exact job_ok
  · refine ⟨.inr ⟨by simp [job], by simp⟩, fun l h1 h2 => ?_⟩
    have h1 : (1 : Int) ≤ l := h1
    have h2 : l < 1 + 1 := h2
    have : l = 1 := by omega
    subst this; exact ⟨_, rfl⟩
  · exact job_ok

example (rs : List Result) (h : Runs lang env (fresh 0) [job] rs) : ∃ r, Parses (env.text line) (lastOf (fresh 0) rs) 0 2 .update r :=
  C60_next_call_ends_with_the_matcher lang env env_fit env_grounded 0 [job] rs h job job_ok rx env_engine

end Verif.Engine.Demo
