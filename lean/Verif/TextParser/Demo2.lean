import Verif.TextParser.History
import Verif.TextParser.Open
/-!
# C34: the hypotheses are met; what happens without them
-/
namespace Verif.TextParser.Demo
open Verif.TextParser

/-- the grammar of `Demo` uses no `~` -/
theorem env_pure : Pure env := ⟨fun _ _ _ _ => rfl, fun _ _ => rfl, fun _ => rfl⟩

/-- its full parse ends within the recursion limit -/
theorem full_parses : ∃ r, Parses env p0 0 4 .update r ∧ r.hit = false := by
  have h : (match full with | .ok r => r.hit | .error _ => true) = false := by decide +kernel
  unfold full at h
  cases e : parse env 200 p0 0 4 .update with
  | error _ => rw [e] at h; simp at h
  | ok r =>
    rw [e] at h
    exact ⟨r, parses_of_parse e, h⟩

/-- so every part of it can be parsed again with its cache: line 2, which begins inside two blocks -/
example : ∃ r r2, Parses env p0 0 4 .update r ∧ Parses env r.after 2 (3 - 2) .read r2 ∧ between 2 3 r2.evs = between 2 3 r.evs := by
  obtain ⟨r, h, hh⟩ := full_parses
  obtain ⟨r2, a1, a2⟩ := C34_incremental_equals_full env env_pure p0 rfl 4 2 3 (by omega) (by omega) (by omega) (by omega) r h hh
  exact ⟨r, r2, h, a1, a2⟩

example : between 2 3 (evsOf full) = [.clear 2, .region 2 0 1 8, .leave 2 0 1 (some 2) 2, .region 2 1 2 3] := by decide +kernel

/-- two blocks are open at line 2 and one at line 3 -/
example : nest [] (evsOf (parse env 200 p0 0 2 .update)) = some [(some 2, some 2), (some 1, some 1)] := by decide +kernel
example : nest [] (evsOf (parse env 200 p0 0 3 .update)) = some [(some 1, some 1)] := by decide +kernel

/-- a session: parse everything, change line 3, parse the rest -/
example : ∃ s, Reach env 0 s ∧ s.good = 3 ∧ s.text 3 = some [120, 41] := by
  obtain ⟨r, h, hh⟩ := full_parses
  have h1 : Reach env 0 ⟨line, fresh 0, 0⟩ := .init rfl rfl
  have h2 : Reach env 0 ⟨line, r.after, 4⟩ :=
    .step h1 (.update (F := 0) (E := 4) (by omega) (by show (0 : Int) ≤ 0; omega) (by omega) (by omega) h hh h)
  have h3 : Reach env 0 ⟨fun l => if l = 3 then some [120, 41] else line l, r.after, min 4 3⟩ :=
    .step h2 (.edit (k := 3) (by omega) (fun l hl => if_neg (by omega)))
  exact ⟨_, h3, by show min (4 : Int) 3 = 3; omega, rfl⟩

/-! ## An expression with `~` -/

/-- expression 500: `/~x/`, an `x` right at the scheme start -/
def rxS (q : Query) : Bool × Match :=
  if q.re = 500 then (if q.pos = q.schemeStart then at' 120 q.text q.pos q.len else (false, ⟨-1, -1, []⟩)) else rx q

/-- `(` … `)` with content scheme 1: `[` … `]`, and `~x` -/
def nodesS : Nat → List Node
  | 0 => [blk 1 40 41 (some 1)]
  | 1 => [blk 2 91 93 (some 2), .re 500 false [some 3]]
  | _ => []

/-- the lines `([`, `]x` -/
def lineS : Int → Option Text
  | 0 => some [40, 91]
  | 1 => some [93, 120]
  | _ => none

def envS : Env := ⟨nodesS, fun _ q => rxS q, fun _ _ _ _ _ => none, fun _ => false, lineS, 1000, 100, false, 0⟩

def fullS : R Result := parse envS 200 p0 0 2 .update
def resumedS : R Result := parse envS 200 (match fullS with | .ok r => r.after | .error _ => p0) 1 1 .read

/-- C34 fails with `~`: the inner block closes on line 1, the scheme start of the outer one (column 1 of line 0) is restored and taken
for a column of line 1, where `~x` matches; the cache does not keep the scheme start, so the resumed parse finds no match. -/
theorem C34_violated_scheme_start :
    ∃ (env : Env) (fuel : Nat) (p : PState) (r r2 : Result), p.cache = [] ∧ parse env fuel p 0 2 .update = .ok r ∧ r.hit = false ∧
      parse env fuel r.after 1 1 .read = .ok r2 ∧ Ev.region 1 1 2 3 ∈ r.evs ∧ ¬ Ev.region 1 1 2 3 ∈ r2.evs := by
  have h1 : (match fullS with | .ok r => !r.hit && decide (Ev.region 1 1 2 3 ∈ r.evs) | .error _ => false) = true := by decide +kernel
  have h2 : (match resumedS with | .ok r => decide (¬ Ev.region 1 1 2 3 ∈ r.evs) | .error _ => false) = true := by decide +kernel
  unfold resumedS at h2
  cases e1 : fullS with
  | error _ => rw [e1] at h1; simp at h1
  | ok r1 =>
    rw [e1] at h1 h2
    simp only at h1 h2
    cases e2 : parse envS 200 r1.after 1 1 .read with
    | error _ => rw [e2] at h2; simp at h2
    | ok r2 =>
      rw [e2] at h2
      simp only [Bool.and_eq_true, Bool.not_eq_true', decide_eq_true_eq] at h1 h2
      exact ⟨envS, 200, p0, r1, r2, rfl, e1, h1.1, e2, h1.2, h2⟩

/-! ## The recursion limit -/

/-- `(` … `)` with its own scheme as content, and `x` -/
def nodesL : Nat → List Node
  | 0 => [blk 0 40 41 (some 1), .re 120 false [some 3]]
  | _ => []

/-- 101 lines `(`, then `(x` -/
def lineL (l : Int) : Option Text := if l < 101 then some [40] else some [40, 120]

def envL : Env := ⟨nodesL, fun _ q => rx q, fun _ _ _ _ _ => none, fun _ => false, lineL, 1000, 100, false, 0⟩

def fullL : R Result := parse envL 1000 p0 0 102 .update
def resumedL : R Result := parse envL 1000 (match fullL with | .ok r => r.after | .error _ => p0) 101 1 .read

/-- C34 fails beyond the recursion limit of 100: the full parse gives up on the content of the block opened in line 101, the resumed
parse counts its levels from 0 again and reports the `x` in it. -/
theorem C34_violated_recursion_limit :
    ∃ (env : Env) (fuel : Nat) (p : PState) (r r2 : Result), Pure env ∧ env.limit = 100 ∧ p.cache = [] ∧
      parse env fuel p 0 102 .update = .ok r ∧ r.hit = true ∧ parse env fuel r.after 101 1 .read = .ok r2 ∧
      ¬ Ev.region 101 1 2 3 ∈ r.evs ∧ Ev.region 101 1 2 3 ∈ r2.evs := by
  have h1 : (match fullL with | .ok r => r.hit && decide (¬ Ev.region 101 1 2 3 ∈ r.evs) | .error _ => false) = true := by decide +kernel
  have h2 : (match resumedL with | .ok r => decide (Ev.region 101 1 2 3 ∈ r.evs) | .error _ => false) = true := by decide +kernel
  unfold resumedL at h2
  cases e1 : fullL with
  | error _ => rw [e1] at h1; simp at h1
  | ok r1 =>
    rw [e1] at h1 h2
    simp only at h1 h2
    cases e2 : parse envL 1000 r1.after 101 1 .read with
    | error _ => rw [e2] at h2; simp at h2
    | ok r2 =>
      rw [e2] at h2
      simp only [Bool.and_eq_true, decide_eq_true_eq] at h1 h2
      exact ⟨envL, 1000, p0, r1, r2, ⟨fun _ _ _ _ => rfl, fun _ _ => rfl, fun _ => rfl⟩, rfl, rfl, e1, h1.1, e2, h1.2, h2⟩

end Verif.TextParser.Demo
