import Verif.TextParser.Lines
import Verif.TextParser.Nesting
/-!
# A small grammar, parsed

Concrete runs of the model: they show that the hypotheses of the theorems of this directory are met, and the deviations C33/C34 name.
-/
namespace Verif.TextParser.Demo
open Verif.TextParser

/-- `/c/` at a position (start expressions do not move), `/c/` from a position on (end expressions move) -/
def at' (c : Nat) (t : Text) (pos len : Int) : Bool × Match :=
  if 0 ≤ pos ∧ pos < len ∧ t[pos.toNat]? = some c then (true, ⟨pos, pos + 1, []⟩) else (false, ⟨-1, -1, []⟩)

def find' (c : Nat) (t : Text) (len : Int) : Nat → Int → Bool × Match
  | 0, _ => (false, ⟨-1, -1, []⟩)
  | n + 1, pos => if (at' c t pos len).1 then at' c t pos len else find' c t len n (pos + 1)

/-- expression `c < 1000`: `/c/` at the position; `1000 + c`: from the position on -/
def rx (q : Query) : Bool × Match :=
  if q.re < 1000 then at' q.re q.text q.pos q.len else find' (q.re - 1000) q.text q.len (q.text.length + 1) q.pos

def blk (scheme start stop : Nat) (region : Option Nat) : Node :=
  .block ⟨some scheme, start, 1000 + stop, false, false, false, region, [some 7], [some 8]⟩

/-- scheme 0: `(` … `)` with content scheme 1; scheme 1: `[` … `]` with content scheme 2, and `x`; scheme 2: everything of scheme 0 -/
def nodes : Nat → List Node
  | 0 => [blk 1 40 41 (some 1)]
  | 1 => [blk 2 91 93 (some 2), .re 120 false [some 3]]
  | 2 => [.inherit (some 0) []]
  | _ => []

/-- the lines `a(`, `[x`, `]x`, `)` -/
def line : Int → Option Text
  | 0 => some [97, 40]
  | 1 => some [91, 120]
  | 2 => some [93, 120]
  | 3 => some [41]
  | _ => none

def env : Env := ⟨nodes, fun _ q => rx q, fun _ _ _ _ _ => none, fun _ => false, line, 1000, 100, false, 0⟩

def p0 : PState := ⟨[], 0, 0, ⟨0, 0, []⟩⟩

def evsOf (r : R Result) : List Ev := match r with | .ok r => r.evs | .error _ => []
def cacheOf (r : R Result) : List Tree := match r with | .ok r => r.after.cache | .error _ => []
def okk (r : R Result) : Bool := match r with | .ok _ => true | .error _ => false

def full : R Result := parse env 200 p0 0 4 .update

/-- the whole text, with the cache being filled -/
example : evsOf full = [.start 0, .clear 0, .enter 0 1 2 (some 1) 1, .region 0 1 2 7, .clear 1, .enter 1 0 1 (some 2) 2,
    .region 1 0 1 7, .clear 2, .region 2 0 1 8, .leave 2 0 1 (some 2) 2, .region 2 1 2 3, .clear 3, .region 3 0 1 8,
    .leave 3 0 1 (some 1) 1, .fin 3] := by decide +kernel

example : okk full = true := by decide +kernel

/-- a parse of one line after that: line 2 begins inside both blocks -/
def resumed : R Result := parse env 200 { p0 with cache := cacheOf full } 2 1 .read

example : evsOf resumed = [.start 2, .clear 2, .pseudo 2 (some 1) 2, .pseudo 2 (some 2) 2, .region 2 0 1 8, .leave 2 0 1 (some 2) 2,
    .region 2 1 2 3, .fin 2] := by decide +kernel

/-- a missing line ends in an exception -/
def missing (r : R Result) : Option Int := match r with | .error (.null l) => some l | _ => none

example : missing (parse env 200 p0 0 6 .update) = some 4 := by decide +kernel

/-- C33 fails for the schemes named by the pseudo entries: the enter event replayed for the outer block names scheme 2 (the innermost
one), although the block has content scheme 1 (which its leave event names). -/
theorem C33_violated_pseudo_scheme :
    ∃ (env : Env) (fuel : Nat) (p : PState) (r1 r2 : Result), parse env fuel p 0 4 .update = .ok r1 ∧
      Ev.enter 0 1 2 (some 1) 1 ∈ r1.evs ∧ parse env fuel r1.after 2 2 .read = .ok r2 ∧
      Ev.pseudo 2 (some 1) 2 ∈ r2.evs ∧ (∀ l s, Ev.pseudo l (some 1) s ∈ r2.evs → s = 2) ∧ Ev.leave 3 0 1 (some 1) 1 ∈ r2.evs := by
  have h1 : okk full = true := by decide +kernel
  have h2 : okk (parse env 200 (match full with | .ok r => r.after | .error _ => p0) 2 2 .read) = true := by decide +kernel
  have h3 : Ev.enter 0 1 2 (some 1) 1 ∈ evsOf full := by decide +kernel
  have h4 : evsOf (parse env 200 (match full with | .ok r => r.after | .error _ => p0) 2 2 .read) =
      [.start 2, .clear 2, .pseudo 2 (some 1) 2, .pseudo 2 (some 2) 2, .region 2 0 1 8, .leave 2 0 1 (some 2) 2,
    .region 2 1 2 3, .clear 3, .region 3 0 1 8, .leave 3 0 1 (some 1) 1, .fin 3] := by decide +kernel
  unfold full at *
  cases e1 : parse env 200 p0 0 4 .update with
  | error _ => rw [e1] at h1; simp [okk] at h1
  | ok r1 =>
    rw [e1] at h2 h3 h4
    simp only at h2 h4
    cases e2 : parse env 200 r1.after 2 2 .read with
    | error _ => rw [e2] at h2; simp [okk] at h2
    | ok r2 =>
      rw [e2] at h4
      simp only [evsOf] at h3 h4
      refine ⟨env, 200, p0, r1, r2, e1, h3, e2, ?_, ?_, ?_⟩
      · rw [h4]; decide
      · intro l s h; rw [h4] at h; simp at h; omega
      · rw [h4]; decide

/-- `breakParse` while line 1 is read: line 2 is never announced -/
def broken : R Result := parse { env with brk := fun t => decide (8 ≤ t) } 200 p0 0 4 .update
example : ¬ Ev.clear 3 ∈ evsOf broken ∧ okk broken = true := by decide +kernel

end Verif.TextParser.Demo
