import Verif.RegExp.Match
import Verif.RegExp.Ends

/-!
# Outside the fragment of C29, and calls that never return (C51)
-/
namespace Verif.RegExp.Demo

/-- `a|b` as the compiler builds it -/
def alt (a b : List Node) : List Node := .or a :: b

/-! ## C29: the theorem applies -/

/-- `/\b((ab|a)+c)??(?=d)(?<!x).{2,3}$/` -/
def big : Expr := re 3 [.msym .wbound, .ngRangeNM 0 1 [.brackets (some 1) [.rangeN 1 [.brackets (some 2) (alt [.word (str "ab")] [c 'a'])], c 'c']],
  .ahead [c 'd'], .nbehind 1 [c 'x'], .rangeNM 2 3 [.msym .any], .msym .eol]

example : big.ok = true ∧ inFrag false big.body = true ∧ big.flags.multiLine = false ∧ 0 ≤ (at_ ".aabacdef" 1).pos ∧
    (at_ ".aabacdef" 1).pos ≤ (at_ ".aabacdef" 1).eol ∧ (at_ ".aabacdef" 1).eol ≤ (at_ ".aabacdef" 1).text.length ∧
    shown 1 (call big (at_ ".aabacdef" 1)) = some (.ret true, [(1, 9)]) ∧
    shown 1 (call big { at_ "..aabacdef" 0 with moves := some true }) = some (.ret true, [(2, 10)]) ∧
    (call big (at_ ".aabacd" 1)).map Out.res = some (.ret false) := by decide +kernel

example : TraceOk (at_ ".aabacdef" 1).back := trivial

/-! ## C29 fails outside the fragment -/

theorem spec_at (s : String) (x : Expr) (hx : x.flags.multiLine = false) : SpecOk (envOf ascii x (at_ s 0)) :=
  ⟨⟨Int.le_refl _, Int.le_refl _, trivial⟩, hx⟩

/-- `/(a|ab){2}/` -/
def twice : Expr := re 2 [.rangeNM 2 2 [.brackets (some 1) (alt [c 'a'] [.word (str "ab")])]]

/-- a counted repetition of a body with choices: the counter is not put back when the body is tried again, so `/(a|ab){2}/` is reported to
match "ab", which is only one repetition -/
theorem C29_counter_is_not_restored : shown 1 (call twice (at_ "ab" 0)) = some (.ret true, [(0, 2)]) ∧
    ¬ MatchL (envOf ascii twice (at_ "ab" 0)) twice.body 0 2 := by
  refine ⟨by decide +kernel, ?_⟩
  have key := mem_ends (spec_at "ab" twice rfl) [.brackets (some 1) (alt [c 'a'] [.word (str "ab")])] false (by decide)
  rintro ⟨r, ⟨k, h1, h2, hk⟩, rfl⟩
  obtain rfl : k = 2 := by omega
  obtain ⟨r, hr, r', hr', rfl⟩ := hk
  rw [← key 0 r (by decide) (by decide)] at hr
  have e : ends (envOf ascii twice (at_ "ab" 0)) [.brackets (some 1) (alt [c 'a'] [.word (str "ab")])] 0 = [1, 2] := by decide +kernel
  rw [e] at hr
  have e1 : ends (envOf ascii twice (at_ "ab" 0)) [.brackets (some 1) (alt [c 'a'] [.word (str "ab")])] 1 = [] := by decide +kernel
  have e2 : ends (envOf ascii twice (at_ "ab" 0)) [.brackets (some 1) (alt [c 'a'] [.word (str "ab")])] 2 = [] := by decide +kernel
  simp only [List.mem_cons, List.not_mem_nil, or_false] at hr
  rcases hr with rfl | rfl
  · rw [← key 1 2 (by decide) (by decide), e1] at hr'; cases hr'
  · rw [← key 2 2 (by decide) (by decide), e2] at hr'; cases hr'

/-- `/(a|ab){2}$/` -/
def twiceEnd : Expr := re 2 [.rangeNM 2 2 [.brackets (some 1) (alt [c 'a'] [.word (str "ab")])], .msym .eol]

/-- for the same reason a match is missed: `/(a|ab){2}$/` on "abab" -/
theorem C29_match_is_missed : (call twiceEnd (at_ "abab" 0)).map Out.res = some (.ret false) ∧
    MatchL (envOf ascii twiceEnd (at_ "abab" 0)) twiceEnd.body 0 4 := by
  refine ⟨by decide +kernel, ?_⟩
  have key := mem_ends (spec_at "abab" twiceEnd rfl) [.brackets (some 1) (alt [c 'a'] [.word (str "ab")])] false (by decide)
  refine ⟨4, ⟨2, by decide, by decide, 2, ?_, 4, ?_, rfl⟩, 4, ⟨rfl, by decide⟩, rfl⟩
  · exact (key 0 2 (by decide) (by decide)).mp (by decide +kernel)
  · exact (key 2 4 (by decide) (by decide)).mp (by decide +kernel)

/-- the body of `/((a|acx)?c)*$/` -/
def questBody : List Node := [.brackets (some 1) [.rangeNM 0 1 [.brackets (some 2) (alt [c 'a'] [.word (str "acx")])], c 'c']]
def quest : Expr := re 3 [.rangeN 0 questBody, .msym .eol]

/-- `?` inside a repetition: the counter of an earlier round is used in a later one, so `/((a|acx)?c)*$/` is reported to match "acxacxc" -/
theorem C29_optional_in_a_repetition : shown 1 (call quest (at_ "acxacxc" 0)) = some (.ret true, [(0, 7)]) ∧
    ∀ q, ¬ MatchL (envOf ascii quest (at_ "acxacxc" 0)) quest.body 0 q := by
  refine ⟨by decide +kernel, ?_⟩
  have key := mem_ends (spec_at "acxacxc" quest rfl) questBody false (by decide)
  have e0 : ends (envOf ascii quest (at_ "acxacxc" 0)) questBody 0 = [2] := by decide +kernel
  have e2 : ends (envOf ascii quest (at_ "acxacxc" 0)) questBody 2 = [] := by decide +kernel
  have hk : ∀ k r, Iter (MatchL (envOf ascii quest (at_ "acxacxc" 0)) questBody) k 0 r → r = 0 ∨ r = 2 := by
    intro k r h
    cases k with
    | zero => exact Or.inl h
    | succ k =>
      obtain ⟨r1, hr1, h⟩ := h
      rw [← key 0 r1 (by decide) (by decide), e0, List.mem_singleton] at hr1
      subst hr1
      cases k with
      | zero => exact Or.inr h
      | succ k =>
        obtain ⟨r2, hr2, h⟩ := h
        rw [← key 2 r2 (by decide) (by decide), e2] at hr2
        cases hr2
  rintro q ⟨r, ⟨k, -, hi⟩, q', ⟨-, h7⟩, -⟩
  have h7 : r = 7 := h7
  rcases hk k r hi with h | h <;> omega

/-- `$` with the flag `m` asks for a line end before the position, not behind it: `/a$/m` does not match in "a\nb", `/a\n$b/m` does -/
theorem C29_end_of_an_inner_line : (call (reM 1 [c 'a', .msym .eol]) (at_ "a\nb" 0)).map Out.res = some (.ret false) ∧
    shown 1 (call (reM 1 [.word (str "a\n"), .msym .eol, c 'b']) (at_ "a\nb" 0)) = some (.ret true, [(0, 3)]) := by decide +kernel

/-- `\Y{name}` compares with the numbered group of the same number: group 0 of the start match is "<b", the group named first is "b"; the text
"b" is not accepted, "<b" is -/
theorem C29_named_trace_without_case : ∀ s, s = "b" ∨ s = "<b" →
    (call (re 1 [.bkTraceNName 0]) { at_ s 0 with back := some (str "<b", ⟨upd (fun _ => -1) 0 0, upd (fun _ => -1) 0 2, upd (fun _ => -1) 0 1,
      upd (fun _ => -1) 0 2⟩) }).map Out.res = some (.ret (s = "<b")) := by
  rintro s (rfl | rfl) <;> decide +kernel

/-- groups other than 0 are not put back when the part that set them is given up. `/(a)b|ac/` on "ac" matches through the second
alternative, and reports group 1 as [0, 1). `/(a|ab)+c/` on "aababc": the last round takes "ab", group 1 is reported as its failed try "a". -/
theorem C29_group_of_a_failed_branch :
    shown 2 (call (re 2 (alt [.brackets (some 1) [c 'a'], c 'b'] [c 'a', c 'c'])) (at_ "ac" 0)) = some (.ret true, [(0, 2), (0, 1)]) ∧
    shown 2 (call (re 2 [.rangeN 1 [.brackets (some 1) (alt [c 'a'] [.word (str "ab")])], c 'c']) (at_ "aababc" 0)) =
      some (.ret true, [(0, 6), (4, 5)]) := by decide +kernel

/-! ## C51: calls that return -/

/-- expressions outside the fragment of C29, with marks, references to own groups and counted repetitions with choices, but each repeated
part takes a character: `C51_matching_ends_partial` applies -/
example : repsTake big.body = true ∧ repsTake twice.body = true ∧ repsTake quest.body = true ∧
    repsTake [.rangeNM 2 5 [.brackets (some 1) (alt [c 'a'] [.bkBrack 1, .enum isLow, .msym .start])], .ngRangeN 3 [c 'x', .bkBrackName 0]] = true ∧
    repsTake [.rangeN 0 [.brackets (some 1) [.rangeN 0 [c 'a']]], c 'b'] = false := by decide +kernel

/-! ## C51: calls that never return -/

/-- `k` rounds, none of them the last -/
def iter (env : Env) : Nat → State → Option State
  | 0, st => some st
  | k + 1, st => match step env st with
    | .inl st1 => iter env k st1
    | .inr _ => none

theorem run_iter (env : Env) (k : Nat) : ∀ (fuel : Nat) (st st' : State), iter env k st = some st' →
    run env fuel st = if fuel ≤ k then none else run env (fuel - k) st' := by
  induction k with
  | zero =>
    intro fuel st st' h
    cases h
    cases fuel with
    | zero => rfl
    | succ n => rfl
  | succ k ih =>
    intro fuel st st' h
    cases fuel with
    | zero => rfl
    | succ n =>
      rw [run]
      rw [iter] at h
      cases hs : step env st with
      | inr r => rw [hs] at h; cases h
      | inl st1 =>
        rw [hs] at h
        dsimp only at h ⊢
        rw [ih n st1 st' h]
        by_cases hn : n ≤ k
        · rw [if_pos hn, if_pos (by omega)]
        · rw [if_neg hn, if_neg (by omega), show n + 1 - (k + 1) = n - k by omega]

/-- a set of states from each of which some rounds lead to another of them -/
theorem run_forever (env : Env) (P : State → Prop) (h : ∀ st, P st → ∃ k st', 0 < k ∧ iter env k st = some st' ∧ P st') (fuel : Nat) :
    ∀ st, P st → run env fuel st = none := by
  induction fuel using Nat.strongRecOn with
  | _ fuel ih =>
    intro st hp
    obtain ⟨k, st', hk, hi, hp'⟩ := h st hp
    rw [run_iter env k fuel st st' hi]
    split
    · rfl
    · exact ih (fuel - k) (by omega) st' hp'

/-- `/(a*)*b/` -/
def loops : Expr := re 2 [.rangeN 0 [.brackets (some 1) [.rangeN 0 [c 'a']]], c 'b']

/-- the outer repetition, from behind its body -/
def loopsPos : List (List Node) := [loops.body, [.brackets (some 0) loops.body]]

/-- the environment of `/(a*)*b/` on "a" -/
def loopsEnv : Env := envOf ascii loops (at_ "a" 0)

/-- the outer repetition reached again from its body at position 0, while its `oldParse` says 1 -/
def LoopState (st : State) : Prop := ∃ (m : Mem) (s p1 : Int) (S : List Elem),
  st = ⟨⟨loopsPos, false, 0⟩, none, m, S⟩ ∧ m.vars [2, 1] = ⟨s, 0, p1, 1⟩

theorem loop_again (st : State) (h : LoopState st) : ∃ k st', 0 < k ∧ iter loopsEnv k st = some st' ∧ LoopState st' := by
  obtain ⟨m, s, p1, S, rfl, hv⟩ := h
  have e : m = m.set [2, 1] ⟨s, 0, p1, 1⟩ := by
    cases m
    simp only [Mem.set, Mem.mk.injEq, and_self, and_true] at *
    funext b
    split
    · rename_i hb; rw [hb, hv]
    · rfl
  rw [e]
  refine ⟨30, _, by decide, by rfl, ?_⟩
  refine ⟨_, _, _, _, rfl, by rfl⟩

/-- C51 is false: `/(a*)*b/` on "a" never returns. The inner `a*` gives back its character, the outer repetition finds itself at another
position than in the round before, and starts one more empty round, again and again; the stack grows without bound. -/
theorem C51_never_returns (fuel : Nat) : parse ascii loops fuel Obj.new (at_ "a" 0) noMatches = none := by
  have h : ∃ st', iter loopsEnv 31 ⟨⟨loops.root, true, 0⟩, none,
      ⟨Obj.new.vars, clearMatches loops noMatches, false, false⟩, []⟩ = some st' ∧ LoopState st' :=
    ⟨_, by rfl, _, _, _, _, rfl, by rfl⟩
  obtain ⟨st', hi, hl⟩ := h
  have hr : run loopsEnv fuel ⟨⟨loops.root, true, 0⟩, none, ⟨Obj.new.vars, clearMatches loops noMatches, false, false⟩, []⟩ = none := by
    rw [run_iter _ _ _ _ _ hi]
    split
    · rfl
    · exact run_forever loopsEnv LoopState loop_again _ _ hl
  have ht : tries loopsEnv loops.root fuel false 0 0 ⟨Obj.new.vars, clearMatches loops noMatches, false, false⟩ = none := by
    rw [tries.eq_def]
    dsimp only
    rw [hr]
  exact ht

end Verif.RegExp.Demo
