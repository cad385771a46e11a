import Verif.TextParser.Ends
import Verif.TextParser.Demo2
/-!
# C60: which grammars are grounded; examples; where parsing does not end
-/
namespace Verif.TextParser
open Verif.VTList (VEntries resolve substLevel fires)

/-! ## Sufficient conditions for `Grounded` -/

theorem substLevel_rank {rank : Nat → Nat} (e : VEntries) : (∀ x y, (x, some y) ∈ e → rank y ≤ rank x) → ∀ s, rank (substLevel e s) ≤ rank s := by
  induction e with
  | nil => intro _ s; exact Nat.le_refl _
  | cons p e ih =>
    intro h s
    have ih := ih (fun x y hm => h x y (List.mem_cons_of_mem _ hm))
    show rank (substLevel e (if s = p.1 then p.2.getD s else s)) ≤ rank s
    refine Nat.le_trans (ih _) ?_
    split
    · rename_i hs
      obtain ⟨x, y⟩ := p
      cases y with
      | none => exact Nat.le_refl _
      | some y => simp only at hs; subst hs; exact h _ y (List.mem_cons_self ..)
    · exact Nat.le_refl _

theorem resolve_rank {rank : Nat → Nat} (levels : List VEntries) : (∀ e ∈ levels, ∀ x y, (x, some y) ∈ e → rank y ≤ rank x) → ∀ s r,
    resolve s levels = some r → rank r.1 ≤ rank s := by
  induction levels with
  | nil => intro _ s r h; simp [resolve] at h
  | cons e outer ih =>
    intro hl s r h
    have ih := ih (fun e he => hl e (List.mem_cons_of_mem _ he))
    have he := substLevel_rank e (hl e (List.mem_cons_self ..)) s
    rw [resolve] at h
    cases hx : resolve (substLevel e s) outer with
    | some r' =>
      rw [hx] at h
      cases h
      exact Nat.le_trans (ih _ _ hx) he
    | none =>
      rw [hx] at h
      dsimp only at h
      split at h
      · cases h; exact he
      · simp at h

/-- a grammar is grounded if schemes can be numbered so that a scheme inherits only schemes with smaller numbers and substitutions do
not lead to larger ones -/
theorem grounded_of_rank {env : Env} (rank : Nat → Nat) (h : ∀ s k virt, Node.inherit (some k) virt ∈ env.nodes s →
    rank k < rank s ∧ ∀ x y, (x, some y) ∈ virt → rank y ≤ rank x) : Grounded env := by
  have key : ∀ n s levels, rank s < n → FromG env levels → Acc (Inherits env) (s, levels) := by
    intro n
    induction n with
    | zero => intro s levels hs; omega
    | succ n ih =>
      intro s levels hs hlv
      refine ⟨_, ?_⟩
      rintro ⟨t, lv⟩ ⟨k, virt, hm, he⟩
      have hr : rank (target k levels virt).1 ≤ rank k := by
        unfold target
        split
        · rename_i r hr
          refine resolve_rank levels ?_ _ _ hr
          intro e he x y hxy
          obtain ⟨s', k', hk'⟩ := hlv e he
          exact (h s' k' e hk').2 x y hxy
        · exact Nat.le_refl _
      have hf := target_fromG (s := k) hlv (virt := virt) (fun _ => ⟨_, _, hm⟩)
      rw [← he] at hr hf
      have := (h s k virt hm).1
      exact ih t lv (by simp only at hr hm; omega) hf
  exact fun s levels hlv => key _ s levels (Nat.lt_succ_self _) hlv

namespace Demo

/-! ## The grammar of Demo.lean -/

theorem at_in {c : Nat} {t : Text} {pos len : Int} {m : Match} (h : at' c t pos len = (true, m)) : m.s = pos ∧ m.e = pos + 1 ∧ pos < len := by
  unfold at' at h
  split at h
  · rename_i hc
    cases h
    exact ⟨rfl, rfl, hc.2.1⟩
  · simp at h

theorem find_in {c : Nat} {t : Text} {len : Int} (n : Nat) : ∀ (pos : Int) (m : Match), find' c t len n pos = (true, m) → pos ≤ m.s ∧ m.e = m.s + 1 ∧ m.s < len := by
  induction n with
  | zero => intro pos m h; simp [find'] at h
  | succ n ih =>
    intro pos m h
    rw [find'] at h
    split at h
    · obtain ⟨h1, h2, h3⟩ := at_in h; exact ⟨by omega, by omega, by omega⟩
    · obtain ⟨h1, h2, h3⟩ := ih _ _ h; exact ⟨by omega, h2, h3⟩

theorem nodes_cases {s : Nat} {n : Node} (h : n ∈ nodes s) :
    n = blk 1 40 41 (some 1) ∨ n = blk 2 91 93 (some 2) ∨ n = .re 120 false [some 3] ∨ (n = .inherit (some 0) [] ∧ s = 2) := by
  unfold nodes at h
  split at h <;> simp at h <;> grind

theorem env_fits : Fits env where
  rx := by
    intro t q m ha h
    have h : rx q = (true, m) := h
    unfold rx at h
    split at h
    · obtain ⟨h1, h2, h3⟩ := at_in h
      exact ⟨by omega, by omega, by omega, fun _ _ => h1⟩
    · rename_i hre
      obtain ⟨h1, h2, h3⟩ := find_in _ _ _ h
      refine ⟨by omega, by omega, by omega, fun _ hb => ?_⟩
      exfalso
      rcases ha.2 with ⟨_, s, h⟩ | ⟨t, m, h, _⟩
      · rcases h with ⟨low, regs, h⟩ | ⟨b, h, hb⟩
        · rcases nodes_cases h with h | h | h | h <;> simp [blk] at h
          omega
        · rcases nodes_cases h with h | h | h | h <;> simp [blk] at h <;> rw [h] at hb <;> simp at hb <;> omega
      · rw [hb] at h; simp at h
  kw := by intro t id s x low n r _ _ _ h; simp [env] at h
  maxBlock := by show (0 : Int) ≤ 1000; omega

theorem env_grounded : Grounded env := by
  refine grounded_of_rank id ?_
  intro s k virt h
  rcases nodes_cases h with h | h | h | ⟨h, hs⟩
  · simp [blk] at h
  · simp [blk] at h
  · simp at h
  · simp at h
    obtain ⟨rfl, rfl⟩ := h
    exact ⟨by show 0 < s; omega, by simp⟩

/-- the four lines, then the same text with line 1 emptied, parsed from line 2 on with the cache of the other text -/
def jobs : List Job := [⟨line, 0, 4, .update⟩, ⟨fun l => if l = 1 then some [] else line l, 2, 2, .update⟩]

theorem line_exists (l : Int) (h : 0 ≤ l) (h2 : l < 4) : ∃ t, line l = some t := by
  have : l = 0 ∨ l = 1 ∨ l = 2 ∨ l = 3 := by omega
  rcases this with rfl | rfl | rfl | rfl <;> exact ⟨_, rfl⟩

example : ∃ rs, Done env (fresh 0) jobs rs := by
  refine C60_every_call_ends env env_fits env_grounded 0 jobs ?_
  intro j hj
  simp only [jobs, List.mem_cons, List.not_mem_nil, or_false] at hj
  rcases hj with rfl | rfl
  · exact ⟨.inr ⟨by simp, by simp⟩, fun l h1 h2 => line_exists l h1 (by simpa using h2)⟩
  · refine ⟨.inr ⟨by simp, by simp⟩, fun l h1 h2 => ?_⟩
    have h1 : (2 : Int) ≤ l := h1
    have h2 : l < 2 + 2 := h2
    show ∃ t, (if l = 1 then some [] else line l) = some t
    rw [if_neg (by omega)]
    exact line_exists l (by omega) (by omega)

/-! ## The usual way to extend a language: a scheme that inherits another one and takes its place inside it -/

/-- scheme 0 (`text`): a block `( … )` with content scheme 0; scheme 1: everything of scheme 0, where scheme 0 is replaced by scheme 1,
and `x` -/
def nodesV : Nat → List Node
  | 0 => [blk 0 40 41 (some 1)]
  | 1 => [.inherit (some 0) [(0, some 1)], .re 120 false [some 3]]
  | _ => []

def envV : Env := { env with nodes := nodesV }

/-- it is grounded, although the substitution leads back to the inheriting scheme -/
theorem envV_grounded : Grounded envV := by
  have only : ∀ s k virt, Node.inherit (some k) virt ∈ nodesV s → s = 1 ∧ k = 0 ∧ virt = [(0, some 1)] := by
    intro s k virt h
    unfold nodesV at h
    split at h <;> simp [blk] at h
    exact ⟨rfl, h.1, h.2⟩
  have zero : ∀ s levels, s ≠ 1 → Acc (Inherits envV) (s, levels) := by
    intro s levels hs
    refine ⟨_, ?_⟩
    rintro b ⟨k, virt, hm, _⟩
    exact absurd (only _ _ _ hm).1 hs
  have one : ∀ levels, FromG envV levels → Acc (Inherits envV) (1, levels) := by
    intro levels
    induction levels with
    | nil =>
      intro _
      refine ⟨_, ?_⟩
      rintro b ⟨k, virt, hm, rfl⟩
      obtain ⟨_, rfl, rfl⟩ := only 1 k virt hm
      exact zero _ _ (by decide)
    | cons e outer ih =>
      intro hl
      obtain ⟨s, k, hk⟩ := hl e (List.mem_cons_self ..)
      obtain ⟨_, _, rfl⟩ := only _ _ _ hk
      have hout : FromG envV outer := fun v hv => hl v (List.mem_cons_of_mem _ hv)
      refine ⟨_, ?_⟩
      rintro b ⟨k, virt, hm, rfl⟩
      obtain ⟨_, rfl, rfl⟩ := only 1 k virt hm
      have r1 : ∀ o : List VEntries, FromG envV o → resolve 1 o = none := by
        intro o
        induction o with
        | nil => intro _; rfl
        | cons e o ih2 =>
          intro ho
          obtain ⟨s, k, hk⟩ := ho e (List.mem_cons_self ..)
          obtain ⟨_, _, rfl⟩ := only _ _ _ hk
          rw [resolve]
          have : substLevel [(0, some 1)] 1 = 1 := by decide
          rw [this, ih2 (fun v hv => ho v (List.mem_cons_of_mem _ hv))]
          rfl
      have : target 0 ([(0, some 1)] :: outer) [(0, some 1)] = (1, outer) := by
        unfold target
        rw [resolve]
        have : substLevel [(0, some 1)] 0 = 1 := by decide
        rw [this, r1 outer hout]
        rfl
      show Acc _ (target 0 ([(0, some 1)] :: outer) [(0, some 1)])
      rw [this]
      exact ih hout
  intro s levels hl
  by_cases hs : s = 1
  · subst hs; exact one levels hl
  · exact zero s levels hs

/-! ## Where parsing does not end -/

theorem never {env : Env} {s : Nat} (hn : env.nodes s = [.inherit (some s) []]) {c : Call} {st : St} {o : Out} {st' : St} (h : Big env c st o st') :
    ∀ low hi me, c ≠ .nodes [.inherit (some s) []] [] low hi me := by
  have ht : target s [] [] = (s, []) := rfl
  induction h with
  | @inhHit s' virt ns levels low hi me st o st1 _ _ ih =>
    intro low' hi' me' h
    simp only [Call.nodes.injEq, List.cons.injEq, Node.inherit.injEq, Option.some.injEq] at h
    obtain ⟨⟨⟨rfl, rfl⟩, rfl⟩, rfl, rfl, rfl, rfl⟩ := h
    exact ih low hi me (by rw [ht]; show Call.nodes (env.nodes _) _ _ _ _ = _; rw [hn])
  | @inhMiss s' virt ns levels low hi me st o st1 o' st' _ _ _ ih _ =>
    intro low' hi' me' h
    simp only [Call.nodes.injEq, List.cons.injEq, Node.inherit.injEq, Option.some.injEq] at h
    obtain ⟨⟨⟨rfl, rfl⟩, rfl⟩, rfl, rfl, rfl, rfl⟩ := h
    exact ih low hi me (by rw [ht]; show Call.nodes (env.nodes _) _ _ _ _ = _; rw [hn])
  | _ => intro low hi me h; simp at h

/-- scheme 0 inherits scheme 0; every line is `t` -/
def envI (rx : Nat → Query → Bool × Match) (t : Text) : Env :=
  ⟨fun _ => [.inherit (some 0) []], rx, fun _ _ _ _ _ => none, fun _ => false, fun _ => some t, 1000, 100, false, 0⟩

/-- C60 fails for a scheme that inherits itself (nothing in the loader rejects it: HrcLibraryImpl.cpp 846-900 links any scheme): no parse
of any line ends, whatever the expressions. In the code: recursion without end. -/
theorem C60_violated_self_inherit (rx : Nat → Query → Bool × Match) (p : PState) (hc : p.cache = []) (hb : p.base = 0) (t : Text) (mode : Mode)
    (r : Result) :
    ¬ Parses (envI rx t) p 0 1 mode r := by
  intro h
  obtain ⟨fuel, h⟩ := h.parse
  obtain ⟨z, me, st, hz, hcb, _⟩ := parse_cb h
  have hz' : z = ⟨[], []⟩ := by
    have hl : locateRoot 0 ([] : List Tree) = ⟨[], []⟩ := by unfold locateRoot; rw [locateKids.eq_def]
    cases mode <;> simp [entry, hc] at hz
    · exact hz.symm
    · rw [hl] at hz; exact hz.symm
    · rw [hl] at hz; exact hz.symm
  subst hz'
  cases hcb with
  | nil hb1 =>
    rw [hb] at hb1
    cases hb1 with
    | limit hl => exact absurd hl (by simp)
    | colorize hl hb2 =>
      have cols : ∀ (me : Match) (len plen : Int) (st : St) (o : Out) (st' : St), st.gx ≤ me.s → ¬ Big
          (Env.call (envI rx t) 0 1 mode)
          (.cols ⟨none, false, 0, []⟩ me len plen) st o st' := by
        intro me len plen st o st' hg hbg
        cases hbg with
        | colEnd h => exact h hg
        | colBrk _ h => exact absurd (show false = true from h) (by simp)
        | colRep _ _ h _ => exact never (s := 0) rfl h _ _ _ rfl
        | colGo _ _ h _ _ => exact never (s := 0) rfl h _ _ _ rfl
      have start : ∀ {c : Ctx} {st st1 : St} (me : Match), c.stop = none → st.gx = 0 → startLine (Env.call
          (envI rx t) 0 1 mode) c st = .ok st1 →
          st1.gx ≤ (endSearch (Env.call
            (envI rx t) 0 1 mode) c me st1).2.s := by
        intro c st st1 me hs hg hst
        obtain ⟨g1, _⟩ := startLine_facts hst
        unfold endSearch
        rw [hs]
        dsimp only
        have hm : ∀ n : Nat, st1.gx ≤ (if st1.gx + 1000 > (n : Int) then (n : Int) else st1.gx + 1000) := by
          intro n; split <;> omega
        exact hm _
      cases hb2 with
      | outEnd h => exact h (by show (0 : Int) < 0 + 1; omega)
      | outRep _ h1 h2 _ _ => refine cols _ _ _ _ _ _ ?_ h2; exact start _ rfl rfl h1
      | outStop _ h1 h2 _ _ => refine cols _ _ _ _ _ _ ?_ h2; exact start _ rfl rfl h1
      | outNext _ h1 h2 _ _ _ => refine cols _ _ _ _ _ _ ?_ h2; exact start _ rfl rfl h1

/-- and such a grammar is not grounded -/
example : ¬ Grounded (envI (fun _ _ => (false, ⟨0, 0, []⟩)) []) := by
  intro h
  have := h 0 [] (by intro v hv; simp at hv)
  generalize ha : ((0 : Nat), ([] : List VEntries)) = a at this
  induction this with
  | intro a _ ih => subst ha; exact ih (0, []) ⟨0, [], by simp [envI], rfl⟩ rfl

end Demo
end Verif.TextParser
