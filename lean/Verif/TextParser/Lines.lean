import Verif.TextParser.Rules
/-!
# C32: lines are reported in order

Specification: `Lines from n evs` says that `evs` announces the `n` lines `from`, `from+1`, … each once and in this order, and that between
two announcements there are only events of the line announced last.
-/
namespace Verif.TextParser
open Verif.VTList (VEntries resolve)

/-- an event of line `l` other than its announcement -/
def OnLine (l : Int) : Ev → Prop
  | .region l' _ _ _ | .enter l' _ _ _ _ | .leave l' _ _ _ _ | .pseudo l' _ _ => l' = l
  | _ => False

inductive Lines (from' : Int) : Nat → List Ev → Prop
  | nil : Lines from' 0 []
  | next {n : Nat} {evs b : List Ev} : Lines from' n evs → (∀ e ∈ b, OnLine (from' + n) e) →
      Lines from' (n + 1) (evs ++ Ev.clear (from' + n) :: b)

/-! ## Proof -/

theorem Lines.more {from' : Int} {n : Nat} {evs b : List Ev} (h : Lines from' (n + 1) evs) (hb : ∀ e ∈ b, OnLine (from' + n) e) :
    Lines from' (n + 1) (evs ++ b) := by
  cases h with
  | next h1 h2 =>
    rw [List.append_assoc, List.cons_append]
    refine .next h1 ?_
    intro e he
    rcases List.mem_append.1 he with he | he
    · exact h2 e he
    · exact hb e he

theorem regEv_on (l : Int) (g : Int × Int) (r : Option Nat) : ∀ e ∈ regEv l g r, OnLine l e := by
  intro e he
  unfold regEv at he
  split at he
  · simp at he
  · split at he
    · simp at he
    · simp only [List.mem_singleton] at he; subst he; rfl

theorem regEvs_on (l : Int) (m : Match) (regs : List (Option Nat)) : ∀ e ∈ regEvs l m regs, OnLine l e := by
  intro e he
  unfold regEvs at he
  simp only [List.mem_flatten, List.mem_map] at he
  obtain ⟨x, ⟨y, _, rfl⟩, he⟩ := he
  exact regEv_on _ _ _ e he

theorem enterEvs_on (l : Int) (m : Match) (b : Block) (s : Nat) : ∀ e ∈ enterEvs l m b s, OnLine l e := by
  intro e he
  unfold enterEvs at he
  split at he
  · rcases List.mem_append.1 he with he | he
    · exact regEvs_on _ _ _ e he
    · simp only [List.mem_singleton] at he; subst he; rfl
  · rcases List.mem_cons.1 he with he | he
    · subst he; rfl
    · exact regEvs_on _ _ _ e he

theorem leaveEvs_on (l : Int) (m : Match) (b : Block) (s : Nat) : ∀ e ∈ leaveEvs l m b s, OnLine l e := by
  intro e he
  unfold leaveEvs at he
  split at he
  · rcases List.mem_cons.1 he with he | he
    · subst he; rfl
    · exact regEvs_on _ _ _ e he
  · rcases List.mem_append.1 he with he | he
    · exact regEvs_on _ _ _ e he
    · simp only [List.mem_singleton] at he; subst he; rfl

theorem pseudos_on (l : Int) (fs : List Frame) (s : Nat) : ∀ e ∈ pseudos l fs s, OnLine l e := by
  intro e he
  unfold pseudos at he
  simp only [List.mem_map] at he
  obtain ⟨f, _, rfl⟩ := he
  rfl

/-- parameters of the invariant: first line, `endLine` before the parse, end, and whether the parse may be broken off -/
structure LP where
  from' : Int
  e0    : Int
  E     : Int
  B     : Prop

def lp (env : Env) (from' e0 : Int) : LP := ⟨from', e0, env.endL, ∃ t, env.brk t = true⟩

/-- the events so far and where the parser is -/
def LineInv (p : LP) (st : St) : Prop :=
  ∃ n evs, st.evs = .start p.from' :: evs ∧ Lines p.from' n evs ∧
    ((n = 0 ∧ st.cleared = -1 ∧ st.line = p.from' ∧ st.endLine = p.e0) ∨
     (0 < n ∧ st.cleared = p.from' + n - 1 ∧ st.endLine = st.cleared ∧ st.cleared < p.E ∧
       (st.line = st.cleared ∨ st.line = st.cleared + 1 ∨ (p.B ∧ p.E ≤ st.line))))

theorem lineInv_iff {env : Env} {from' e0 : Int} {st : St} : LineInv (lp env from' e0) st ↔
    ∃ n evs, st.evs = .start from' :: evs ∧ Lines from' n evs ∧
    ((n = 0 ∧ st.cleared = -1 ∧ st.line = from' ∧ st.endLine = e0) ∨
     (0 < n ∧ st.cleared = from' + n - 1 ∧ st.endLine = st.cleared ∧ st.cleared < env.endL ∧
       (st.line = st.cleared ∨ st.line = st.cleared + 1 ∨ ((∃ t, env.brk t = true) ∧ env.endL ≤ st.line)))) := Iff.rfl

theorem LineInv.same {p : LP} {st st' : St} (h : LineInv p st) (h1 : st'.evs = st.evs) (h2 : st'.cleared = st.cleared)
    (h3 : st'.endLine = st.endLine) (h4 : st'.line = st.line) : LineInv p st' := by
  unfold LineInv at *
  rw [h1, h2, h3, h4]; exact h

/-- events of the current line -/
theorem LineInv.add {p : LP} {st st' : St} {es : List Ev} (h : LineInv p st) (hc : st.line = st.cleared) (hf : 0 ≤ p.from')
    (he : ∀ e ∈ es, OnLine st.line e) (h1 : st'.evs = st.evs ++ es) (h2 : st'.cleared = st.cleared)
    (h3 : st'.endLine = st.endLine) (h4 : st'.line = st.line) : LineInv p st' := by
  obtain ⟨n, evs, a1, a2, a3⟩ := h
  rcases a3 with ⟨hn, hx, hy⟩ | ⟨hn, hx, hy⟩
  · omega
  · obtain ⟨k, rfl⟩ : ∃ k, n = k + 1 := ⟨n - 1, by omega⟩
    refine ⟨k + 1, evs ++ es, by rw [h1, a1]; rfl, a2.more ?_, Or.inr ⟨hn, by rw [h2, hx], by rw [h2, h3]; exact hy.1, by rw [h2, h4]; exact hy.2⟩⟩
    intro e hm
    have := he e hm
    rw [hc, hx] at this
    rwa [show p.from' + ((k + 1 : Nat) : Int) - 1 = p.from' + k by omega] at this

/-- precondition of a call -/
def LPre (env : Env) (from' e0 : Int) : Call → St → Prop
  | .colorize _ _, st => LineInv (lp env from' e0) st ∧ (st.line = st.cleared ∨ st.level ≤ env.limit)
  | .outer _ _, st => LineInv (lp env from' e0) st
  | .cols _ _ _ _, st | .nodes _ _ _ _ _, st => LineInv (lp env from' e0) st ∧ st.line = st.cleared ∧ st.line < env.endL

/-- what a call does -/
def LPost (env : Env) (from' e0 : Int) (c : Call) (st : St) (o : Out) (st' : St) : Prop :=
  LineInv (lp env from' e0) st' ∧ (st'.line = st'.cleared ∨ env.endL ≤ st'.line) ∧
  match c with
  | .cols _ _ _ _ => o.rep = false → st'.line = st.line ∨ ((∃ t, env.brk t = true) ∧ env.endL ≤ st'.line)
  | .nodes _ _ _ _ _ => o.res ≠ .scheme → st'.line = st.line
  | _ => True

theorem startLine_inv {env : Env} {from' e0 : Int} {c : Ctx} {st st1 : St} (hf : 0 ≤ from') (h : LineInv (lp env from' e0) st)
    (hl : st.line < env.endL) (h1 : startLine env c st = .ok st1) :
    LineInv (lp env from' e0) st1 ∧ st1.line = st1.cleared ∧ st1.line = st.line := by
  obtain ⟨st2, h2, h3⟩ := andThen_ok h1
  cases h3
  have key : LineInv (lp env from' e0) { st2 with endLine := st2.line } ∧ st2.line = st2.cleared ∧ st2.line = st.line := by
    unfold openLine at h2
    split at h2
    · rename_i hne
      split at h2
      · simp at h2
      · cases h2
        refine ⟨?_, rfl, rfl⟩
        obtain ⟨n, evs, a1, a2, a3⟩ := lineInv_iff.1 h
        have hln : st.line = from' + n := by omega
        refine lineInv_iff.2 ⟨n + 1, evs ++ Ev.clear (from' + n) :: [], ?_, .next a2 (by simp), Or.inr ⟨by omega, ?_, rfl, hl, Or.inl rfl⟩⟩
        · show st.evs ++ [Ev.clear st.line] = _
          rw [a1, hln]; rfl
        · show st.line = _
          omega
    · cases h2
      rename_i hne
      rw [Decidable.not_not] at hne
      refine ⟨?_, hne.symm, rfl⟩
      obtain ⟨n, evs, a1, a2, a3⟩ := lineInv_iff.1 h
      refine lineInv_iff.2 ⟨n, evs, a1, a2, ?_⟩
      rcases a3 with a3 | ⟨b1, b2, b3, b4, b5⟩
      · omega
      · exact Or.inr ⟨b1, b2, hne.symm, b4, b5⟩
  unfold fill
  split
  · exact key
  · refine ⟨?_, key.2.1, key.2.2⟩
    exact key.1.add (st := { st2 with endLine := st2.line }) key.2.1 hf (pseudos_on _ _ _) rfl rfl rfl rfl

theorem run_lines {env : Env} {from' e0 : Int} (hf : 0 ≤ from') {c : Call} {st : St} {o : Out} {st' : St} (h : Big env c st o st') :
    LPre env from' e0 c st → LPost env from' e0 c st o st' := by
  induction h with
  | limit hl =>
    rintro ⟨h1, h2⟩
    exact ⟨h1.same rfl rfl rfl rfl, by rcases h2 with h2 | h2; exact Or.inl h2; omega, trivial⟩
  | colorize hl _ ih =>
    rintro ⟨h1, h2⟩
    obtain ⟨a1, a2, _⟩ := ih (h1.same rfl rfl rfl rfl)
    exact ⟨a1.same rfl rfl rfl rfl, a2, trivial⟩
  | outEnd hl => intro h; exact ⟨h, Or.inr (by omega), trivial⟩
  | outRep hl h1 _ hr _ ih1 ih2 =>
    intro h
    obtain ⟨b1, b2, b3⟩ := startLine_inv hf h hl h1
    obtain ⟨a1, a2, _⟩ := ih1 ⟨b1.same rfl rfl rfl rfl, b2, by show _ < _; rw [← b3] at hl; exact hl⟩
    exact ih2 a1
  | outStop hl h1 _ hr ha ih1 =>
    intro h
    obtain ⟨b1, b2, b3⟩ := startLine_inv hf h hl h1
    obtain ⟨a1, a2, _⟩ := ih1 ⟨b1.same rfl rfl rfl rfl, b2, by show _ < _; rw [← b3] at hl; exact hl⟩
    exact ⟨a1.same rfl rfl rfl rfl, a2, trivial⟩
  | @outNext c me st st1 o st2 o' st' hl h1 _ hr ha _ ih1 ih2 =>
    intro h
    obtain ⟨b1, b2, b3⟩ := startLine_inv hf h hl h1
    obtain ⟨a1, a2, a3⟩ := ih1 ⟨b1.same rfl rfl rfl rfl, b2, by show _ < _; rw [← b3] at hl; exact hl⟩
    refine ih2 ?_
    obtain ⟨n, evs, c1, c2, c3⟩ := lineInv_iff.1 a1
    refine lineInv_iff.2 ⟨n, evs, c1, c2, ?_⟩
    have a3 := a3 hr
    have hl1 : st1.line < env.endL := by omega
    rcases a3 with a3 | a3
    · have a3 : st2.line = st1.line := a3
      rcases c3 with c3 | ⟨d1, d2, d3, d4, d5⟩
      · omega
      · refine Or.inr ⟨d1, d2, d3, d4, Or.inr (Or.inl ?_)⟩
        show st2.line + 1 = st2.cleared + 1
        omega
    · rcases c3 with c3 | ⟨d1, d2, d3, d4, d5⟩
      · obtain ⟨n', _, _, _, e3⟩ := lineInv_iff.1 b1
        omega
      · refine Or.inr ⟨d1, d2, d3, d4, Or.inr (Or.inr ⟨a3.1, ?_⟩)⟩
        show env.endL ≤ st2.line + 1
        omega
  | colEnd hg => rintro ⟨h1, h2, h3⟩; exact ⟨h1, Or.inl h2, fun _ => Or.inl rfl⟩
  | @colBrk c me len plen st hg hb =>
    rintro ⟨h1, h2, h3⟩
    refine ⟨?_, Or.inr (Int.le_refl _), fun _ => Or.inr ⟨⟨_, hb⟩, Int.le_refl _⟩⟩
    obtain ⟨n, evs, c1, c2, c3⟩ := lineInv_iff.1 h1
    refine lineInv_iff.2 ⟨n, evs, c1, c2, ?_⟩
    rcases c3 with c3 | ⟨d1, d2, d3, d4, d5⟩
    · omega
    · exact Or.inr ⟨d1, d2, d3, d4, Or.inr (Or.inr ⟨⟨_, hb⟩, Int.le_refl _⟩)⟩
  | colRep hg hb _ hr ih1 =>
    rintro ⟨h1, h2, h3⟩
    obtain ⟨a1, a2, a3⟩ := ih1 ⟨h1.same rfl rfl rfl rfl, h2, h3⟩
    exact ⟨a1, a2, by intro h; simp at h⟩
  | @colGo c me len plen st o st1 o' st' hg hb _ hr _ ih1 ih2 =>
    rintro ⟨h1, h2, h3⟩
    obtain ⟨a1, a2, a3⟩ := ih1 ⟨h1.same rfl rfl rfl rfl, h2, h3⟩
    have hln : st1.line = st.line := by
      by_cases hs : o.res = .scheme
      · unfold reparse at hr
        rw [not_or] at hr
        have := hr.1
        rw [not_and] at this
        have := this hs
        rw [not_or, Decidable.not_not] at this
        exact this.1
      · exact a3 hs
    have e1 : (bump o st1).line = st1.line ∧ (bump o st1).cleared = st1.cleared ∧ (bump o st1).evs = st1.evs ∧ (bump o st1).endLine = st1.endLine := by
      unfold bump; split <;> exact ⟨rfl, rfl, rfl, rfl⟩
    obtain ⟨g1, g2, g3⟩ := ih2 ⟨a1.same e1.2.2.1 e1.2.1 e1.2.2.2 e1.1, by omega, by omega⟩
    refine ⟨g1, g2, fun h => ?_⟩
    rcases g3 h with g3 | g3
    · left; omega
    · exact Or.inr g3
  | nil => rintro ⟨h1, h2, h3⟩; exact ⟨h1, Or.inl h2, fun _ => rfl⟩
  | inhNone _ ih => exact ih
  | inhHit _ hr ih =>
    rintro ⟨h1, h2, h3⟩
    obtain ⟨a1, a2, a3⟩ := ih ⟨h1, h2, h3⟩
    exact ⟨a1, a2, a3⟩
  | inhMiss _ hr _ ih1 ih2 =>
    rintro ⟨h1, h2, h3⟩
    obtain ⟨a1, a2, a3⟩ := ih1 ⟨h1, h2, h3⟩
    have hln := a3 (by rw [hr]; simp)
    obtain ⟨g1, g2, g3⟩ := ih2 ⟨a1, by omega, by omega⟩
    refine ⟨g1, g2, fun h => ?_⟩
    have := g3 h
    omega
  | kwHit hk =>
    rintro ⟨h1, h2, h3⟩
    exact ⟨h1.add h2 hf (regEv_on _ _ _) rfl rfl rfl rfl, Or.inl h2, fun _ => rfl⟩
  | kwMiss hk _ ih =>
    rintro ⟨h1, h2, h3⟩
    exact ih ⟨h1.same rfl rfl rfl rfl, h2, h3⟩
  | reHit ha he =>
    rintro ⟨h1, h2, h3⟩
    exact ⟨h1.add h2 hf (regEvs_on _ _ _) rfl rfl rfl rfl, Or.inl h2, fun _ => rfl⟩
  | reZero ha he _ ih =>
    rintro ⟨h1, h2, h3⟩
    exact ih ⟨h1.add h2 hf (regEvs_on _ _ _) rfl rfl rfl rfl, h2, h3⟩
  | reMiss ha _ ih =>
    rintro ⟨h1, h2, h3⟩
    exact ih ⟨h1.same rfl rfl rfl rfl, h2, h3⟩
  | blNone hs _ ih => exact ih
  | blMiss hs ha _ ih =>
    rintro ⟨h1, h2, h3⟩
    exact ih ⟨h1.same rfl rfl rfl rfl, h2, h3⟩
  | @blZero b s ns levels low hi me st m o st1 o' st' hs ha _ hz1 hz2 _ ih1 ih2 =>
    rintro ⟨h1, h2, h3⟩
    obtain ⟨a1, a2, _⟩ := ih1 ⟨h1.add h2 hf (enterEvs_on _ _ _ _) rfl rfl rfl rfl, Or.inl h2⟩
    have hc : st1.line = st1.cleared := by omega
    refine (fun x => ⟨x.1, x.2.1, fun h => by have := x.2.2 h; rw [this]; exact hz2.symm⟩) (ih2 ⟨?_, hc, ?_⟩)
    · refine a1.add hc hf (es := if st1.line < env.endL then leaveEvs st1.line o.me b (target s levels []).1 else []) ?_ rfl rfl rfl rfl
      split
      · exact leaveEvs_on _ _ _ _
      · simp
    · show st1.line < _
      omega
  | @blHit b s ns levels low hi me st m o st1 hs ha _ hz ih1 =>
    rintro ⟨h1, h2, h3⟩
    obtain ⟨a1, a2, _⟩ := ih1 ⟨h1.add h2 hf (enterEvs_on _ _ _ _) rfl rfl rfl rfl, Or.inl h2⟩
    refine ⟨?_, a2, fun h => absurd rfl h⟩
    by_cases hlt : st1.line < env.endL
    · have hc : st1.line = st1.cleared := by omega
      refine a1.add hc hf (es := if st1.line < env.endL then leaveEvs st1.line o.me b (target s levels []).1 else []) ?_ rfl rfl rfl rfl
      rw [if_pos hlt]; exact leaveEvs_on _ _ _ _
    · refine a1.same ?_ rfl rfl rfl
      simp [afterBlock, hlt]

theorem climb_lines {env : Env} {from' e0 : Int} (hf : 0 ≤ from') {fuel base : Nat} (fs : List Frame) : ∀ (me : Match) (st : St) (me' : Match) (st' : St),
    LineInv (lp env from' e0) st → climb env fuel base fs me st = .ok (me', st') →
    LineInv (lp env from' e0) st' ∧ (st'.line = st'.cleared ∨ env.endL ≤ st'.line) := by
  induction fs with
  | nil =>
    intro me st me' st' h hc
    obtain ⟨⟨o, st1⟩, h1, h2⟩ := andThen_ok hc
    cases h2
    obtain ⟨a1, a2, _⟩ := run_lines hf (run_big _ _ _ _ _ _ h1) ⟨h.same rfl rfl rfl rfl, Or.inr (Nat.zero_le _)⟩
    exact ⟨a1.same rfl rfl rfl rfl, a2⟩
  | cons f fs ih =>
    intro me st me' st' h hc
    obtain ⟨⟨o, st1⟩, h1, h2⟩ := andThen_ok hc
    obtain ⟨a1, a2, _⟩ := run_lines hf (run_big _ _ _ _ _ _ h1) ⟨h.same rfl rfl rfl rfl, Or.inr (Nat.zero_le _)⟩
    refine ih _ _ _ _ ?_ h2
    by_cases hlt : st1.line < env.endL
    · have hc : st1.line = st1.cleared := by omega
      refine a1.add hc hf (es := if st1.line < env.endL then leaveEvs st1.line o.me f.info.block f.info.scheme else []) ?_ rfl rfl rfl rfl
      rw [if_pos hlt]; exact leaveEvs_on _ _ _ _
    · refine a1.same ?_ rfl rfl rfl
      simp [afterFrame, hlt]

/-- without an end expression only the end of the range (or a broken parse) ends the loop -/
theorem outer_none {env : Env} {c : Call} {st : St} {o : Out} {st' : St} (h : Big env c st o st') :
    ∀ x me, c = .outer x me → x.stop = none → env.endL ≤ st'.line := by
  induction h with
  | outEnd hl => intro x me _ _; omega
  | outRep hl h1 _ hr _ ih1 ih2 => intro x me hc hx; cases hc; exact ih2 _ _ rfl hx
  | outStop hl h1 _ hr ha ih1 => intro x me hc hx; cases hc; simp [endSearch, hx] at ha
  | outNext hl h1 _ hr ha _ ih1 ih2 => intro x me hc hx; cases hc; exact ih2 _ _ rfl hx
  | _ => intro x me hc; cases hc

theorem climb_ends {env : Env} {fuel base : Nat} (fs : List Frame) : ∀ (me : Match) (st : St) (me' : Match) (st' : St),
    climb env fuel base fs me st = .ok (me', st') → env.endL ≤ st'.line := by
  induction fs with
  | nil =>
    intro me st me' st' hc
    obtain ⟨⟨o, st1⟩, h1, h2⟩ := andThen_ok hc
    cases h2
    cases run_big _ _ _ _ _ _ h1 with
    | limit hl => exact absurd hl (by simp)
    | colorize hl h =>
      have := outer_none h ⟨none, false, base, []⟩ me rfl rfl
      exact this
  | cons f fs ih =>
    intro me st me' st' hc
    obtain ⟨⟨o, st1⟩, h1, h2⟩ := andThen_ok hc
    exact ih _ _ _ _ h2

/-- C32: whatever the expressions answer and whenever the parse is broken off: a parse that returns reports its start, then the lines
`from`, `from+1`, … consecutively, each announced once before its events and all below the end line, then the end with the number of
the last line reported, which it also returns. A parse that is not broken off reports all lines of the range. (With no line to parse —
`num ≤ 0` — the number reported is the stale one of an earlier parse.) -/
theorem C32_lines_in_order (env : Env) (fuel : Nat) (p : PState) (from' num : Int) (mode : Mode) (r : Result) (hf : 0 ≤ from')
    (h : parse env fuel p from' num mode = .ok r) :
    ∃ n evs, r.evs = .start from' :: evs ++ [.fin r.ret] ∧ Lines from' n evs ∧ n ≤ num.toNat ∧
      (0 < n → r.ret = from' + n - 1) ∧ (n = 0 → r.ret = p.endLine) ∧ ((∀ t, env.brk t = false) → n = num.toNat) := by
  unfold parse at h
  split at h
  · simp at h
  · rename_i z hz
    obtain ⟨⟨me, st⟩, h1, h2⟩ := andThen_ok h
    cases h2
    generalize hE : ({ env with endL := from' + num, upd := decide (mode = .update) } : Env) = E at h1
    have hEe : E.endL = from' + num := by subst hE; rfl
    have hEb : E.brk = env.brk := by subst hE; rfl
    have h0 : LineInv (lp E from' p.endLine) (startState p from' z) := lineInv_iff.2 ⟨0, [], rfl, .nil, Or.inl ⟨rfl, rfl, rfl, rfl⟩⟩
    obtain ⟨a, _⟩ := climb_lines hf _ _ _ _ _ h0 h1
    obtain ⟨n, evs, a1, a2, a3⟩ := lineInv_iff.1 a
    have hend := climb_ends _ _ _ _ _ h1
    refine ⟨n, evs, by simp only [a1], a2, ?_, ?_, ?_, ?_⟩
    · omega
    · intro hn
      show st.endLine = _
      omega
    · intro hn
      show st.endLine = _
      omega
    · intro hb
      rcases a3 with a3 | ⟨d1, d2, d3, d4, d5⟩
      · omega
      · rcases d5 with d5 | d5 | ⟨⟨t, d5⟩, _⟩
        · omega
        · omega
        · rw [hEb, hb t] at d5; simp at d5

theorem andThen_err {α β : Type} {x : R α} {f : α → R β} {e : Stop} (h : x.andThen f = .error e) :
    x = .error e ∨ ∃ a, x = .ok a ∧ f a = .error e := by
  cases x with
  | error e' => left; simpa [R.andThen] using h
  | ok a => exact Or.inr ⟨a, rfl, h⟩

theorem body_null (env : Env) (rec : Call → St → R (Out × St)) (l : Int) (ih : ∀ c st, rec c st = .error (.null l) → env.line l = none)
    (c : Call) (st : St) (h : body env rec c st = .error (.null l)) : env.line l = none := by
  unfold body at h
  split at h
  · split at h
    · simp at h
    · rcases andThen_err h with h | ⟨_, _, h⟩
      · exact ih _ _ h
      · simp at h
  · split at h
    · rcases andThen_err h with h | ⟨st1, _, h⟩
      · rcases andThen_err h with h | ⟨st1, _, h⟩
        · unfold openLine at h
          split at h
          · split at h
            · rename_i hn
              simp only [Except.error.injEq, Stop.null.injEq] at h
              rw [← h]; exact hn
            · simp at h
          · simp at h
        · simp at h
      · rcases andThen_err h with h | ⟨_, _, h⟩
        · exact ih _ _ h
        · simp only at h
          split at h
          · exact ih _ _ h
          · split at h
            · simp at h
            · exact ih _ _ h
    · simp at h
  · split at h
    · split at h
      · simp at h
      · rcases andThen_err h with h | ⟨_, _, h⟩
        · exact ih _ _ h
        · simp only at h
          split at h
          · simp at h
          · exact ih _ _ h
    · simp at h
  · simp at h
  · exact ih _ _ h
  · rcases andThen_err h with h | ⟨_, _, h⟩
    · exact ih _ _ h
    · simp only at h
      split at h
      · simp at h
      · exact ih _ _ h
  · split at h
    · simp at h
    · exact ih _ _ h
  · simp only at h
    generalize env.rx _ _ = a at h
    split at h
    · split at h
      · exact ih _ _ h
      · simp at h
    · exact ih _ _ h
  · split at h
    · exact ih _ _ h
    · simp only at h
      generalize env.rx _ _ = a at h
      by_cases ha : a.1 = true
      · rw [if_pos ha] at h
        rcases andThen_err h with h | ⟨_, _, h⟩
        · exact ih _ _ h
        · split at h
          · exact ih _ _ h
          · simp at h
      · rw [if_neg ha] at h
        exact ih _ _ h

theorem run_null (env : Env) (l : Int) (n : Nat) : ∀ c st, run env n c st = .error (.null l) → env.line l = none := by
  induction n with
  | zero => intro c st h; simp [run] at h
  | succ n ih => intro c st h; exact body_null env _ l ih c st h

/-- C32: the parser throws only if the line source has no such line. -/
theorem C32_throws_only_for_missing_line (env : Env) (fuel : Nat) (p : PState) (from' num : Int) (mode : Mode) (l : Int)
    (h : parse env fuel p from' num mode = .error (.null l)) : env.line l = none := by
  unfold parse at h
  split at h
  · simp at h
  · rename_i z _
    have key : ∀ (E : Env) (fs : List Frame) (me : Match) (st : St), E.line = env.line →
        climb E fuel p.base fs me st = .error (.null l) → env.line l = none := by
      intro E fs
      induction fs with
      | nil =>
        intro me st hE hc
        rcases andThen_err hc with hc | ⟨_, _, hc⟩
        · rw [← hE]; exact run_null E l fuel _ _ hc
        · simp at hc
      | cons f fs ih =>
        intro me st hE hc
        rcases andThen_err hc with hc | ⟨_, _, hc⟩
        · rw [← hE]; exact run_null E l fuel _ _ hc
        · exact ih _ _ hE hc
    rcases andThen_err h with h | ⟨_, _, h⟩
    · refine key _ _ _ _ ?_ h
      rfl
    · simp at h

end Verif.TextParser
