import Verif.TextParser.Facts
/-!
# Two runs that see the same lines (used for C34)

`sim`: a run that did not meet the recursion limit is repeated, event for event (pseudo entries aside), by a run over the same lines from
a state that agrees in line, position and open cache entries - whatever the recursion level, the scheme start, the stale `matchend` and
the number of oracle calls are.
-/
namespace Verif.TextParser
open Verif.VTList (VEntries resolve)

def notPseudo : Ev → Bool
  | .pseudo _ _ _ => false
  | _ => true

/-- same grammar and expressions, the same lines below the end, nobody breaks; the second may only read the cache -/
structure EnvSim (env1 env2 : Env) : Prop where
  nodes : env2.nodes = env1.nodes
  rx    : ∀ t t' q ss, env2.rx t' { q with schemeStart := ss } = env1.rx t q
  kw    : ∀ t t', env2.kw t' = env1.kw t
  brk1  : ∀ t, env1.brk t = false
  brk2  : ∀ t, env2.brk t = false
  line  : ∀ l, l < env1.endL → env2.line l = env1.line l
  maxBlock : env2.maxBlock = env1.maxBlock
  limit : env2.limit = env1.limit
  endL  : env2.endL = env1.endL
  upd   : env2.upd = true → env1.upd = true

structure Sim (env1 env2 : Env) (P1 P2 : List Ev) (st t : St) : Prop where
  line  : t.line = st.line
  gx    : st.line < env1.endL → t.gx = st.gx
  cleared : t.cleared = st.cleared ∨ (st.cleared ≠ st.line ∧ t.cleared ≠ t.line)
  level : t.level ≤ st.level
  hit   : t.hit = false
  zip   : env2.upd = true → t.zip = st.zip
  evs   : ∃ n1 n2, st.evs = P1 ++ n1 ∧ t.evs = P2 ++ n2 ∧ n2.filter notPseudo = n1.filter notPseudo

def CSim : Call → Call → Prop
  | .colorize c _, c2 => ∃ me', c2 = .colorize c me'
  | .outer c _, c2 => ∃ me', c2 = .outer c me'
  | .cols c me len plen, c2 => ∃ me', me'.s = me.s ∧ c2 = .cols c me' len plen
  | .nodes ns levels low hi _, c2 => ∃ me', c2 = .nodes ns levels low hi me'

variable {env1 env2 : Env} {P1 P2 : List Ev}

theorem Sim.tock {st t : St} (s : Sim env1 env2 P1 P2 st t) : Sim env1 env2 P1 P2 st.tock t.tock :=
  ⟨s.line, s.gx, s.cleared, s.level, s.hit, s.zip, s.evs⟩

theorem Sim.str (H : EnvSim env1 env2) {st t : St} (s : Sim env1 env2 P1 P2 st t) (hc : st.cleared = st.line)
    (hl : st.line < env1.endL) : t.cleared = t.line ∧ t.str env2 = st.str env1 := by
  have : t.cleared = st.cleared := by
    rcases s.cleared with h | h
    · exact h
    · exact absurd hc h.1
  refine ⟨by rw [this, s.line]; exact hc, ?_⟩
  unfold St.str
  rw [this, H.line _ (by omega)]

theorem evs_app {st t : St} (h : ∃ n1 n2, st.evs = P1 ++ n1 ∧ t.evs = P2 ++ n2 ∧ n2.filter notPseudo = n1.filter notPseudo)
    (a b : List Ev) (hab : b.filter notPseudo = a.filter notPseudo) :
    ∃ n1 n2, st.evs ++ a = P1 ++ n1 ∧ t.evs ++ b = P2 ++ n2 ∧ n2.filter notPseudo = n1.filter notPseudo := by
  obtain ⟨n1, n2, h1, h2, h3⟩ := h
  exact ⟨n1 ++ a, n2 ++ b, by rw [h1, List.append_assoc], by rw [h2, List.append_assoc], by simp [h3, hab]⟩

theorem pseudos_filter (l : Int) (fs : List Frame) (s : Nat) : (pseudos l fs s).filter notPseudo = [] := by
  unfold pseudos
  rw [List.filter_eq_nil_iff]
  intro e he
  simp only [List.mem_map] at he
  obtain ⟨f, _, rfl⟩ := he
  simp [notPseudo]

theorem startLine_sim (H : EnvSim env1 env2) {c : Ctx} {st st1 t : St} (hl : st.line < env1.endL) (h : startLine env1 c st = .ok st1)
    (s : Sim env1 env2 P1 P2 st t) : ∃ t1, startLine env2 c t = .ok t1 ∧ Sim env1 env2 P1 P2 st1 t1 ∧ st1.str env1 = t1.str env2 := by
  obtain ⟨st2, h2, h3⟩ := andThen_ok h
  have f0 := startLine_facts h
  cases h3
  have key : ∃ t2, openLine env2 t = .ok t2 ∧ Sim env1 env2 P1 P2 st2 t2 ∧ t2.cleared = st2.cleared := by
    unfold openLine at h2 ⊢
    split at h2
    · rename_i hc
      have hc2 : t.cleared ≠ t.line := by
        rcases s.cleared with h | h
        · rw [h, s.line]; exact hc
        · exact h.2
      rw [if_pos hc2, s.line, H.line _ hl]
      split at h2
      · simp at h2
      · rename_i tx htx
        cases h2
        refine ⟨_, rfl, ⟨rfl, s.gx, Or.inl rfl, s.level, s.hit, s.zip, ?_⟩, rfl⟩
        exact evs_app s.evs _ _ rfl
    · rename_i hc
      cases h2
      have hc := Decidable.not_not.1 hc
      have h1 : t.cleared = st.cleared := by
        rcases s.cleared with h | h
        · exact h
        · exact absurd hc h.1
      rw [if_neg (by rw [h1, s.line]; exact not_not_intro hc)]
      exact ⟨_, rfl, s, h1⟩
  obtain ⟨t2, k1, k2, k3⟩ := key
  refine ⟨{ fill c t2 with endLine := t2.line }, ?_, ?_, ?_⟩
  · unfold startLine; rw [k1]; rfl
  · have e1 : (fill c st2).line = st2.line ∧ (fill c st2).gx = st2.gx ∧ (fill c st2).cleared = st2.cleared ∧ (fill c st2).level = st2.level ∧
        (fill c st2).zip = st2.zip ∧ ∃ n, n.filter notPseudo = [] ∧ (fill c st2).evs = st2.evs ++ n := by
      unfold fill
      split
      · exact ⟨rfl, rfl, rfl, rfl, rfl, [], rfl, by simp⟩
      · exact ⟨rfl, rfl, rfl, rfl, rfl, _, pseudos_filter _ _ _, rfl⟩
    have e2 : (fill c t2).line = t2.line ∧ (fill c t2).gx = t2.gx ∧ (fill c t2).cleared = t2.cleared ∧ (fill c t2).level = t2.level ∧
        (fill c t2).zip = t2.zip ∧ (fill c t2).hit = t2.hit ∧ ∃ n, n.filter notPseudo = [] ∧ (fill c t2).evs = t2.evs ++ n := by
      unfold fill
      split
      · exact ⟨rfl, rfl, rfl, rfl, rfl, rfl, [], rfl, by simp⟩
      · exact ⟨rfl, rfl, rfl, rfl, rfl, rfl, _, pseudos_filter _ _ _, rfl⟩
    obtain ⟨a1, a2, a3, a4, a5, n, a6, a7⟩ := e1
    obtain ⟨b1, b2, b3, b4, b5, b6, m, b7, b8⟩ := e2
    refine ⟨?_, ?_, ?_, ?_, ?_, ?_, ?_⟩
    · show (fill c t2).line = (fill c st2).line
      rw [a1, b1]; exact k2.line
    · show (fill c st2).line < _ → (fill c t2).gx = (fill c st2).gx
      rw [a1, a2, b2]; exact k2.gx
    · show (fill c t2).cleared = (fill c st2).cleared ∨ _
      rw [a3, b3]; exact Or.inl k3
    · show (fill c t2).level ≤ (fill c st2).level
      rw [a4, b4]; exact k2.level
    · show (fill c t2).hit = _
      rw [b6]; exact k2.hit
    · show _ → (fill c t2).zip = (fill c st2).zip
      rw [a5, b5]; exact k2.zip
    · show ∃ n1 n2, (fill c st2).evs = _ ∧ (fill c t2).evs = _ ∧ _
      rw [a7, b8]; exact evs_app k2.evs _ _ (by rw [a6, b7])
  · have e1 : (fill c st2).cleared = st2.cleared := by unfold fill; split <;> rfl
    have e2 : (fill c t2).cleared = t2.cleared := by unfold fill; split <;> rfl
    have e3 : st2.cleared = st.line := by
      have := f0.2.2.1
      rw [← e1]; exact this
    show (env1.line (fill c st2).cleared).getD [] = (env2.line (fill c t2).cleared).getD []
    rw [e1, e2, k3, H.line _ (by omega)]

theorem endSearch_sim (H : EnvSim env1 env2) (c : Ctx) (me me' : Match) {st t : St} (hs : st.str env1 = t.str env2) (hg : t.gx = st.gx) :
    (endSearch env2 c me' t).1 = (endSearch env1 c me st).1 ∧ (endSearch env2 c me' t).2.s = (endSearch env1 c me st).2.s ∧
    ((endSearch env1 c me st).1 = true → (endSearch env2 c me' t).2 = (endSearch env1 c me st).2) := by
  obtain ⟨stop, low, scheme, levels⟩ := c
  unfold endSearch
  cases stop with
  | none => simp [hs, hg, H.maxBlock]
  | some x =>
    obtain ⟨re, back, m⟩ := x
    have : env2.rx t.tick ⟨re, t.str env2, t.gx, ((t.str env2).length : Int), t.schemeStart, some (back, m)⟩ =
        env1.rx st.tick ⟨re, st.str env1, st.gx, ((st.str env1).length : Int), st.schemeStart, some (back, m)⟩ := by
      have := H.rx st.tick t.tick ⟨re, st.str env1, st.gx, ((st.str env1).length : Int), st.schemeStart, some (back, m)⟩ t.schemeStart
      rw [← this, hs, hg]
    simp only
    rw [this, hg, H.maxBlock, ← hs]
    exact ⟨rfl, rfl, fun _ => rfl⟩

theorem startQ_sim (H : EnvSim env1 env2) (re : Nat) (len : Int) {st t : St} (hs : t.str env2 = st.str env1) (hg : t.gx = st.gx) :
    env2.rx t.tick (startQ env2 re t len) = env1.rx st.tick (startQ env1 re st len) := by
  have := H.rx st.tick t.tick (startQ env1 re st len) t.schemeStart
  rw [← this]
  simp only [startQ, hs, hg]

theorem beforeBlock_sim (b : Block) (s : Nat) (lv : List VEntries) (m : Match) {st t : St} (hstr : t.str env2 = st.str env1)
    (H : EnvSim env1 env2) (h : Sim env1 env2 P1 P2 st t) :
    Sim env1 env2 P1 P2 (beforeBlock env1 b s lv m st.tock) (beforeBlock env2 b s lv m t.tock) := by
  refine ⟨h.line, fun _ => rfl, h.cleared, h.level, h.hit, ?_, ?_⟩
  · intro hu
    show (if env2.upd then t.zip.push _ else t.zip) = (if env1.upd then st.zip.push _ else st.zip)
    rw [if_pos hu, if_pos (H.upd hu), h.zip hu]
    show st.zip.push ⟨t.line + 1, s, lv, b, m, t.str env2⟩ = st.zip.push ⟨st.line + 1, s, lv, b, m, st.str env1⟩
    rw [h.line, hstr]
  · show ∃ n1 n2, st.evs ++ enterEvs st.line m b s = _ ∧ t.evs ++ enterEvs t.line m b s = _ ∧ _
    rw [h.line]
    exact evs_app h.evs _ _ rfl

theorem afterBlock_sim (b : Block) (s : Nat) {st0 t0 st t : St} {me me' : Match} (hl : t0.line = st0.line) (H : EnvSim env1 env2)
    (h : Sim env1 env2 P1 P2 st t) (hm : st.line < env1.endL → me' = me) :
    Sim env1 env2 P1 P2 (afterBlock env1 b s st0 st me) (afterBlock env2 b s t0 t me') := by
  refine ⟨h.line, fun hlt => ?_, h.cleared, h.level, h.hit, ?_, ?_⟩
  · show me'.e = me.e
    rw [hm hlt]
  · intro hu
    show (if env2.upd then (if t0.line = t.line then _ else _) else _) = (if env1.upd then (if st0.line = st.line then _ else _) else _)
    rw [if_pos hu, if_pos (H.upd hu), h.zip hu, hl, h.line]
  · show ∃ n1 n2, st.evs ++ (if st.line < env1.endL then leaveEvs st.line me b s else []) = _ ∧
      t.evs ++ (if t.line < env2.endL then leaveEvs t.line me' b s else []) = _ ∧ _
    rw [h.line, H.endL]
    by_cases hlt : st.line < env1.endL
    · rw [if_pos hlt, if_pos hlt, hm hlt]
      exact evs_app h.evs _ _ rfl
    · rw [if_neg hlt, if_neg hlt]
      exact evs_app h.evs _ _ rfl

theorem bump_sim {o o2 : Out} {st t : St} (ho : o2.res = o.res) (h : Sim env1 env2 P1 P2 st t) :
    Sim env1 env2 P1 P2 (bump o st) (bump o2 t) := by
  unfold bump
  rw [ho]
  split
  · refine ⟨h.line, fun hl => ?_, h.cleared, h.level, h.hit, h.zip, h.evs⟩
    show t.gx + 1 = st.gx + 1
    rw [h.gx hl]
  · exact h

theorem sim (H : EnvSim env1 env2) {c : Call} {st : St} {o : Out} {st' : St} (h : Big env1 c st o st') :
    st'.hit = false → FPre env1 c st → ∀ c2 t, CSim c c2 → Sim env1 env2 P1 P2 st t →
    ∃ o2 t', Big env2 c2 t o2 t' ∧ Sim env1 env2 P1 P2 st' t' ∧ (st'.line < env1.endL → o2.me = o.me) ∧ o2.rep = o.rep ∧ o2.res = o.res := by
  have hq : Quiet env1 := ⟨H.brk1⟩
  induction h with
  | limit => intro h; simp at h
  | @colorize c me st o st1 hl _ ih =>
    rintro h _ c2 t ⟨me', rfl⟩ s
    obtain ⟨o2, t', b1, b2, b3⟩ := ih h trivial (.outer c me') { t with level := t.level + 1 } ⟨me', rfl⟩
      ⟨s.line, s.gx, s.cleared, Nat.succ_le_succ s.level, s.hit, s.zip, s.evs⟩
    refine ⟨o2, _, .colorize (by rw [H.limit]; have := s.level; omega) b1, ⟨b2.line, b2.gx, b2.cleared, ?_, b2.hit, b2.zip, b2.evs⟩, b3⟩
    show t'.level - 1 ≤ st1.level - 1
    have := b2.level
    omega
  | @outEnd c me st hl =>
    rintro _ _ c2 t ⟨me', rfl⟩ s
    exact ⟨_, _, .outEnd (by rw [s.line, H.endL]; exact hl), s, fun h => absurd h hl, rfl, rfl⟩
  | @outRep c me st st1 o st2 o' st' hl h1 hb1 hr hb2 ih1 ih2 =>
    rintro h _ c2 t ⟨me', rfl⟩ s
    have hh2 : st2.hit = false := big_hit hb2 h
    obtain ⟨s1, s2, s3, s4, s5, s6, s7, _⟩ := startLine_facts h1
    obtain ⟨t1, k1, k2, k3⟩ := startLine_sim H hl h1 s
    obtain ⟨e1, e2, e3⟩ := endSearch_sim H c me me' k3 (k2.gx (by omega))
    obtain ⟨o2, t2, b1, b2, b3, b4, b5⟩ := ih1 hh2 ⟨by show st1.cleared = st1.line; omega, by show st1.line < _; omega⟩
      (.cols c (endSearch env2 c me' t1).2 (if c.low then (endSearch env2 c me' t1).2.s else (t1.str env2).length) (t1.str env2).length)
      t1.tock ⟨_, e2, by rw [e2, k3]⟩ k2.tock
    obtain ⟨o3, t3, d1, d2, d3, d4, d5⟩ := ih2 h trivial (.outer c (endSearch env2 c me' t1).2) t2 ⟨_, rfl⟩ b2
    exact ⟨o3, t3, .outRep (by rw [s.line, H.endL]; exact hl) k1 b1 (by rw [b4]; exact hr) d1, d2, d3, d4, d5⟩
  | @outStop c me st st1 o st2 hl h1 hb1 hr ha ih1 =>
    rintro h _ c2 t ⟨me', rfl⟩ s
    obtain ⟨s1, s2, s3, s4, s5, s6, s7, _⟩ := startLine_facts h1
    obtain ⟨t1, k1, k2, k3⟩ := startLine_sim H hl h1 s
    obtain ⟨e1, e2, e3⟩ := endSearch_sim H c me me' k3 (k2.gx (by omega))
    obtain ⟨o2, t2, b1, b2, b3, b4, b5⟩ := ih1 h ⟨by show st1.cleared = st1.line; omega, by show st1.line < _; omega⟩
      (.cols c (endSearch env2 c me' t1).2 (if c.low then (endSearch env2 c me' t1).2.s else (t1.str env2).length) (t1.str env2).length)
      t1.tock ⟨_, e2, by rw [e2, k3]⟩ k2.tock
    exact ⟨_, _, .outStop (by rw [s.line, H.endL]; exact hl) k1 b1 (by rw [b4]; exact hr) (by rw [e1]; exact ha),
      ⟨b2.line, b2.gx, b2.cleared, b2.level, b2.hit, b2.zip, b2.evs⟩, fun _ => e3 ha, rfl, rfl⟩
  | @outNext c me st st1 o st2 o' st' hl h1 hb1 hr ha hb2 ih1 ih2 =>
    rintro h _ c2 t ⟨me', rfl⟩ s
    have hh2 : st2.hit = false := show (nextLine st2).hit = false from big_hit hb2 h
    obtain ⟨s1, s2, s3, s4, s5, s6, s7, _⟩ := startLine_facts h1
    obtain ⟨t1, k1, k2, k3⟩ := startLine_sim H hl h1 s
    obtain ⟨e1, e2, e3⟩ := endSearch_sim H c me me' k3 (k2.gx (by omega))
    have hp : st1.tock.cleared = st1.tock.line ∧ st1.tock.line < env1.endL :=
      ⟨by show st1.cleared = st1.line; omega, by show st1.line < _; omega⟩
    obtain ⟨o2, t2, b1, b2, b3, b4, b5⟩ := ih1 hh2 hp
      (.cols c (endSearch env2 c me' t1).2 (if c.low then (endSearch env2 c me' t1).2.s else (t1.str env2).length) (t1.str env2).length)
      t1.tock ⟨_, e2, by rw [e2, k3]⟩ k2.tock
    obtain ⟨f1, f2, f3, f4, f5⟩ := big_facts hq hb1 hh2 hp
    have f4 : st2.line = st1.tock.line := f4 hr
    have f6 : st2.cleared = st2.line := f3 hh2 (by have := hp.2; omega)
    have f7 : t2.cleared = st2.cleared := by
      rcases b2.cleared with x | x
      · exact x
      · exact absurd f6 x.1
    obtain ⟨o3, t3, d1, d2, d3, d4, d5⟩ := ih2 h trivial (.outer c (endSearch env2 c me' t1).2) (nextLine t2) ⟨_, rfl⟩
      ⟨by show t2.line + 1 = st2.line + 1; rw [b2.line], fun _ => rfl, Or.inl f7, b2.level, b2.hit, b2.zip, b2.evs⟩
    exact ⟨o3, t3, .outNext (by rw [s.line, H.endL]; exact hl) k1 b1 (by rw [b4]; exact hr) (by rw [e1]; exact ha) d1, d2, d3, d4, d5⟩
  | @colEnd c me len plen st hg =>
    rintro _ ⟨hp1, hp2⟩ c2 t ⟨me', hm, rfl⟩ s
    exact ⟨_, _, .colEnd (by rw [s.gx hp2, hm]; exact hg), s, fun _ => rfl, rfl, rfl⟩
  | @colBrk c me len plen st hg hb => rw [hq.brk] at hb; simp at hb
  | @colRep c me len plen st o st1 hg hb hb1 hr ih1 =>
    rintro h hp c2 t ⟨me', hm, rfl⟩ s
    obtain ⟨o2, t1, b1, b2, b3, b4, b5⟩ := ih1 h hp (.nodes (env2.nodes c.scheme) c.levels me'.s (hiLen env2 me'.s len) me') t.tock
      ⟨me', by unfold hiLen; rw [H.nodes, H.maxBlock, hm]⟩ s.tock
    obtain ⟨f1, f2, f3, f4, f5⟩ := big_facts hq hb1 h hp
    refine ⟨_, t1, .colRep (by rw [s.gx hp.2, hm]; exact hg) (H.brk2 _) b1 ?_, b2, fun _ => rfl, rfl, rfl⟩
    unfold reparse at hr ⊢
    rw [b5, b2.line, s.line, hm]
    by_cases hlt : st1.line < env1.endL
    · rw [b2.gx hlt]; exact hr
    · have hne : st1.line ≠ st.line := by have := hp.2; omega
      have : o.res = .scheme := Decidable.byContradiction fun hx => hne (f4 hx)
      exact Or.inl ⟨this, Or.inl hne⟩
  | @colGo c me len plen st o st1 o' st' hg hb hb1 hr hb2 ih1 ih2 =>
    rintro h hp c2 t ⟨me', hm, rfl⟩ s
    obtain ⟨e1, e2, e3, e4, _⟩ := bump_facts o st1
    have hh : st1.hit = false := by rw [← e4]; exact big_hit hb2 h
    obtain ⟨o2, t1, b1, b2, b3, b4, b5⟩ := ih1 hh hp (.nodes (env2.nodes c.scheme) c.levels me'.s (hiLen env2 me'.s len) me') t.tock
      ⟨me', by unfold hiLen; rw [H.nodes, H.maxBlock, hm]⟩ s.tock
    obtain ⟨f1, f2, f3, f4, f5⟩ := big_facts hq hb1 hh hp
    have hln : st1.line = st.line := not_reparse_line hr f4
    have hlt : st1.line < env1.endL := by have := hp.2; omega
    obtain ⟨o3, t3, d1, d2, d3, d4, d5⟩ := ih2 h ⟨by rw [e1, e2]; exact f3 hh hlt, by omega⟩
      (.cols c me' (if t1.line = t.line then plen else len) plen) (bump o2 t1) ⟨me', hm, by rw [b2.line, s.line]⟩ (bump_sim b5 b2)
    refine ⟨o3, t3, .colGo (by rw [s.gx hp.2, hm]; exact hg) (H.brk2 _) b1 ?_ d1, d2, d3, d4, d5⟩
    unfold reparse at hr ⊢
    rw [b5, b2.line, s.line, hm, b2.gx hlt]
    exact hr
  | @nil levels low hi me st =>
    rintro _ _ c2 t ⟨me', rfl⟩ s
    exact ⟨_, _, .nil, s, fun _ => rfl, rfl, rfl⟩
  | inhNone _ ih =>
    rintro h hp c2 t ⟨me', rfl⟩ s
    obtain ⟨o2, t', b1, b2⟩ := ih h hp _ t ⟨me', rfl⟩ s
    exact ⟨o2, t', .inhNone b1, b2⟩
  | @inhHit sc virt ns levels low hi me st o st1 _ hr ih =>
    rintro h hp c2 t ⟨me', rfl⟩ s
    obtain ⟨o2, t', b1, b2, b3, b4, b5⟩ := ih h hp (.nodes (env2.nodes (target sc levels virt).1) (target sc levels virt).2 low hi me') t
      ⟨me', by rw [H.nodes]⟩ s
    exact ⟨_, t', .inhHit b1 (by rw [b5]; exact hr), b2, fun _ => rfl, rfl, b5⟩
  | @inhMiss sc virt ns levels low hi me st o st1 o' st' hb1 hr hb2 ih1 ih2 =>
    rintro h hp c2 t ⟨me', rfl⟩ s
    have hh : st1.hit = false := big_hit hb2 h
    obtain ⟨o2, t1, b1, b2, b3, b4, b5⟩ := ih1 hh hp (.nodes (env2.nodes (target sc levels virt).1) (target sc levels virt).2 low hi me') t
      ⟨me', by rw [H.nodes]⟩ s
    obtain ⟨f1, f2, f3, f4, f5⟩ := big_facts hq hb1 hh hp
    have hln : st1.line = st.line := f4 (by rw [hr]; simp)
    have hlt : st1.line < env1.endL := by have := hp.2; omega
    obtain ⟨o3, t3, d1, d2⟩ := ih2 h ⟨f3 hh hlt, hlt⟩ _ t1 ⟨me', rfl⟩ b2
    exact ⟨o3, t3, .inhMiss b1 (by rw [b5]; exact hr) d1, d2⟩
  | @kwHit id' ns levels low hi me st n r hk =>
    rintro _ hp c2 t ⟨me', rfl⟩ s
    obtain ⟨q1, q2⟩ := s.str H hp.1 hp.2
    refine ⟨_, _, .kwHit (n := n) (r := r) (by rw [H.kw st.tick t.tick, q2, s.gx hp.2]; exact hk),
      ⟨s.line, fun _ => ?_, s.cleared, s.level, s.hit, s.zip, ?_⟩, fun _ => rfl, rfl, rfl⟩
    · show t.gx + n = st.gx + n
      rw [s.gx hp.2]
    · show ∃ n1 n2, st.evs ++ regEv st.line (st.gx, st.gx + n) r = _ ∧ t.evs ++ regEv t.line (t.gx, t.gx + n) r = _ ∧ _
      rw [s.line, s.gx hp.2]
      exact evs_app s.evs _ _ rfl
  | @kwMiss id' ns levels low hi me st o st' hk _ ih =>
    rintro h hp c2 t ⟨me', rfl⟩ s
    obtain ⟨q1, q2⟩ := s.str H hp.1 hp.2
    obtain ⟨o2, t', b1, b2⟩ := ih h hp _ t.tock ⟨me', rfl⟩ s.tock
    exact ⟨o2, t', .kwMiss (by rw [H.kw st.tick t.tick, q2, s.gx hp.2]; exact hk) b1, b2⟩
  | @reHit start lowP regs ns levels low hi me st m ha he =>
    rintro h hp c2 t ⟨me', rfl⟩ s
    obtain ⟨q1, q2⟩ := s.str H hp.1 hp.2
    have ha' := ha
    rw [← startQ_sim H _ _ q2 (s.gx hp.2)] at ha'
    refine ⟨_, _, .reHit ha' he, ⟨s.line, fun _ => rfl, s.cleared, s.level, s.hit, s.zip, ?_⟩, fun _ => rfl, rfl, rfl⟩
    show ∃ n1 n2, st.evs ++ regEvs st.line m regs = _ ∧ t.evs ++ regEvs t.line m regs = _ ∧ _
    rw [s.line]
    exact evs_app s.evs _ _ rfl
  | @reZero start lowP regs ns levels low hi me st m o st' ha he _ ih =>
    rintro h hp c2 t ⟨me', rfl⟩ s
    obtain ⟨q1, q2⟩ := s.str H hp.1 hp.2
    have ha' := ha
    rw [← startQ_sim H _ _ q2 (s.gx hp.2)] at ha'
    obtain ⟨o2, t', b1, b2⟩ := ih h hp _ (t.tock.emit (regEvs t.line m regs)) ⟨me', rfl⟩
      ⟨s.line, s.gx, s.cleared, s.level, s.hit, s.zip, by
        show ∃ n1 n2, st.evs ++ regEvs st.line m regs = _ ∧ t.evs ++ regEvs t.line m regs = _ ∧ _
        rw [s.line]
        exact evs_app s.evs _ _ rfl⟩
    exact ⟨o2, t', .reZero ha' he b1, b2⟩
  | @reMiss start lowP regs ns levels low hi me st m o st' ha _ ih =>
    rintro h hp c2 t ⟨me', rfl⟩ s
    obtain ⟨q1, q2⟩ := s.str H hp.1 hp.2
    have ha' := ha
    rw [← startQ_sim H _ _ q2 (s.gx hp.2)] at ha'
    obtain ⟨o2, t', b1, b2⟩ := ih h hp _ t.tock ⟨me', rfl⟩ s.tock
    exact ⟨o2, t', .reMiss ha' b1, b2⟩
  | blNone hs _ ih =>
    rintro h hp c2 t ⟨me', rfl⟩ s
    obtain ⟨o2, t', b1, b2⟩ := ih h hp _ t ⟨me', rfl⟩ s
    exact ⟨o2, t', .blNone hs b1, b2⟩
  | @blMiss b sc ns levels low hi me st m o st' hs ha _ ih =>
    rintro h hp c2 t ⟨me', rfl⟩ s
    obtain ⟨q1, q2⟩ := s.str H hp.1 hp.2
    have ha' := ha
    rw [← startQ_sim H _ _ q2 (s.gx hp.2)] at ha'
    obtain ⟨o2, t', b1, b2⟩ := ih h hp _ t.tock ⟨me', rfl⟩ s.tock
    exact ⟨o2, t', .blMiss hs ha' b1, b2⟩
  | @blZero b sc ns levels low hi me st m o st1 o' st' hs ha hb1 hz1 hz2 hb2 ih1 ih2 =>
    rintro h hp c2 t ⟨me', rfl⟩ s
    have hh : (afterBlock env1 b (target sc levels []).1 st st1 o.me).hit = false := big_hit hb2 h
    have hh : st1.hit = false := hh
    obtain ⟨q1, q2⟩ := s.str H hp.1 hp.2
    have ha' := ha
    rw [← startQ_sim H _ _ q2 (s.gx hp.2)] at ha'
    obtain ⟨o2, t1, b1, b2, b3, b4, b5⟩ := ih1 hh trivial (.colorize (blockCtx env2 b sc levels t m) me')
      (beforeBlock env2 b (target sc levels []).1 (target sc levels []).2 m t.tock) ⟨me', by unfold blockCtx; rw [q2]⟩
      (beforeBlock_sim b _ _ m q2 H s)
    obtain ⟨f1, f2, f3, f4, f5⟩ := big_facts hq hb1 hh trivial
    have hlt : st1.line < env1.endL := by have := hp.2; omega
    obtain ⟨o3, t3, d1, d2⟩ := ih2 h ⟨f3 hh hlt, hlt⟩ _ (afterBlock env2 b (target sc levels []).1 t t1 o2.me) ⟨me', rfl⟩
      (afterBlock_sim b _ s.line H b2 b3)
    exact ⟨o3, t3, .blZero hs ha' b1 (by rw [b3 hlt]; exact hz1) (by rw [s.line, b2.line]; exact hz2) d1, d2⟩
  | @blHit b sc ns levels low hi me st m o st1 hs ha hb1 hz ih1 =>
    rintro h hp c2 t ⟨me', rfl⟩ s
    have hh : st1.hit = false := h
    obtain ⟨q1, q2⟩ := s.str H hp.1 hp.2
    have ha' := ha
    rw [← startQ_sim H _ _ q2 (s.gx hp.2)] at ha'
    obtain ⟨o2, t1, b1, b2, b3, b4, b5⟩ := ih1 hh trivial (.colorize (blockCtx env2 b sc levels t m) me')
      (beforeBlock env2 b (target sc levels []).1 (target sc levels []).2 m t.tock) ⟨me', by unfold blockCtx; rw [q2]⟩
      (beforeBlock_sim b _ _ m q2 H s)
    refine ⟨_, _, .blHit hs ha' b1 ?_, afterBlock_sim b _ s.line H b2 b3, fun _ => rfl, rfl, rfl⟩
    rw [s.line, b2.line]
    by_cases hlt : st1.line < env1.endL
    · rw [b3 hlt]; exact hz
    · have := hp.2
      intro ⟨_, hx⟩
      omega

end Verif.TextParser
