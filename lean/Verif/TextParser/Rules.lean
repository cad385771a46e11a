import Verif.TextParser.Model
/-!
# The parser as rules

`Big env c st o st'`: the call `c` in state `st` ends with the result `o` in state `st'`. One rule per path through the code; equivalent to
"the model `run` ends with that result, given enough fuel" (`big_iff_run`). Proof device only: the properties are stated about `parse`.
-/
namespace Verif.TextParser
open Verif.VTList (VEntries resolve)

theorem andThen_ok {α β : Type} {x : R α} {f : α → R β} {b : β} (h : x.andThen f = .ok b) : ∃ a, x = .ok a ∧ f a = .ok b := by
  cases x with
  | error e => simp [R.andThen] at h
  | ok a => exact ⟨a, rfl, h⟩

theorem andThen_of {α β : Type} {x : R α} {f : α → R β} {a : α} (h : x = .ok a) : x.andThen f = f a := by
  subst h; rfl

/-- the query of a start expression -/
def startQ (env : Env) (re : Nat) (st : St) (len : Int) : Query := ⟨re, st.str env, st.gx, len, st.schemeStart, none⟩

/-- the test of 571-574 -/
def reparse (me : Match) (o : Out) (st st1 : St) : Prop :=
  (o.res = .scheme ∧ (st1.line ≠ st.line ∨ me.s < st1.gx)) ∨ (o.res = .re ∧ me.s < st1.gx)

instance (me : Match) (o : Out) (st st1 : St) : Decidable (reparse me o st st1) := by unfold reparse; infer_instance

/-- 581-583 -/
def bump (o : Out) (st : St) : St := if o.res = .nothing then { st with gx := st.gx + 1 } else st

def nextLine (st : St) : St := { st with schemeStart := -1, line := st.line + 1, gx := 0 }

/-- the context of a block's content -/
def blockCtx (env : Env) (b : Block) (s : Nat) (levels : List VEntries) (st : St) (m : Match) : Ctx :=
  ⟨some (b.stop, st.str env, m), b.lowContent, (target s levels []).1, (target s levels []).2⟩

inductive Big (env : Env) : Call → St → Out → St → Prop
  | limit {c me st} : st.level > env.limit → Big env (.colorize c me) st { me := me } { st with hit := true }
  | colorize {c me st o st1} : ¬ st.level > env.limit → Big env (.outer c me) { st with level := st.level + 1 } o st1 →
      Big env (.colorize c me) st o { st1 with level := st1.level - 1 }
  | outEnd {c me st} : ¬ st.line < env.endL → Big env (.outer c me) st { me := me } st
  | outRep {c me st st1 o st2 o' st'} : st.line < env.endL → startLine env c st = .ok st1 →
      Big env (.cols c (endSearch env c me st1).2 (if c.low then (endSearch env c me st1).2.s else (st1.str env).length)
        (st1.str env).length) st1.tock o st2 → o.rep = true →
      Big env (.outer c (endSearch env c me st1).2) st2 o' st' → Big env (.outer c me) st o' st'
  | outStop {c me st st1 o st2} : st.line < env.endL → startLine env c st = .ok st1 →
      Big env (.cols c (endSearch env c me st1).2 (if c.low then (endSearch env c me st1).2.s else (st1.str env).length)
        (st1.str env).length) st1.tock o st2 → o.rep = false → (endSearch env c me st1).1 = true →
      Big env (.outer c me) st { me := (endSearch env c me st1).2 } { st2 with schemeStart := -1 }
  | outNext {c me st st1 o st2 o' st'} : st.line < env.endL → startLine env c st = .ok st1 →
      Big env (.cols c (endSearch env c me st1).2 (if c.low then (endSearch env c me st1).2.s else (st1.str env).length)
        (st1.str env).length) st1.tock o st2 → o.rep = false → (endSearch env c me st1).1 = false →
      Big env (.outer c (endSearch env c me st1).2) (nextLine st2) o' st' → Big env (.outer c me) st o' st'
  | colEnd {c me len plen st} : ¬ st.gx ≤ me.s → Big env (.cols c me len plen) st {} st
  | colBrk {c me len plen st} : st.gx ≤ me.s → env.brk st.tick = true →
      Big env (.cols c me len plen) st {} { st with line := env.endL }
  | colRep {c me len plen st o st1} : st.gx ≤ me.s → env.brk st.tick = false →
      Big env (.nodes (env.nodes c.scheme) c.levels me.s (hiLen env me.s len) me) st.tock o st1 → reparse me o st st1 →
      Big env (.cols c me len plen) st { rep := true } st1
  | colGo {c me len plen st o st1 o' st'} : st.gx ≤ me.s → env.brk st.tick = false →
      Big env (.nodes (env.nodes c.scheme) c.levels me.s (hiLen env me.s len) me) st.tock o st1 → ¬ reparse me o st st1 →
      Big env (.cols c me (if st1.line = st.line then plen else len) plen) (bump o st1) o' st' →
      Big env (.cols c me len plen) st o' st'
  | nil {levels low hi me st} : Big env (.nodes [] levels low hi me) st {} st
  | inhNone {virt ns levels low hi me st o st'} : Big env (.nodes ns levels low hi me) st o st' →
      Big env (.nodes (.inherit none virt :: ns) levels low hi me) st o st'
  | inhHit {s virt ns levels low hi me st o st1} :
      Big env (.nodes (env.nodes (target s levels virt).1) (target s levels virt).2 low hi me) st o st1 → o.res ≠ .nothing →
      Big env (.nodes (.inherit (some s) virt :: ns) levels low hi me) st { res := o.res } st1
  | inhMiss {s virt ns levels low hi me st o st1 o' st'} :
      Big env (.nodes (env.nodes (target s levels virt).1) (target s levels virt).2 low hi me) st o st1 → o.res = .nothing →
      Big env (.nodes ns levels low hi me) st1 o' st' →
      Big env (.nodes (.inherit (some s) virt :: ns) levels low hi me) st o' st'
  | kwHit {id ns levels low hi me st n r} : env.kw st.tick id (st.str env) st.gx low = some (n, r) →
      Big env (.nodes (.keywords id :: ns) levels low hi me) st { res := .re }
        { st.tock with gx := st.gx + n, evs := st.evs ++ regEv st.line (st.gx, st.gx + n) r }
  | kwMiss {id ns levels low hi me st o st'} : env.kw st.tick id (st.str env) st.gx low = none →
      Big env (.nodes ns levels low hi me) st.tock o st' → Big env (.nodes (.keywords id :: ns) levels low hi me) st o st'
  | reHit {start lowP regs ns levels low hi me st m} : env.rx st.tick (startQ env start st (if lowP then low else hi)) = (true, m) →
      m.e ≠ m.s →
      Big env (.nodes (.re start lowP regs :: ns) levels low hi me) st { res := .re }
        { st.tock.emit (regEvs st.line m regs) with gx := m.e }
  | reZero {start lowP regs ns levels low hi me st m o st'} :
      env.rx st.tick (startQ env start st (if lowP then low else hi)) = (true, m) → m.e = m.s →
      Big env (.nodes ns levels low hi me) (st.tock.emit (regEvs st.line m regs)) o st' →
      Big env (.nodes (.re start lowP regs :: ns) levels low hi me) st o st'
  | reMiss {start lowP regs ns levels low hi me st m o st'} :
      env.rx st.tick (startQ env start st (if lowP then low else hi)) = (false, m) →
      Big env (.nodes ns levels low hi me) st.tock o st' →
      Big env (.nodes (.re start lowP regs :: ns) levels low hi me) st o st'
  | blNone {b ns levels low hi me st o st'} : b.scheme = none → Big env (.nodes ns levels low hi me) st o st' →
      Big env (.nodes (.block b :: ns) levels low hi me) st o st'
  | blMiss {b s ns levels low hi me st m o st'} : b.scheme = some s →
      env.rx st.tick (startQ env b.start st (if b.low then low else hi)) = (false, m) →
      Big env (.nodes ns levels low hi me) st.tock o st' →
      Big env (.nodes (.block b :: ns) levels low hi me) st o st'
  | blZero {b s ns levels low hi me st m o st1 o' st'} : b.scheme = some s →
      env.rx st.tick (startQ env b.start st (if b.low then low else hi)) = (true, m) →
      Big env (.colorize (blockCtx env b s levels st m) me)
        (beforeBlock env b (target s levels []).1 (target s levels []).2 m st.tock) o st1 →
      m.s = o.me.e → st.line = st1.line →
      Big env (.nodes ns levels low hi me) (afterBlock env b (target s levels []).1 st st1 o.me) o' st' →
      Big env (.nodes (.block b :: ns) levels low hi me) st o' st'
  | blHit {b s ns levels low hi me st m o st1} : b.scheme = some s →
      env.rx st.tick (startQ env b.start st (if b.low then low else hi)) = (true, m) →
      Big env (.colorize (blockCtx env b s levels st m) me)
        (beforeBlock env b (target s levels []).1 (target s levels []).2 m st.tock) o st1 →
      ¬ (m.s = o.me.e ∧ st.line = st1.line) →
      Big env (.nodes (.block b :: ns) levels low hi me) st { res := .scheme }
        (afterBlock env b (target s levels []).1 st st1 o.me)

theorem run_big (env : Env) (n : Nat) : ∀ c st o st', run env n c st = .ok (o, st') → Big env c st o st' := by
  induction n with
  | zero => intro c st o st' h; simp [run] at h
  | succ n ih =>
    intro c st o st' h
    rw [run] at h
    cases c with
    | colorize c me =>
      simp only [body] at h
      split at h
      · rename_i hl; cases h; exact .limit hl
      · rename_i hl
        obtain ⟨⟨o1, st1⟩, h1, h2⟩ := andThen_ok h
        cases h2
        exact .colorize hl (ih _ _ _ _ h1)
    | outer c me =>
      simp only [body] at h
      split at h
      · rename_i hl
        obtain ⟨st1, h1, h⟩ := andThen_ok h
        obtain ⟨⟨o2, st2⟩, h2, h⟩ := andThen_ok h
        simp only at h
        split at h
        · rename_i hr
          exact .outRep hl h1 (ih _ _ _ _ h2) hr (ih _ _ _ _ h)
        · rename_i hr
          split at h
          · rename_i ha
            cases h
            exact .outStop hl h1 (ih _ _ _ _ h2) (by simpa using hr) ha
          · rename_i ha
            exact .outNext hl h1 (ih _ _ _ _ h2) (by simpa using hr) (by simpa using ha) (ih _ _ _ _ h)
      · rename_i hl; cases h; exact .outEnd hl
    | cols c me len plen =>
      simp only [body] at h
      split at h
      · rename_i hg
        split at h
        · rename_i hb; cases h; exact .colBrk hg hb
        · rename_i hb
          obtain ⟨⟨o1, st1⟩, h1, h⟩ := andThen_ok h
          simp only at h
          split at h
          · rename_i hr; cases h; exact .colRep hg (by simpa using hb) (ih _ _ _ _ h1) hr
          · rename_i hr; exact .colGo hg (by simpa using hb) (ih _ _ _ _ h1) hr (ih _ _ _ _ h)
      · rename_i hg; cases h; exact .colEnd hg
    | nodes ns levels low hi me =>
      cases ns with
      | nil => simp only [body] at h; cases h; exact .nil
      | cons nd ns =>
        cases nd with
        | inherit sch virt =>
          cases sch with
          | none => simp only [body] at h; exact .inhNone (ih _ _ _ _ h)
          | some s =>
            simp only [body] at h
            obtain ⟨⟨o1, st1⟩, h1, h⟩ := andThen_ok h
            simp only at h
            split at h
            · rename_i hr; cases h; exact .inhHit (ih _ _ _ _ h1) hr
            · rename_i hr; exact .inhMiss (ih _ _ _ _ h1) (by simpa using hr) (ih _ _ _ _ h)
        | keywords id =>
          simp only [body] at h
          split at h
          · rename_i nn r hk; cases h; exact .kwHit hk
          · rename_i hk; exact .kwMiss hk (ih _ _ _ _ h)
        | re start lowP regs =>
          simp only [body] at h
          generalize ha : env.rx st.tick ⟨start, st.str env, st.gx, if lowP = true then low else hi, st.schemeStart, none⟩ = a at h
          obtain ⟨b, m⟩ := a
          split at h
          · rename_i hb
            simp only at hb; subst hb
            split at h
            · rename_i he; exact .reZero ha he (ih _ _ _ _ h)
            · rename_i he; cases h; exact .reHit ha he
          · rename_i hb
            simp only [Bool.not_eq_true] at hb; subst hb
            exact .reMiss ha (ih _ _ _ _ h)
        | block b =>
          simp only [body] at h
          split at h
          · rename_i hs; exact .blNone hs (ih _ _ _ _ h)
          · rename_i s hs
            generalize ha : env.rx st.tick ⟨b.start, st.str env, st.gx, if b.low = true then low else hi, st.schemeStart, none⟩ = a at h
            obtain ⟨bb, m⟩ := a
            split at h
            · rename_i hb
              simp only at hb; subst hb
              obtain ⟨⟨o1, st1⟩, h1, h⟩ := andThen_ok h
              simp only at h
              split at h
              · rename_i hz; exact .blZero hs ha (ih _ _ _ _ h1) hz.1 hz.2 (ih _ _ _ _ h)
              · rename_i hz; cases h; exact .blHit hs ha (ih _ _ _ _ h1) hz
            · rename_i hb
              simp only [Bool.not_eq_true] at hb; subst hb
              exact .blMiss hs ha (ih _ _ _ _ h)

/-- a derivation runs with every large enough fuel -/
theorem big_run {env : Env} {c : Call} {st : St} {o : Out} {st' : St} (h : Big env c st o st') :
    ∃ N, ∀ n, N ≤ n → run env n c st = .ok (o, st') := by
  have lift1 : ∀ {c : Call} {st : St} {o : Out} {st' : St} {N1 : Nat}, (∀ n, N1 ≤ n → body env (run env n) c st = .ok (o, st')) →
      ∃ N, ∀ n, N ≤ n → run env n c st = .ok (o, st') := by
    intro c st o st' N1 h
    refine ⟨N1 + 1, fun n hn => ?_⟩
    obtain ⟨k, rfl⟩ : ∃ k, n = k + 1 := ⟨n - 1, by omega⟩
    rw [run]
    exact h k (by omega)
  induction h with
  | limit hl => exact lift1 (N1 := 0) fun n _ => by simp only [body, if_pos hl]
  | colorize hl _ ih =>
    obtain ⟨N, ih⟩ := ih
    exact lift1 (N1 := N) fun n hn => by simp only [body, if_neg hl]; rw [andThen_of (ih n hn)]
  | outEnd hl => exact lift1 (N1 := 0) fun n _ => by simp only [body, if_neg hl]
  | outRep hl h1 _ hr _ ih1 ih2 =>
    obtain ⟨N1, ih1⟩ := ih1
    obtain ⟨N2, ih2⟩ := ih2
    refine lift1 (N1 := max N1 N2) fun n hn => ?_
    simp only [body, if_pos hl]
    rw [andThen_of h1]
    rw [andThen_of (ih1 n (by omega))]
    simp only [hr, if_true]
    exact ih2 n (by omega)
  | outStop hl h1 _ hr ha ih1 =>
    obtain ⟨N1, ih1⟩ := ih1
    refine lift1 (N1 := N1) fun n hn => ?_
    simp only [body, if_pos hl]
    rw [andThen_of h1]
    rw [andThen_of (ih1 n (by omega))]
    simp only [hr, ha, if_true, Bool.false_eq_true, if_false]
  | outNext hl h1 _ hr ha _ ih1 ih2 =>
    obtain ⟨N1, ih1⟩ := ih1
    obtain ⟨N2, ih2⟩ := ih2
    refine lift1 (N1 := max N1 N2) fun n hn => ?_
    simp only [body, if_pos hl]
    rw [andThen_of h1]
    rw [andThen_of (ih1 n (by omega))]
    simp only [hr, ha, Bool.false_eq_true, if_false]
    exact ih2 n (by omega)
  | colEnd hg => exact lift1 (N1 := 0) fun n _ => by simp only [body, if_neg hg]
  | colBrk hg hb => exact lift1 (N1 := 0) fun n _ => by simp only [body, if_pos hg, hb, if_true]
  | colRep hg hb _ hr ih1 =>
    obtain ⟨N1, ih1⟩ := ih1
    refine lift1 (N1 := N1) fun n hn => ?_
    simp only [body, if_pos hg, hb, Bool.false_eq_true, if_false]
    rw [andThen_of (ih1 n (by omega))]
    unfold reparse at hr
    simp only [if_pos hr]
  | colGo hg hb _ hr _ ih1 ih2 =>
    obtain ⟨N1, ih1⟩ := ih1
    obtain ⟨N2, ih2⟩ := ih2
    refine lift1 (N1 := max N1 N2) fun n hn => ?_
    simp only [body, if_pos hg, hb, Bool.false_eq_true, if_false]
    rw [andThen_of (ih1 n (by omega))]
    unfold reparse at hr
    simp only [if_neg hr]
    exact ih2 n (by omega)
  | nil => exact lift1 (N1 := 0) fun n _ => by simp only [body]
  | inhNone _ ih =>
    obtain ⟨N, ih⟩ := ih
    exact lift1 (N1 := N) fun n hn => by simp only [body]; exact ih n hn
  | inhHit _ hr ih =>
    obtain ⟨N, ih⟩ := ih
    refine lift1 (N1 := N) fun n hn => ?_
    simp only [body]
    rw [andThen_of (ih n hn)]
    simp only [if_pos hr]
  | inhMiss _ hr _ ih1 ih2 =>
    obtain ⟨N1, ih1⟩ := ih1
    obtain ⟨N2, ih2⟩ := ih2
    refine lift1 (N1 := max N1 N2) fun n hn => ?_
    simp only [body]
    rw [andThen_of (ih1 n (by omega))]
    simp only [hr, ne_eq, not_true_eq_false, if_false]
    exact ih2 n (by omega)
  | kwHit hk => exact lift1 (N1 := 0) fun n _ => by simp only [body, hk]
  | kwMiss hk _ ih =>
    obtain ⟨N, ih⟩ := ih
    exact lift1 (N1 := N) fun n hn => by simp only [body, hk]; exact ih n hn
  | reHit ha he => exact lift1 (N1 := 0) fun n _ => by unfold startQ at ha; simp only [body, ha, if_true, if_neg he]
  | reZero ha he _ ih =>
    obtain ⟨N, ih⟩ := ih
    exact lift1 (N1 := N) fun n hn => by unfold startQ at ha; simp only [body, ha, if_true, if_pos he]; exact ih n hn
  | reMiss ha _ ih =>
    obtain ⟨N, ih⟩ := ih
    exact lift1 (N1 := N) fun n hn => by unfold startQ at ha; simp only [body, ha, Bool.false_eq_true, if_false]; exact ih n hn
  | blNone hs _ ih =>
    obtain ⟨N, ih⟩ := ih
    exact lift1 (N1 := N) fun n hn => by simp only [body, hs]; exact ih n hn
  | blMiss hs ha _ ih =>
    obtain ⟨N, ih⟩ := ih
    exact lift1 (N1 := N) fun n hn => by unfold startQ at ha; simp only [body, hs, ha, Bool.false_eq_true, if_false]; exact ih n hn
  | blZero hs ha _ hz1 hz2 _ ih1 ih2 =>
    obtain ⟨N1, ih1⟩ := ih1
    obtain ⟨N2, ih2⟩ := ih2
    refine lift1 (N1 := max N1 N2) fun n hn => ?_
    unfold startQ at ha
    simp only [body, hs, ha, if_true]
    have := ih1 n (by omega)
    unfold blockCtx at this
    rw [andThen_of this]
    simp only
    rw [if_pos ⟨hz1, hz2⟩]
    exact ih2 n (by omega)
  | blHit hs ha _ hz ih1 =>
    obtain ⟨N1, ih1⟩ := ih1
    refine lift1 (N1 := N1) fun n hn => ?_
    unfold startQ at ha
    simp only [body, hs, ha, if_true]
    have := ih1 n (by omega)
    unfold blockCtx at this
    rw [andThen_of this]
    simp only
    rw [if_neg hz]

theorem big_iff_run (env : Env) (c : Call) (st : St) (o : Out) (st' : St) :
    Big env c st o st' ↔ ∃ n, run env n c st = .ok (o, st') :=
  ⟨fun h => by obtain ⟨N, h⟩ := big_run h; exact ⟨N, h N (Nat.le_refl _)⟩, fun ⟨n, h⟩ => run_big env n c st o st' h⟩

theorem big_det {env : Env} {c : Call} {st : St} {o1 o2 : Out} {s1 s2 : St} (h1 : Big env c st o1 s1) (h2 : Big env c st o2 s2) :
    o1 = o2 ∧ s1 = s2 := by
  obtain ⟨N1, h1⟩ := big_run h1
  obtain ⟨N2, h2⟩ := big_run h2
  have a := h1 (max N1 N2) (by omega)
  have b := h2 (max N1 N2) (by omega)
  rw [a] at b
  cases b
  exact ⟨rfl, rfl⟩

end Verif.TextParser
