import Verif.TextParser.Ends
/-!
# Answers that agree

Two parsers whose expressions give the same answers - to the queries the parser makes, and as far as the code looks at them (what a failed
search for the start of a block or for a regexp leaves in its local match is not looked at) - do the same.
-/
namespace Verif.TextParser
open Verif.VTList (VEntries resolve)

/-- `env` with other expressions -/
def Env.with (env : Env) (rx : Nat → Query → Bool × Match) : Env := { env with rx := rx }

/-- the same answers to the queries the parser makes; a failed search for the end of a block leaves the same groups in `matchend` (its bounds
are set afterwards, colorize 547-549) -/
def Agrees (env : Env) (rx : Nat → Query → Bool × Match) : Prop :=
  ∀ t q, Asked env q → (rx t q).1 = (env.rx t q).1 ∧ ((env.rx t q).1 = true → (rx t q).2 = (env.rx t q).2) ∧
    (q.back ≠ none → (rx t q).2.more = (env.rx t q).2.more)

theorem endSearch_agrees {env : Env} {rx : Nat → Query → Bool × Match} (ha : Agrees env rx) {c : Ctx} (hc : CtxOk env c) (me : Match) {st : St}
    (h0 : 0 ≤ st.gx) (h1 : st.gx ≤ lenAt env st.line) (hcl : st.cleared = st.line) : endSearch (env.with rx) c me st = endSearch env c me st := by
  cases hs : c.stop with
  | none => simp only [endSearch, hs]; rfl
  | some p =>
    obtain ⟨re, back, m⟩ := p
    obtain ⟨a1, a2, a3⟩ := ha st.tick _ (endSearch_asked hc h0 h1 hcl hs)
    simp only [endSearch, hs]
    have e1 : st.str (env.with rx) = st.str env := rfl
    have e2 : (env.with rx).rx = rx := rfl
    have e3 : (env.with rx).maxBlock = env.maxBlock := rfl
    rw [e1, e2, e3, a1, a3 (by simp)]
    cases hr : (env.rx st.tick ⟨re, st.str env, st.gx, (st.str env).length, st.schemeStart, some (back, m)⟩).1 with
    | true =>
      simp only [if_true]
      rw [a2 hr]
    | false => rfl

theorem startQ_agrees {env : Env} {rx : Nat → Query → Bool × Match} (ha : Agrees env rx) {st : St} {me : Match} {low hi : Int} (h : Here env me st)
    (hg : st.gx ≤ low) (hl : low ≤ hi) (hh : hi ≤ lenAt env st.line) {re : Nat} (hs : Starts env re) (b : Bool) :
    (∀ m, env.rx st.tick (startQ env re st (if b then low else hi)) = (true, m) →
      (env.with rx).rx st.tick (startQ (env.with rx) re st (if b then low else hi)) = (true, m)) ∧
    (∀ m, env.rx st.tick (startQ env re st (if b then low else hi)) = (false, m) →
      ∃ m', (env.with rx).rx st.tick (startQ (env.with rx) re st (if b then low else hi)) = (false, m')) := by
  obtain ⟨a1, a2, _⟩ := ha st.tick _ (startQ_asked h hg hl hh hs b)
  have e1 : startQ (env.with rx) re st (if b then low else hi) = startQ env re st (if b then low else hi) := rfl
  have e2 : (env.with rx).rx = rx := rfl
  rw [e1, e2]
  refine ⟨fun m hm => ?_, fun m hm => ?_⟩
  · rw [hm] at a1 a2
    exact Prod.ext a1 (a2 rfl)
  · rw [hm] at a1
    exact ⟨(rx st.tick (startQ env re st (if b = true then low else hi))).2, Prod.ext a1 rfl⟩

theorem colsPre {env : Env} (hf : Fits env) {c : Ctx} {me : Match} {len plen : Int} {st : St} (hp : Pre env (.cols c me len plen) st) (hg : st.gx ≤ me.s) :
    Pre env (.nodes (env.nodes c.scheme) c.levels me.s (hiLen env me.s len) me) st.tock := by
  obtain ⟨hp1, hh, hp2, hp3, hp4⟩ := hp
  have hi := hiLen_in hf.maxBlock hp2
  exact ⟨.all _ _, hp1.2, hh.tock, hg, rfl, hi.1, by show _ ≤ lenAt env st.line; omega⟩

/-- the state after a column is one to go on from -/
theorem colsNext {env : Env} (hf : Fits env) {c : Ctx} {me : Match} {len plen : Int} {st : St} {o : Out} {st1 : St} (hp : Pre env (.cols c me len plen) st)
    (hg : st.gx ≤ me.s) (hb1 : Big env (.nodes (env.nodes c.scheme) c.levels me.s (hiLen env me.s len) me) st.tock o st1) (hr : ¬ reparse me o st st1) :
    Pre env (.cols c me (if st1.line = st.line then plen else len) plen) (bump o st1) := by
  obtain ⟨z, a1, a2⟩ := big_post hf hb1 (colsPre hf hp hg)
  obtain ⟨hp1, hh, hp2, hp3, hp4⟩ := hp
  obtain ⟨f1, f2, f3, _⟩ := bump_facts o st1
  have key : st1.line = st.line ∧ st1.cleared = st.cleared ∧ st.gx < (bump o st1).gx := by
    by_cases hn : o.res = .nothing
    · obtain ⟨b1, b2, b3⟩ := a1 hn
      have b2 : st1.gx = st.gx := b2
      refine ⟨b1, b3, ?_⟩
      unfold bump
      rw [if_pos hn]
      show st.gx < st1.gx + 1
      omega
    · have hbump : bump o st1 = st1 := by unfold bump; rw [if_neg hn]
      rw [hbump]
      rcases a2 hn with ⟨b1, b2, b3, b4⟩ | ⟨b0, b1, b2⟩
      · exact ⟨b1, b4, b2⟩
      · exfalso
        have b1 : st.line < st1.line := b1
        exact hr (.inl ⟨b0, .inl (by omega)⟩)
  obtain ⟨k1, k2, k3⟩ := key
  have hpos := hh.pos
  have hmat := hh.mat
  exact ⟨hp1, ⟨by rw [f2, f1, k1, k2]; exact hh.cleared, by rw [f1, k1]; exact hh.line, by omega, by rw [f1, k1]; exact hh.mat⟩, by
    rw [if_pos k1]; omega, by rw [if_pos k1, f1, k1, hp4]; omega, by rw [f1, k1]; exact hp4⟩

theorem big_agree {env : Env} (hf : Fits env) {rx : Nat → Query → Bool × Match} (ha : Agrees env rx) {c : Call} {st : St} {o : Out} {st' : St}
    (h : Big env c st o st') : Pre env c st → Big (env.with rx) c st o st' := by
  induction h with
  | limit hl => intro _; exact .limit hl
  | colorize hl _ ih => intro hp; exact .colorize hl (ih hp)
  | outEnd hl => intro _; exact .outEnd hl
  | @outRep c me st st1 o st2 o' st' hl h1 hb1 hr hb ih1 ih2 =>
    intro hp
    obtain ⟨g1, g2, g3, _⟩ := startLine_facts h1
    obtain ⟨k1, k2⟩ := startLine_here hf hp.1 me hl (hp.2 hl).1 (hp.2 hl).2 h1
    have e := endSearch_agrees ha hp.1 me (st := st1) (by rw [g1]; exact (hp.2 hl).1) (by rw [g1, g2]; exact (hp.2 hl).2) (by rw [g3, g2])
    obtain ⟨z1, a1, a2, a3⟩ := big_post hf hb1 k1
    have b1 := ih1 k1
    have b2 := ih2 ⟨hp.1, (a2 hr).1⟩
    rw [← e] at b1 b2
    exact .outRep hl h1 b1 hr b2
  | @outStop c me st st1 o st2 hl h1 hb1 hr ha1 ih1 =>
    intro hp
    obtain ⟨g1, g2, g3, _⟩ := startLine_facts h1
    obtain ⟨k1, k2⟩ := startLine_here hf hp.1 me hl (hp.2 hl).1 (hp.2 hl).2 h1
    have e := endSearch_agrees ha hp.1 me (st := st1) (by rw [g1]; exact (hp.2 hl).1) (by rw [g1, g2]; exact (hp.2 hl).2) (by rw [g3, g2])
    have b1 := ih1 k1
    rw [← e] at b1 ha1 ⊢
    exact .outStop hl h1 b1 hr ha1
  | @outNext c me st st1 o st2 o' st' hl h1 hb1 hr ha1 hb ih1 ih2 =>
    intro hp
    obtain ⟨g1, g2, g3, _⟩ := startLine_facts h1
    obtain ⟨k1, k2⟩ := startLine_here hf hp.1 me hl (hp.2 hl).1 (hp.2 hl).2 h1
    have e := endSearch_agrees ha hp.1 me (st := st1) (by rw [g1]; exact (hp.2 hl).1) (by rw [g1, g2]; exact (hp.2 hl).2) (by rw [g3, g2])
    have b1 := ih1 k1
    have b2 := ih2 ⟨hp.1, fun _ => ⟨Int.le_refl 0, by show (0 : Int) ≤ lenAt env _; unfold lenAt; omega⟩⟩
    rw [← e] at b1 b2 ha1
    exact .outNext hl h1 b1 hr ha1 b2
  | colEnd hg => intro _; exact .colEnd hg
  | colBrk hg hb => intro _; exact .colBrk hg hb
  | colRep hg hb hb1 hr ih => intro hp; exact .colRep hg hb (ih (colsPre hf hp hg)) hr
  | colGo hg hb hb1 hr hb2 ih1 ih2 => intro hp; exact .colGo hg hb (ih1 (colsPre hf hp hg)) hr (ih2 (colsNext hf hp hg hb1 hr))
  | nil => intro _; exact .nil
  | inhNone hb ih => intro hp; exact .inhNone (ih ⟨hp.1.tail, hp.2⟩)
  | inhHit hb hne ih =>
    intro hp
    exact .inhHit (ih ⟨.all _ _, target_fromG hp.2.1 (fun _ => (hp.1 _ (List.mem_cons_self ..)).imp fun s h => ⟨_, h⟩), hp.2.2⟩) hne
  | @inhMiss s virt ns levels low hi me st o st1 o' st' hb1 hn hb2 ih1 ih2 =>
    intro hp
    have p1 : Pre env (.nodes (env.nodes (target s levels virt).1) (target s levels virt).2 low hi me) st :=
      ⟨.all _ _, target_fromG hp.2.1 (fun _ => (hp.1 _ (List.mem_cons_self ..)).imp fun s h => ⟨_, h⟩), hp.2.2⟩
    obtain ⟨z, a1, _⟩ := big_post hf hb1 p1
    obtain ⟨q1, q2, q3⟩ := a1 hn
    obtain ⟨hns, hlv, hh', h1, h2, h3, h4⟩ := hp
    exact .inhMiss (ih1 p1) hn (ih2 ⟨hns.tail, hlv, hh'.move q1 q2 q3, by rw [q2]; exact h1, h2, h3, by rw [q1]; exact h4⟩)
  | kwHit hk => intro _; exact .kwHit hk
  | kwMiss hk hb ih => intro hp; exact .kwMiss hk (ih ⟨hp.1.tail, hp.2.1, hp.2.2.1.tock, hp.2.2.2⟩)
  | @reHit start lowP regs ns levels low hi me st m hx he =>
    intro hp
    obtain ⟨hns, hlv, hh', h1, h2, h3, h4⟩ := hp
    exact .reHit ((startQ_agrees ha hh' (by omega) h3 h4 ((hns _ (List.mem_cons_self ..)).imp fun s h => .inl ⟨lowP, regs, h⟩) lowP).1 _ hx) he
  | @reZero start lowP regs ns levels low hi me st m o st' hx he hb ih =>
    intro hp
    have b1 := ih ⟨hp.1.tail, hp.2.1, hp.2.2.1.tock.move rfl rfl rfl, hp.2.2.2⟩
    obtain ⟨hns, hlv, hh', h1, h2, h3, h4⟩ := hp
    exact .reZero ((startQ_agrees ha hh' (by omega) h3 h4 ((hns _ (List.mem_cons_self ..)).imp fun s h => .inl ⟨lowP, regs, h⟩) lowP).1 _ hx) he b1
  | @reMiss start lowP regs ns levels low hi me st m o st' hx hb ih =>
    intro hp
    have b1 := ih ⟨hp.1.tail, hp.2.1, hp.2.2.1.tock, hp.2.2.2⟩
    obtain ⟨hns, hlv, hh', h1, h2, h3, h4⟩ := hp
    obtain ⟨m', e⟩ := (startQ_agrees ha hh' (by omega) h3 h4 ((hns _ (List.mem_cons_self ..)).imp fun s h => .inl ⟨lowP, regs, h⟩) lowP).2 _ hx
    exact .reMiss e b1
  | blNone hs' hb ih => intro hp; exact .blNone hs' (ih ⟨hp.1.tail, hp.2⟩)
  | @blMiss b s ns levels low hi me st m o st' hs' hx hb ih =>
    intro hp
    have b1 := ih ⟨hp.1.tail, hp.2.1, hp.2.2.1.tock, hp.2.2.2⟩
    obtain ⟨hns, hlv, hh', h1, h2, h3, h4⟩ := hp
    obtain ⟨m', e⟩ := (startQ_agrees ha hh' (by omega) h3 h4 (re := b.start) ((hns _ (List.mem_cons_self ..)).imp fun s h => .inr ⟨b, h, rfl⟩) b.low).2 _ hx
    exact .blMiss hs' e b1
  | @blZero b s ns levels low hi me st m o st1 o' st' hs' hx hb1 he hl hb ih1 ih2 =>
    intro hp
    obtain ⟨p1, p2, p3⟩ := block_pre hf hp hx (s := s)
    have a := big_post hf hb1 p1
    have b1 := ih1 p1
    obtain ⟨hns, hlv, hh', h1, h2, h3, h4⟩ := hp
    have hm1 := hh'.mat
    have e0 : m.s = st.gx := by
      obtain ⟨s', hs''⟩ := hns _ (List.mem_cons_self ..)
      exact (hf.rx _ _ _ (startQ_asked hh' (by omega) h3 h4 (re := b.start) ⟨s', .inr ⟨b, hs'', rfl⟩⟩ b.low) hx).2.2.2 ⟨s', b, hs'', rfl⟩ rfl
    have e1 : (afterBlock env b (target s levels []).1 st st1 o.me).line = st.line := hl.symm
    have e2 : (afterBlock env b (target s levels []).1 st st1 o.me).gx = st.gx := by show o.me.e = _; omega
    have e3 : (afterBlock env b (target s levels []).1 st st1 o.me).cleared = st.cleared := by
      show st1.cleared = st.cleared
      rcases a.2 with a | a
      · exact a.2.2.1
      · have hl' := hh'.line
        rw [(a.2 (by omega)).1, ← hl, hh'.cleared]
    have b2 := ih2 ⟨hns.tail, hlv, hh'.move e1 e2 e3, by rw [e2]; exact h1, h2, h3, by rw [e1]; exact h4⟩
    exact .blZero hs' ((startQ_agrees ha hh' (by omega) h3 h4 (re := b.start) ((hns _ (List.mem_cons_self ..)).imp fun s h => .inr ⟨b, h, rfl⟩) b.low).1 _ hx)
      b1 he hl b2
  | @blHit b s ns levels low hi me st m o st1 hs' hx hb1 hne ih1 =>
    intro hp
    obtain ⟨p1, p2, p3⟩ := block_pre hf hp hx (s := s)
    have b1 := ih1 p1
    obtain ⟨hns, hlv, hh', h1, h2, h3, h4⟩ := hp
    exact .blHit (env := env.with rx) hs'
      ((startQ_agrees ha hh' (by omega) h3 h4 (re := b.start) ((hns _ (List.mem_cons_self ..)).imp fun s h => .inr ⟨b, h, rfl⟩) b.low).1 _ hx) b1 hne

/-! ## parse -/

theorem cb_agree {env : Env} (hf : Fits env) {rx : Nat → Query → Bool × Match} (ha : Agrees env rx) {base : Nat} {fs : List Frame} {me : Match} {st : St}
    {me1 : Match} {st' : St} (h : CB env base fs me st me1 st') : (∀ f ∈ fs, InfoOk env f.info) →
    (st.line < env.endL → 0 ≤ st.gx ∧ st.gx ≤ lenAt env st.line) → CB (env.with rx) base fs me st me1 st' := by
  induction h with
  | @nil me st o st1 hb =>
    intro _ hgx
    exact .nil (big_agree hf ha hb ⟨⟨by intro _ _ _ h; simp at h, by intro v hv; simp at hv⟩, hgx⟩)
  | @cons f fs me st o st1 me1 st' hb hcb ih =>
    intro hfs hgx
    have hp : Pre env (.colorize (ctxOf f.info) me) { st with level := 0 } := ⟨ctxOf_ok (hfs f (List.mem_cons_self ..)), hgx⟩
    have hE : Ended env { st with level := 0 } o st1 := by
      cases hb with
      | limit hl => exact absurd hl (by simp)
      | colorize hl hb => exact (big_post hf hb hp).2
    exact .cons (big_agree hf ha hb hp) (ih (fun g hg => hfs g (List.mem_cons_of_mem _ hg)) (fun hl => by
      obtain ⟨q1, q2, q3, q4, _⟩ := hE.2 hl
      exact ⟨by show 0 ≤ o.me.e; omega, q4⟩))

/-- a call does the same with agreeing answers -/
theorem parses_agree {env : Env} (hf : Fits env) {rx : Nat → Query → Bool × Match} (ha : Agrees env rx) {p : PState} (hp : Proper env p)
    {from' num : Int} {mode : Mode} {r : Result} (h : Parses env p from' num mode r) : Parses (env.with rx) p from' num mode r := by
  obtain ⟨fuel, h⟩ := h.parse
  obtain ⟨z, me, st, hz, hcb, rfl⟩ := parse_cb h
  have hin := entry_in hz
  have b1 := cb_agree (env := env.call from' num mode) (call_fits hf _ _ _) ha hcb (fun f hf' => hp _ (hin _ (.inr ⟨f, hf', .inl rfl⟩)))
    (fun _ => ⟨Int.le_refl 0, by show (0 : Int) ≤ lenAt _ _; unfold lenAt; omega⟩)
  exact parses_of_cb hz b1

theorem parses_proper {env : Env} (hf : Fits env) {p : PState} (hp : Proper env p) {from' num : Int} {mode : Mode} {r : Result}
    (h : Parses env p from' num mode r) : Proper env r.after := by
  obtain ⟨fuel, h⟩ := h.parse
  obtain ⟨z, me, st, hz, hcb, rfl⟩ := parse_cb h
  have hin := entry_in hz
  have hall : ∀ i, InZip i z → InfoOk env i := fun i hi => hp i (hin i hi)
  have key : ∀ {base : Nat} {fs : List Frame} {me : Match} {st : St} {me1 : Match} {st' : St}, CB (env.call from' num mode) base fs me st me1 st' →
      (∀ f ∈ fs, InfoOk env f.info) → (st.line < from' + num → 0 ≤ st.gx ∧ st.gx ≤ lenAt env st.line) → (∀ i, InZip i st.zip → InfoOk env i) →
      ∀ i, InZip i st'.zip → InfoOk env i := by
    intro base fs me st me1 st' hcb
    induction hcb with
    | @nil me st o st1 hb =>
      intro _ hgx hz i hi
      obtain ⟨z, _⟩ := big_post (call_fits hf _ _ _) hb ⟨⟨by intro _ _ _ h; simp at h, by intro v hv; simp at hv⟩, hgx⟩
      rcases z i hi with h | h
      · exact hz i h
      · exact h
    | @cons f fs me st o st1 me1 st' hb hcb ih =>
      intro hfs hgx hz
      have hp : Pre (env.call from' num mode) (.colorize (ctxOf f.info) me) { st with level := 0 } := ⟨ctxOf_ok (hfs f (List.mem_cons_self ..)), hgx⟩
      obtain ⟨z, a⟩ := big_post (call_fits hf _ _ _) hb hp
      have hE : Ended (env.call from' num mode) { st with level := 0 } o st1 := by
        cases hb with
        | limit hl => exact absurd hl (by simp)
        | colorize hl hb => exact (big_post (call_fits hf _ _ _) hb hp).2
      refine ih (fun g hg => hfs g (List.mem_cons_of_mem _ hg)) (fun hl => ?_) (fun i hi => ?_)
      · obtain ⟨q1, q2, q3, q4, _⟩ := hE.2 hl
        exact ⟨by show 0 ≤ o.me.e; omega, q4⟩
      · rcases z i (afterFrame_zip hi) with h | h
        · exact hz i h
        · exact h
  have h2 := key hcb (fun f hf' => hall _ (.inr ⟨f, hf', .inl rfl⟩)) (fun _ => ⟨Int.le_refl 0, by show (0 : Int) ≤ lenAt _ _; unfold lenAt; omega⟩) hall
  intro i hi
  have hi : InTrees i (if mode = .update then st.zip.root else p.cache) := hi
  split at hi
  · exact h2 i (.inl hi)
  · exact hp i hi

end Verif.TextParser
