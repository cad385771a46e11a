import Verif.TextParser.Sim
/-!
# Cutting a run at a line (used for C34)

`cut`: a run that passes line `F` is the run that ends at `F` followed by what is left: the open blocks (innermost first), each finished
by a run of its own.
-/
namespace Verif.TextParser
open Verif.VTList (VEntries resolve)

/-- entries that are over before line `F`; entries that begin after line `F` -/
def Bef (F : Int) (ks : List Tree) : Prop := ∀ k ∈ ks, k.info.sline ≤ F ∧ k.eline < F
def Aft (F : Int) (ks : List Tree) : Prop := ∀ k ∈ ks, F < k.info.sline

/-- `Closed F fs t`: `t` is a closed entry whose path to line `F` is `fs` (innermost first, with the children before the line) -/
inductive Closed (F : Int) : List Frame → Tree → Prop
  | one {f : Frame} {l : List Tree} {e : Int} : Bef F f.kids → Aft F l → F ≤ e → f.info.sline ≤ F →
      Closed F [f] (.node f.info e (f.kids ++ l))
  | more {fs : List Frame} {t : Tree} {f : Frame} {l : List Tree} {e : Int} : Closed F fs t → Bef F f.kids → Aft F l → F ≤ e →
      f.info.sline ≤ F → Closed F (fs ++ [f]) (.node f.info e (f.kids ++ t :: l))

theorem Closed.covers {F : Int} {fs : List Frame} {t : Tree} (h : Closed F fs t) : t.info.sline ≤ F ∧ F ≤ t.eline := by
  cases h with
  | one _ _ h1 h2 => exact ⟨h2, h1⟩
  | more _ _ _ h1 h2 => exact ⟨h2, h1⟩

theorem locateRest_aft {F : Int} (l : List Tree) : ∀ before skipped, Aft F l → locateRest F before skipped l = (none, before) := by
  induction l with
  | nil => intro b s _; rw [locateRest.eq_def]
  | cons k l ih =>
    intro b s h
    have hk := h k (by simp)
    rw [locateRest.eq_def]
    simp only
    rw [if_neg (by omega), if_neg (by omega)]
    exact ih _ _ (fun x hx => h x (by simp [hx]))

theorem locateKids_bef {F : Int} (ks : List Tree) : ∀ before rest, Bef F ks → locateKids F before (ks ++ rest) = locateKids F (before ++ ks) rest := by
  induction ks with
  | nil => intro b r _; simp
  | cons k ks ih =>
    intro b r h
    have hk := h k (by simp)
    rw [List.cons_append, locateKids.eq_def]
    simp only
    rw [if_neg (by omega), if_pos hk.1, ih _ _ (fun x hx => h x (by simp [hx]))]
    simp

theorem locateKids_aft {F : Int} (l : List Tree) (before : List Tree) (h : Aft F l) : locateKids F before l = (none, before) := by
  cases l with
  | nil => rw [locateKids.eq_def]
  | cons k l =>
    have hk := h k (by simp)
    rw [locateKids.eq_def]
    simp only
    rw [if_neg (by omega), if_neg (by omega)]
    exact locateRest_aft _ _ _ (fun x hx => h x (by simp [hx]))

theorem locateKids_hit {F : Int} {t : Tree} (rest before : List Tree) (h : t.info.sline ≤ F ∧ F ≤ t.eline) :
    locateKids F before (t :: rest) = (some (locate F t), before) := by
  rw [locateKids.eq_def]
  simp only
  rw [if_pos h]

theorem Closed.locate {F : Int} {fs : List Frame} {t : Tree} (h : Closed F fs t) : locate F t = fs := by
  induction h with
  | @one f l e h1 h2 h3 h4 =>
    rw [locate.eq_def]
    simp only
    rw [locateKids_bef _ _ _ h1, locateKids_aft _ _ h2]
    simp
  | @more fs t f l e hc h1 h2 h3 h4 ih =>
    rw [locate.eq_def]
    simp only
    rw [locateKids_bef _ _ _ h1, locateKids_hit _ _ hc.covers, ih]
    simp

/-- the children of an entry, after line `F` has been passed with the open path `fs` -/
inductive Passed (F : Int) : List Frame → List Tree → List Tree → Prop
  | none {r l : List Tree} : Bef F r → Aft F l → Passed F [] r (r ++ l)
  | some {fs : List Frame} {t : Tree} {r l : List Tree} : Closed F fs t → Bef F r → Aft F l → Passed F fs r (r ++ t :: l)

theorem Passed.locateRoot {F : Int} {fs : List Frame} {r root : List Tree} (h : Passed F fs r root) : locateRoot F root = ⟨fs, r⟩ := by
  unfold TextParser.locateRoot
  cases h with
  | none h1 h2 =>
    rw [locateKids_bef _ _ _ h1, locateKids_aft _ _ h2]
    simp
  | some hc h1 h2 =>
    rw [locateKids_bef _ _ _ h1, locateKids_hit _ _ hc.covers, hc.locate]
    simp

/-- open entries on top of a zipper -/
def Zip.under (z : Zip) (fs : List Frame) : Zip := ⟨fs ++ z.frames, z.root⟩

/-- finishing the open blocks one after the other, as `searchBL` does on its way out and the loop of `parse` on a resumed parse -/
inductive Chain (env : Env) : List Info → St → St → Prop
  | nil {st : St} : Chain env [] st st
  | cons {i : Info} {is : List Info} {st : St} {me : Match} {o : Out} {st1 : St} {ss : Int} {st' : St} :
      Big env (.outer (ctxOf i) me) st o st1 →
      Chain env is { afterFrame env i { st1 with level := st1.level - 1 } o.me with schemeStart := ss } st' → Chain env (i :: is) st st'

theorem Chain.snoc {env : Env} {is : List Info} {st st1 : St} (h : Chain env is st st1) {i : Info} {me : Match} {o : Out} {st2 st' : St}
    {ss : Int} (hb : Big env (.outer (ctxOf i) me) st1 o st2)
    (he : st' = { afterFrame env i { st2 with level := st2.level - 1 } o.me with schemeStart := ss }) : Chain env (is ++ [i]) st st' := by
  induction h with
  | nil => subst he; exact .cons hb .nil
  | cons h1 _ ih => exact .cons h1 (ih hb)

/-- the same with another end of the range -/
def Env.to (env : Env) (F : Int) : Env := { env with endL := F }

structure Cut (F : Int) (st : St) (fs : List Frame) (ks : List Tree) (stM stF : St) : Prop where
  zip  : stM.zip = (st.zip.addKids ks).under fs
  kids : KidsIn st.line (F - 1) ks
  fok  : ∀ f ∈ fs, Bef F f.kids ∧ f.info.sline ≤ F
  line : stM.line = F
  gx   : stM.gx = 0
  cleared : stM.cleared = F - 1
  lineF : stF.line = F
  hitF : stF.hit = false
  evsF : stF.evs = stM.evs
  zipF : ∃ tF, stF.zip = st.zip.addKids (ks ++ tF) ∧ ((fs = [] ∧ tF = []) ∨ ∃ t, Closed F fs t ∧ tF = [t])

/-- what is left of a call after the cut -/
def Left (env : Env) (c : Call) (st : St) (o : Out) (st' : St) (fs : List Frame) (stM : St) : Prop :=
  match c with
  | .nodes _ _ _ _ _ => stM.level = st.level + fs.length ∧ Chain env (fs.map (·.info)) stM st'
  | .cols _ _ _ _ => stM.level = st.level + fs.length ∧ Chain env (fs.map (·.info)) stM st'
  | .outer c _ => stM.level = st.level + fs.length ∧
      ∃ me' st1, Chain env (fs.map (·.info)) stM st1 ∧ Big env (.outer c me') st1 o st'
  | .colorize c _ => stM.level = st.level + 1 + fs.length ∧
      ∃ me' st1 st2, Chain env (fs.map (·.info)) stM st1 ∧ Big env (.outer c me') st1 o st2 ∧ st' = { st2 with level := st2.level - 1 }

def CutAt (env : Env) (F : Int) (c : Call) (st : St) (o : Out) (st' : St) : Prop :=
  ∃ fs ks stM oF stF, Big (env.to F) c st oF stF ∧ Cut F st fs ks stM stF ∧ Left env c st o st' fs stM

/-- a cut later on: the part before it adds children only -/
theorem Cut.shift {F : Int} {st st1 stM stF : St} {fs : List Frame} {ks k0 : List Tree} (h : Cut F st1 fs ks stM stF)
    (hz : st1.zip = st.zip.addKids k0) (hk : KidsIn st.line (F - 1) k0) (hl : st.line ≤ st1.line) : Cut F st fs (k0 ++ ks) stM stF := by
  obtain ⟨a1, a2, a3, a4, a5, a6, a7, a8, a9, tF, a10, a11⟩ := h
  refine ⟨?_, hk.append (a2.mono hl (Int.le_refl _)), a3, a4, a5, a6, a7, a8, a9, tF, ?_, a11⟩
  · rw [a1, hz, Zip.addKids_addKids]
  · rw [a10, hz, Zip.addKids_addKids, List.append_assoc]

/-- a state that differs only in what a cut does not look at -/
theorem Cut.from {F : Int} {st st1 stM stF : St} {fs : List Frame} {ks : List Tree} (h : Cut F st1 fs ks stM stF)
    (hz : st1.zip = st.zip) (hl : st1.line = st.line) : Cut F st fs ks stM stF := by
  obtain ⟨a1, a2, a3, a4, a5, a6, a7, a8, a9, tF, a10, a11⟩ := h
  rw [hz] at a1 a10
  rw [hl] at a2
  exact ⟨a1, a2, a3, a4, a5, a6, a7, a8, a9, tF, a10, a11⟩

theorem afterBlock_to {env : Env} {F : Int} (hF : F ≤ env.endL) (b : Block) (s : Nat) (st0 : St) {st : St} (me : Match) (h : st.line < F) :
    afterBlock (env.to F) b s st0 st me = afterBlock env b s st0 st me := by
  unfold afterBlock Env.to
  simp only [if_pos h, if_pos (show st.line < env.endL by omega)]

theorem cut {env : Env} (hq : Quiet env) (hu : env.upd = true) {F : Int} (hF : F ≤ env.endL) {c : Call} {st : St} {o : Out} {st' : St}
    (h : Big env c st o st') :
    st'.hit = false → FPre (env.to F) c st → st.line < F →
    (st'.line < F → Big (env.to F) c st o st') ∧ (F ≤ st'.line → CutAt env F c st o st') := by
  have hqF : Quiet (env.to F) := ⟨hq.brk⟩
  induction h with
  | limit => intro h; simp at h
  | @colorize c me st o st1 hl hb ih =>
    intro h _ hlt
    obtain ⟨a, b⟩ := ih h trivial hlt
    refine ⟨fun h => .colorize hl (a h), fun h => ?_⟩
    obtain ⟨fs, ks, stM, oF, stF, c1, c2, c3, me', st2, c4, c5⟩ := b h
    refine ⟨fs, ks, stM, oF, _, .colorize hl c1, ?_, c3, me', st2, st1, c4, c5, rfl⟩
    obtain ⟨a1, a2, a3, a4, a5, a6, a7, a8, a9, a10⟩ := c2
    exact ⟨a1, a2, a3, a4, a5, a6, a7, a8, a9, a10⟩
  | @outEnd c me st hl => intro _ _ h; omega
  | @outRep c me st st1 o st2 o' st' hl h1 hb1 hr hb2 ih1 ih2 =>
    intro h _ hlt
    obtain ⟨s1, s2, s3, s4, s5, s6, s7, _⟩ := startLine_facts h1
    have hh : st2.hit = false := big_hit hb2 h
    have hp : FPre (env.to F) (.cols c (endSearch env c me st1).2 (if c.low then (endSearch env c me st1).2.s else (st1.str env).length)
        (st1.str env).length) st1.tock := ⟨by show st1.cleared = st1.line; omega, by show st1.line < F; omega⟩
    obtain ⟨a1, b1⟩ := ih1 hh hp (by show st1.line < F; omega)
    have h1' : startLine (env.to F) c st = .ok st1 := h1
    have f2 := (big_facts hq hb2 h trivial).1
    refine ⟨fun hx => ?_, fun hx => ?_⟩
    · have hl2 : st2.line < F := by omega
      exact .outRep hlt h1' (a1 hl2) hr ((ih2 h trivial hl2).1 hx)
    · by_cases hl2 : st2.line < F
      · obtain ⟨fs, ks, stM, oF, stF, c1, c2, c3, c4⟩ := (ih2 h trivial hl2).2 hx
        obtain ⟨g1, g2, g3, g4, g5⟩ := big_facts hqF (a1 hl2) hh hp
        obtain ⟨k0, z0, q0⟩ := g5 hu
        have e0 : st1.tock.line = st.line := s2
        have e1 : st1.tock.zip = st.zip := s6
        rw [e0] at q0 g1
        refine ⟨fs, k0 ++ ks, stM, oF, stF, .outRep hlt h1' (a1 hl2) hr c1,
          c2.shift (by rw [z0, e1]) (q0.mono (Int.le_refl _) (by omega)) g1, ?_, c4⟩
        rw [c3, big_level hb1]
        show st1.level + _ = _
        rw [s4]
      · obtain ⟨fs, ks, stM, oF, stF, c1, c2, c3, c4⟩ := b1 (by omega)
        have c5 := c2.from (st := st) s6 s2
        have hrep : oF.rep = true := by
          have g := (big_facts hqF c1 c2.hitF hp).2.2.2.1
          have e0 : st1.tock.line = st.line := s2
          have := c2.lineF
          cases hx : oF.rep with
          | true => rfl
          | false => have g := g hx; omega
        refine ⟨fs, ks, stM, _, stF, .outRep hlt h1' c1 hrep (.outEnd (by show ¬ stF.line < F; have := c2.lineF; omega)), c5, ?_, _, st2, c4, hb2⟩
        rw [c3]
        show st1.level + _ = _
        rw [s4]
  | @outStop c me st st1 o st2 hl h1 hb1 hr ha ih1 =>
    intro h _ hlt
    obtain ⟨s1, s2, s3, s4, s5, s6, s7, _⟩ := startLine_facts h1
    have hp : FPre (env.to F) (.cols c (endSearch env c me st1).2 (if c.low then (endSearch env c me st1).2.s else (st1.str env).length)
        (st1.str env).length) st1.tock := ⟨by show st1.cleared = st1.line; omega, by show st1.line < F; omega⟩
    have hp' : FPre env (.cols c (endSearch env c me st1).2 (if c.low then (endSearch env c me st1).2.s else (st1.str env).length)
        (st1.str env).length) st1.tock := ⟨by show st1.cleared = st1.line; omega, by show st1.line < env.endL; omega⟩
    obtain ⟨a1, b1⟩ := ih1 h hp (by show st1.line < F; omega)
    have h1' : startLine (env.to F) c st = .ok st1 := h1
    have f4 : st2.line = st1.tock.line := (big_facts hq hb1 h hp').2.2.2.1 hr
    have e0 : st1.tock.line = st.line := s2
    refine ⟨fun hx => .outStop hlt h1' (a1 hx) hr ha, fun hx => ?_⟩
    have hx : F ≤ st2.line := hx
    omega
  | @outNext c me st st1 o st2 o' st' hl h1 hb1 hr ha hb2 ih1 ih2 =>
    intro h _ hlt
    obtain ⟨s1, s2, s3, s4, s5, s6, s7, _⟩ := startLine_facts h1
    have hh : st2.hit = false := show (nextLine st2).hit = false from big_hit hb2 h
    have hp : FPre (env.to F) (.cols c (endSearch env c me st1).2 (if c.low then (endSearch env c me st1).2.s else (st1.str env).length)
        (st1.str env).length) st1.tock := ⟨by show st1.cleared = st1.line; omega, by show st1.line < F; omega⟩
    have hp' : FPre env (.cols c (endSearch env c me st1).2 (if c.low then (endSearch env c me st1).2.s else (st1.str env).length)
        (st1.str env).length) st1.tock := ⟨by show st1.cleared = st1.line; omega, by show st1.line < env.endL; omega⟩
    obtain ⟨a1, b1⟩ := ih1 hh hp (by show st1.line < F; omega)
    have h1' : startLine (env.to F) c st = .ok st1 := h1
    have e0 : st1.tock.line = st.line := s2
    have e1 : st1.tock.zip = st.zip := s6
    have f4 : st2.line = st1.tock.line := (big_facts hq hb1 hh hp').2.2.2.1 hr
    have hl2 : st2.line < F := by omega
    obtain ⟨g1, g2, g3, g4, g5⟩ := big_facts hqF (a1 hl2) hh hp
    obtain ⟨k0, z0, q0⟩ := g5 hu
    rw [e0] at q0 g1
    have f2 := (big_facts hq hb2 h trivial).1
    have f2 : st2.line + 1 ≤ st'.line := f2
    have hlev : st2.level = st.level := by
      rw [big_level hb1]
      show st1.level = _
      exact s4
    by_cases hn : st2.line + 1 < F
    · obtain ⟨a2, b2⟩ := ih2 h trivial hn
      refine ⟨fun hx => .outNext hlt h1' (a1 hl2) hr ha (a2 hx), fun hx => ?_⟩
      obtain ⟨fs, ks, stM, oF, stF, c1, c2, c3, c4⟩ := b2 hx
      refine ⟨fs, k0 ++ ks, stM, oF, stF, .outNext hlt h1' (a1 hl2) hr ha c1,
        c2.shift (by show st2.zip = _; rw [z0, e1]) (q0.mono (Int.le_refl _) (by omega)) (by show st.line ≤ st2.line + 1; omega), ?_, c4⟩
      rw [c3]
      show st2.level + _ = _
      rw [hlev]
    · have hn : st2.line + 1 = F := by omega
      refine ⟨fun hx => by omega, fun hx => ?_⟩
      refine ⟨[], k0, nextLine st2, _, nextLine st2,
        .outNext hlt h1' (a1 hl2) hr ha (.outEnd (by show ¬ st2.line + 1 < F; omega)), ?_, ?_, _, _, .nil, hb2⟩
      · refine ⟨?_, q0.mono (Int.le_refl _) (by omega), by simp, hn, rfl, ?_, hn, hh, rfl, [], ?_, Or.inl ⟨rfl, rfl⟩⟩
        · show st2.zip = _
          rw [z0, e1]; rfl
        · show st2.cleared = _
          have := g3 hh (by show st2.line < F; omega)
          omega
        · show st2.zip = _
          rw [z0, e1]; simp
      · show st2.level = _
        rw [hlev]; rfl
  | @colEnd c me len plen st hg =>
    intro _ _ hlt
    exact ⟨fun _ => .colEnd hg, fun hx => by omega⟩
  | @colBrk c me len plen st hg hb => rw [hq.brk] at hb; simp at hb
  | @colRep c me len plen st o st1 hg hb hb1 hr ih1 =>
    intro h hp hlt
    obtain ⟨a1, b1⟩ := ih1 h hp hlt
    refine ⟨fun hx => .colRep hg hb (a1 hx) hr, fun hx => ?_⟩
    obtain ⟨fs, ks, stM, oF, stF, c1, c2, c3, c4⟩ := b1 hx
    refine ⟨fs, ks, stM, _, stF, .colRep hg hb c1 ?_, c2.from rfl rfl, c3, c4⟩
    have g := (big_facts hqF c1 c2.hitF hp).2.2.2.1
    have := c2.lineF
    have hne : stF.line ≠ st.line := by omega
    have : oF.res = .scheme := Decidable.byContradiction fun hx => hne (g hx)
    exact Or.inl ⟨this, Or.inl hne⟩
  | @colGo c me len plen st o st1 o' st' hg hb hb1 hr hb2 ih1 ih2 =>
    intro h hp hlt
    obtain ⟨e1, e2, e3, e4, e5, _⟩ := bump_facts o st1
    have hh : st1.hit = false := by rw [← e4]; exact big_hit hb2 h
    have hp' : FPre env (.nodes (env.nodes c.scheme) c.levels me.s (hiLen env me.s len) me) st.tock :=
      ⟨hp.1, by show st.line < env.endL; omega⟩
    have f4 := (big_facts hq hb1 hh hp').2.2.2.1
    have hln : st1.line = st.line := not_reparse_line hr f4
    obtain ⟨a1, b1⟩ := ih1 hh hp hlt
    have a1 := a1 (by omega)
    obtain ⟨g1, g2, g3, g4, g5⟩ := big_facts hqF a1 hh hp
    obtain ⟨k0, z0, q0⟩ := g5 hu
    obtain ⟨a2, b2⟩ := ih2 h ⟨by rw [e1, e2]; exact g3 hh (by show st1.line < F; omega), by rw [e1]; show st1.line < F; omega⟩
      (by rw [e1]; omega)
    refine ⟨fun hx => .colGo hg hb a1 hr (a2 hx), fun hx => ?_⟩
    obtain ⟨fs, ks, stM, oF, stF, c1, c2, c3, c4⟩ := b2 hx
    refine ⟨fs, k0 ++ ks, stM, oF, stF, .colGo hg hb a1 hr c1, c2.shift (by rw [e3, z0]; rfl) (q0.mono (Int.le_refl _) (by omega))
      (by rw [e1]; omega), ?_, c4⟩
    rw [c3, e5, big_level hb1]
    rfl
  | @nil levels low hi me st =>
    intro _ _ hlt
    exact ⟨fun _ => .nil, fun hx => by omega⟩
  | inhNone _ ih =>
    intro h hp hlt
    obtain ⟨a1, b1⟩ := ih h hp hlt
    refine ⟨fun hx => .inhNone (a1 hx), fun hx => ?_⟩
    obtain ⟨fs, ks, stM, oF, stF, c1, c2, c3⟩ := b1 hx
    exact ⟨fs, ks, stM, oF, stF, .inhNone c1, c2, c3⟩
  | @inhHit sc virt ns levels low hi me st o st1 hb1 hr ih =>
    intro h hp hlt
    obtain ⟨a1, b1⟩ := ih h hp hlt
    refine ⟨fun hx => .inhHit (a1 hx) hr, fun hx => ?_⟩
    obtain ⟨fs, ks, stM, oF, stF, c1, c2, c3⟩ := b1 hx
    refine ⟨fs, ks, stM, _, stF, .inhHit c1 ?_, c2, c3⟩
    have g := (big_facts hqF c1 c2.hitF hp).2.2.2.1
    intro hn
    have := g (by rw [hn]; simp)
    have := c2.lineF
    omega
  | @inhMiss sc virt ns levels low hi me st o st1 o' st' hb1 hr hb2 ih1 ih2 =>
    intro h hp hlt
    have hh : st1.hit = false := big_hit hb2 h
    have hp' : FPre env (.nodes (env.nodes (target sc levels virt).1) (target sc levels virt).2 low hi me) st :=
      ⟨hp.1, by omega⟩
    have hln : st1.line = st.line := (big_facts hq hb1 hh hp').2.2.2.1 (by rw [hr]; simp)
    obtain ⟨a1, b1⟩ := ih1 hh hp hlt
    have a1 := a1 (by omega)
    obtain ⟨g1, g2, g3, g4, g5⟩ := big_facts hqF a1 hh hp
    obtain ⟨k0, z0, q0⟩ := g5 hu
    obtain ⟨a2, b2⟩ := ih2 h ⟨g3 hh (by show st1.line < F; omega), by show st1.line < F; omega⟩ (by omega)
    refine ⟨fun hx => .inhMiss a1 hr (a2 hx), fun hx => ?_⟩
    obtain ⟨fs, ks, stM, oF, stF, c1, c2, c3, c4⟩ := b2 hx
    refine ⟨fs, k0 ++ ks, stM, oF, stF, .inhMiss a1 hr c1, c2.shift z0 (q0.mono (Int.le_refl _) (by omega)) (by omega), ?_, c4⟩
    rw [c3, big_level hb1]
  | @kwHit id' ns levels low hi me st n r hk =>
    intro _ _ hlt
    refine ⟨fun _ => .kwHit hk, fun hx => ?_⟩
    have hx : F ≤ st.line := hx
    omega
  | kwMiss hk _ ih =>
    intro h hp hlt
    obtain ⟨a1, b1⟩ := ih h hp hlt
    refine ⟨fun hx => .kwMiss hk (a1 hx), fun hx => ?_⟩
    obtain ⟨fs, ks, stM, oF, stF, c1, c2, c3⟩ := b1 hx
    exact ⟨fs, ks, stM, oF, stF, .kwMiss hk c1, c2.from rfl rfl, c3⟩
  | @reHit start lowP regs ns levels low hi me st m ha he =>
    intro _ _ hlt
    refine ⟨fun _ => .reHit ha he, fun hx => ?_⟩
    have hx : F ≤ st.line := hx
    omega
  | reZero ha he _ ih =>
    intro h hp hlt
    obtain ⟨a1, b1⟩ := ih h hp hlt
    refine ⟨fun hx => .reZero ha he (a1 hx), fun hx => ?_⟩
    obtain ⟨fs, ks, stM, oF, stF, c1, c2, c3⟩ := b1 hx
    exact ⟨fs, ks, stM, oF, stF, .reZero ha he c1, c2.from rfl rfl, c3⟩
  | reMiss ha _ ih =>
    intro h hp hlt
    obtain ⟨a1, b1⟩ := ih h hp hlt
    refine ⟨fun hx => .reMiss ha (a1 hx), fun hx => ?_⟩
    obtain ⟨fs, ks, stM, oF, stF, c1, c2, c3⟩ := b1 hx
    exact ⟨fs, ks, stM, oF, stF, .reMiss ha c1, c2.from rfl rfl, c3⟩
  | blNone hs _ ih =>
    intro h hp hlt
    obtain ⟨a1, b1⟩ := ih h hp hlt
    refine ⟨fun hx => .blNone hs (a1 hx), fun hx => ?_⟩
    obtain ⟨fs, ks, stM, oF, stF, c1, c2, c3⟩ := b1 hx
    exact ⟨fs, ks, stM, oF, stF, .blNone hs c1, c2, c3⟩
  | blMiss hs ha _ ih =>
    intro h hp hlt
    obtain ⟨a1, b1⟩ := ih h hp hlt
    refine ⟨fun hx => .blMiss hs ha (a1 hx), fun hx => ?_⟩
    obtain ⟨fs, ks, stM, oF, stF, c1, c2, c3⟩ := b1 hx
    exact ⟨fs, ks, stM, oF, stF, .blMiss hs ha c1, c2.from rfl rfl, c3⟩
  | @blZero b sc ns levels low hi me st m o st1 o' st' hs ha hb1 hz1 hz2 hb2 ih1 ih2 =>
    intro h hp hlt
    have hh : (afterBlock env b (target sc levels []).1 st st1 o.me).hit = false := big_hit hb2 h
    have hh : st1.hit = false := hh
    obtain ⟨a1, b1⟩ := ih1 hh trivial hlt
    have a1 := a1 (by omega)
    obtain ⟨g1, g2, g3, g4, g5⟩ := big_facts hqF a1 hh trivial
    obtain ⟨k0, z0, q0⟩ := g5 hu
    have hz3 : (afterBlock env b (target sc levels []).1 st st1 o.me).zip = st.zip := by
      simp only [afterBlock, hu, if_true, hz2, z0, beforeBlock]
      rw [Zip.push_addKids_discard]
      rfl
    obtain ⟨a2, b2⟩ := ih2 h ⟨g3 hh (by show st1.line < F; omega), by show st1.line < F; omega⟩ (by show st1.line < F; omega)
    have hab := afterBlock_to hF b (target sc levels []).1 st o.me (show st1.line < F by omega)
    refine ⟨fun hx => .blZero hs ha a1 hz1 hz2 (by rw [hab]; exact a2 hx), fun hx => ?_⟩
    obtain ⟨fs, ks, stM, oF, stF, c1, c2, c3, c4⟩ := b2 hx
    refine ⟨fs, ks, stM, oF, stF, .blZero hs ha a1 hz1 hz2 (by rw [hab]; exact c1), c2.from hz3 hz2.symm, ?_, c4⟩
    rw [c3]
    show st1.level + _ = _
    rw [big_level hb1]
    rfl
  | @blHit b sc ns levels low hi me st m o st1 hs ha hb1 hz ih1 =>
    intro h hp hlt
    have hh : st1.hit = false := h
    obtain ⟨a1, b1⟩ := ih1 hh trivial hlt
    refine ⟨fun hx => ?_, fun hx => ?_⟩
    · have hx : st1.line < F := hx
      rw [← afterBlock_to hF b (target sc levels []).1 st o.me hx]
      exact .blHit hs ha (a1 hx) hz
    · have hx : F ≤ st1.line := hx
      obtain ⟨fs, ks, stM, oF, stF, c1, c2, c3, me', st2, st3, c4, c5, c6⟩ := b1 hx
      have hne : ¬ st.line = st1.line := by omega
      have hneF : ¬ st.line = stF.line := by have := c2.lineF; omega
      refine ⟨fs ++ [⟨⟨st.line + 1, (target sc levels []).1, (target sc levels []).2, b, m, st.str env⟩, ks⟩], [], stM, _, _,
        .blHit hs ha c1 (fun hx => hneF hx.2), ?_, ?_, ?_⟩
      · obtain ⟨d1, d2, d3, d4, d5, d6, d7, d8, d9, tF, d10, d11⟩ := c2
        have d2 : KidsIn st.line (F - 1) ks := d2
        have hbef : Bef F ks := by
          intro k hk
          have := d2 k hk
          omega
        have hsl : st.line + 1 ≤ F := by omega
        refine ⟨?_, .nil _ _, ?_, d4, d5, d6, d7, d8, ?_, ?_⟩
        · rw [d1]
          simp only [beforeBlock, hu, if_true, Zip.push, Zip.under, Zip.addKids_nil]
          simp only [Zip.addKids, List.nil_append, St.tock]
          rw [List.append_assoc]
          rfl
        · intro f hf
          rcases List.mem_append.1 hf with hf | hf
          · exact d3 f hf
          · simp only [List.mem_singleton] at hf
            subst hf
            exact ⟨hbef, hsl⟩
        · show stF.evs ++ (if stF.line < F then _ else _) = _
          rw [if_neg (by omega), d9]
          simp
        · refine ⟨[.node ⟨st.line + 1, (target sc levels []).1, (target sc levels []).2, b, m, st.str env⟩ F (ks ++ tF)], ?_, Or.inr ⟨_, ?_, rfl⟩⟩
          · show (if env.upd then (if st.line = stF.line then _ else stF.zip.close stF.line) else _) = _
            rw [if_pos hu, if_neg hneF, d10, d7]
            simp only [beforeBlock, hu, if_true]
            rw [Zip.push_addKids_close]
            rfl
          · rcases d11 with ⟨x1, x2⟩ | ⟨t, x1, x2⟩
            · subst x1; subst x2
              exact .one (f := ⟨_, ks⟩) hbef (by intro k hk; simp at hk) (Int.le_refl _) hsl
            · subst x2
              exact .more (f := ⟨_, ks⟩) x1 hbef (by intro k hk; simp at hk) (Int.le_refl _) hsl
      · rw [c3]
        show st.level + 1 + _ = _
        simp only [List.length_append, List.length_cons, List.length_nil]
        omega
      · rw [List.map_append]
        refine c4.snoc (ss := st.schemeStart) c5 ?_
        subst c6
        simp only [afterBlock, afterFrame, if_neg hne, hu, if_true]

end Verif.TextParser
