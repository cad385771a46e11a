import Verif.TextParser.Resume
import Verif.TextParser.Nesting
/-!
# C33: what is open at the end of a parse

Specification: `opened` lists the blocks on a path of the cache, innermost first, as (region, content scheme).
-/
namespace Verif.TextParser
open Verif.VTList (VEntries resolve)

def opened (fs : List Frame) : List Open := fs.map fun f => (f.info.block.region, some f.info.scheme)

/-! ## Proof -/

theorem Passed.shift {F : Int} {fs : List Frame} {r ks k0 : List Tree} (h : Passed F fs r ks) (hb : Bef F k0) : Passed F fs (k0 ++ r) (k0 ++ ks) := by
  have app : ∀ {a : List Tree}, Bef F a → Bef F (k0 ++ a) := by
    intro a ha k hk
    rcases List.mem_append.1 hk with h | h
    · exact hb k h
    · exact ha k h
  cases h with
  | none h1 h2 => rw [← List.append_assoc]; exact .none (app h1) h2
  | some hc h1 h2 => rw [← List.append_assoc]; exact .some hc (app h1) h2

theorem Passed.closed {F : Int} {fs : List Frame} {r ks : List Tree} (h : Passed F fs r ks) {i : Info} {e : Int} (hi : i.sline ≤ F)
    (he : F ≤ e) : Closed F (fs ++ [⟨i, r⟩]) (.node i e ks) := by
  cases h with
  | none h1 h2 => exact .one (f := ⟨i, r⟩) h1 h2 he hi
  | some hc h1 h2 => exact .more (f := ⟨i, r⟩) hc h1 h2 he hi

theorem outer_done {env : Env} {c : Ctx} {me : Match} {st : St} {o : Out} {st' : St} (h : Big env (.outer c me) st o st')
    (hl : ¬ st.line < env.endL) : st' = st := (big_det h (.outEnd hl)).2

def Pending (env : Env) (c : Call) (st st' : St) : Prop :=
  ∃ fs r ks new, st'.zip = st.zip.addKids ks ∧ Passed env.endL fs r ks ∧ st'.evs = st.evs ++ new ∧
    ∀ S, nest S new = some (opened fs ++ (pre env c st ++ S))

/-- after a part that ended before the end of the range -/
theorem Pending.after {env : Env} {c c2 : Call} {st st1 st' : St} (h : Pending env c2 st1 st') {k0 : List Tree} {new0 : List Ev}
    (hz : st1.zip = st.zip.addKids k0) (hb : Bef env.endL k0) (he : st1.evs = st.evs ++ new0)
    (hn : ∀ S, nest S new0 = some (pre env c st ++ S)) (hp : pre env c2 st1 = []) : Pending env c st st' := by
  obtain ⟨fs, r, ks, new, a1, a2, a3, a4⟩ := h
  refine ⟨fs, k0 ++ r, k0 ++ ks, new0 ++ new, by rw [a1, hz, Zip.addKids_addKids], a2.shift hb, by rw [a3, he, List.append_assoc], fun S => ?_⟩
  rw [nest_append, hn, Option.bind_some, a4, hp]
  rfl

theorem open_nest {env : Env} (hq : Quiet env) (hu : env.upd = true) {c : Call} {st : St} {o : Out} {st' : St} (h : Big env c st o st') :
    st'.hit = false → FPre env c st → NPre env c st → st.line < env.endL → env.endL ≤ st'.line → Pending env c st st' := by
  have kb : ∀ {a b : Int} {ks : List Tree}, KidsIn a b ks → b < env.endL → Bef env.endL ks := by
    intro a b ks h hb k hk
    have := h k hk
    omega
  have bnil : Bef env.endL ([] : List Tree) := by intro k hk; simp at hk
  have anil : Aft env.endL ([] : List Tree) := by intro k hk; simp at hk
  induction h with
  | limit => intro h; simp at h
  | @colorize c me st o st1 hl hb ih =>
    intro h _ _ h1 h2
    obtain ⟨fs, r, ks, new, a1, a2, a3, a4⟩ := ih h trivial trivial h1 h2
    exact ⟨fs, r, ks, new, a1, a2, a3, a4⟩
  | @outEnd c me st hl => intro _ _ _ h; exact absurd h hl
  | @outRep c me st st1 o st2 o' st' hl h1 hb1 hr hb2 ih1 ih2 =>
    intro h _ _ hlt hge
    obtain ⟨s1, s2, s3, s4, s5, s6, s7, _⟩ := startLine_facts h1
    obtain ⟨n1, n2, n3, nw, n4, n5⟩ := startLine_nest hlt h1
    have hh : st2.hit = false := big_hit hb2 h
    have hp : FPre env (.cols c (endSearch env c me st1).2 (if c.low then (endSearch env c me st1).2.s else (st1.str env).length)
        (st1.str env).length) st1.tock := ⟨by show st1.cleared = st1.line; omega, by show st1.line < _; omega⟩
    have hnp : NPre env (.cols c (endSearch env c me st1).2 (if c.low then (endSearch env c me st1).2.s else (st1.str env).length)
        (st1.str env).length) st1.tock := ⟨n1, hp.2⟩
    obtain ⟨g1, g2, g3, g4, g5⟩ := big_facts hq hb1 hh hp
    obtain ⟨k0, z0, q0⟩ := g5 hu
    obtain ⟨⟨nw2, T2, m1, m2, m3⟩, m4, m5, m6, _⟩ := run_nest hb1 hnp
    have hf2 : st2.filled = true := m6 n1
    by_cases hl2 : st2.line < env.endL
    · have hT := m2 hl2
      subst hT
      refine (ih2 h trivial trivial hl2 hge).after (k0 := k0) (new0 := nw ++ nw2) ?_ (kb q0 hl2) ?_ ?_ ?_
      · rw [z0]; show st1.zip.addKids _ = _; rw [s6]
      · rw [m1]; show st1.evs ++ _ = _; rw [n4, List.append_assoc]
      · intro S; rw [nest_append, n5, Option.bind_some, m3]; rfl
      · simp [pre, hf2]
    · have := outer_done hb2 hl2
      subst this
      · obtain ⟨fs, r, ks, new, a1, a2, a3, a4⟩ := ih1 hh hp hnp hp.2 (by omega)
        refine ⟨fs, r, ks, nw ++ new, ?_, a2, ?_, fun S => ?_⟩
        · rw [a1]; show st1.zip.addKids _ = _; rw [s6]
        · rw [a3]; show st1.evs ++ _ = _; rw [n4, List.append_assoc]
        · rw [nest_append, n5, Option.bind_some, a4]; rfl
  | @outStop c me st st1 o st2 hl h1 hb1 hr ha ih1 =>
    intro h _ _ hlt hge
    obtain ⟨s1, s2, s3, s4, s5, s6, s7, _⟩ := startLine_facts h1
    have hp : FPre env (.cols c (endSearch env c me st1).2 (if c.low then (endSearch env c me st1).2.s else (st1.str env).length)
        (st1.str env).length) st1.tock := ⟨by show st1.cleared = st1.line; omega, by show st1.line < _; omega⟩
    have f4 : st2.line = st1.tock.line := (big_facts hq hb1 h hp).2.2.2.1 hr
    have e0 : st1.tock.line = st.line := s2
    have hge : env.endL ≤ st2.line := hge
    omega
  | @outNext c me st st1 o st2 o' st' hl h1 hb1 hr ha hb2 ih1 ih2 =>
    intro h _ _ hlt hge
    obtain ⟨s1, s2, s3, s4, s5, s6, s7, _⟩ := startLine_facts h1
    obtain ⟨n1, n2, n3, nw, n4, n5⟩ := startLine_nest hlt h1
    have hh : st2.hit = false := show (nextLine st2).hit = false from big_hit hb2 h
    have hp : FPre env (.cols c (endSearch env c me st1).2 (if c.low then (endSearch env c me st1).2.s else (st1.str env).length)
        (st1.str env).length) st1.tock := ⟨by show st1.cleared = st1.line; omega, by show st1.line < _; omega⟩
    have hnp : NPre env (.cols c (endSearch env c me st1).2 (if c.low then (endSearch env c me st1).2.s else (st1.str env).length)
        (st1.str env).length) st1.tock := ⟨n1, hp.2⟩
    obtain ⟨g1, g2, g3, g4, g5⟩ := big_facts hq hb1 hh hp
    obtain ⟨k0, z0, q0⟩ := g5 hu
    obtain ⟨⟨nw2, T2, m1, m2, m3⟩, m4, m5, m6, _⟩ := run_nest hb1 hnp
    have hf2 : st2.filled = true := m6 n1
    have f4 : st2.line = st1.tock.line := g4 hr
    have e0 : st1.tock.line = st.line := s2
    have hl2 : st2.line < env.endL := by omega
    have hT := m2 hl2
    subst hT
    have z1 : (nextLine st2).zip = st.zip.addKids k0 := by show st2.zip = _; rw [z0]; show st1.zip.addKids _ = _; rw [s6]
    have v1 : (nextLine st2).evs = st.evs ++ (nw ++ nw2) := by show st2.evs = _; rw [m1]; show st1.evs ++ _ = _; rw [n4, List.append_assoc]
    have w1 : ∀ S, nest S (nw ++ nw2) = some (pre env (.outer c me) st ++ S) := by
      intro S; rw [nest_append, n5, Option.bind_some, m3]; rfl
    by_cases hl3 : (nextLine st2).line < env.endL
    · refine (ih2 h trivial trivial hl3 hge).after z1 (kb q0 hl2) v1 w1 ?_
      have : (nextLine st2).filled = true := hf2
      simp [pre, this]
    · have := outer_done hb2 hl3
      subst this
      · refine ⟨[], k0, k0, nw ++ nw2, z1, ?_, v1, fun S => ?_⟩
        · have := Passed.none (kb q0 hl2) anil
          rw [List.append_nil] at this
          exact this
        · rw [w1]; rfl
  | @colEnd c me len plen st hg => intro _ _ _ h1 h2; omega
  | @colBrk c me len plen st hg hb => rw [hq.brk] at hb; simp at hb
  | @colRep c me len plen st o st1 hg hb hb1 hr ih1 =>
    intro h hp hnp h1 h2
    obtain ⟨fs, r, ks, new, a1, a2, a3, a4⟩ := ih1 h hp hnp h1 h2
    exact ⟨fs, r, ks, new, a1, a2, a3, a4⟩
  | @colGo c me len plen st o st1 o' st' hg hb hb1 hr hb2 ih1 ih2 =>
    intro h hp hnp h1 h2
    obtain ⟨e1, e2, e3, e4, e5, e6, e7⟩ := bump_facts o st1
    have hh : st1.hit = false := by rw [← e4]; exact big_hit hb2 h
    obtain ⟨g1, g2, g3, g4, g5⟩ := big_facts hq hb1 hh hp
    obtain ⟨k0, z0, q0⟩ := g5 hu
    obtain ⟨⟨nw2, T2, m1, m2, m3⟩, m4, m5, m6, _⟩ := run_nest hb1 hnp
    have hln : st1.line = st.line := not_reparse_line hr g4
    have hl2 : st1.line < env.endL := by omega
    have hT := m2 hl2
    subst hT
    refine (ih2 h ⟨by rw [e1, e2]; exact g3 hh hl2, by omega⟩ ⟨by rw [e6]; exact m6 hnp.1, by omega⟩ (by omega) h2).after
      (k0 := k0) (new0 := nw2) ?_ (kb q0 hl2) ?_ ?_ rfl
    · rw [e3, z0]; rfl
    · rw [e7, m1]; rfl
    · intro S; rw [m3]; rfl
  | @nil levels low hi me st => intro _ _ _ h1 h2; omega
  | inhNone _ ih => exact ih
  | inhHit _ _ ih =>
    intro h hp hnp h1 h2
    obtain ⟨fs, r, ks, new, a1, a2, a3, a4⟩ := ih h hp hnp h1 h2
    exact ⟨fs, r, ks, new, a1, a2, a3, a4⟩
  | @inhMiss sc virt ns levels low hi me st o st1 o' st' hb1 hr hb2 ih1 ih2 =>
    intro h hp hnp h1 h2
    have hh : st1.hit = false := big_hit hb2 h
    obtain ⟨g1, g2, g3, g4, g5⟩ := big_facts hq hb1 hh hp
    obtain ⟨k0, z0, q0⟩ := g5 hu
    obtain ⟨⟨nw2, T2, m1, m2, m3⟩, m4, m5, m6, _⟩ := run_nest hb1 hnp
    have hln : st1.line = st.line := g4 (by rw [hr]; simp)
    have hl2 : st1.line < env.endL := by omega
    have hT := m2 hl2
    subst hT
    exact (ih2 h ⟨g3 hh hl2, hl2⟩ ⟨m6 hnp.1, hl2⟩ hl2 h2).after z0 (kb q0 hl2) m1 (fun S => by rw [m3]; rfl) rfl
  | @kwHit id' ns levels low hi me st n r hk =>
    intro _ _ _ h1 h2
    have h2 : env.endL ≤ st.line := h2
    omega
  | kwMiss _ _ ih => exact ih
  | @reHit start lowP regs ns levels low hi me st m ha he =>
    intro _ _ _ h1 h2
    have h2 : env.endL ≤ st.line := h2
    omega
  | @reZero start lowP regs ns levels low hi me st m o st' ha he hb ih =>
    intro h hp hnp h1 h2
    refine (ih h hp hnp h1 h2).after (k0 := []) (new0 := regEvs st.line m regs) (Zip.addKids_nil _).symm bnil rfl ?_ rfl
    intro S
    rw [nest_regEvs]
    rfl
  | reMiss _ _ ih => exact ih
  | blNone _ _ ih => exact ih
  | blMiss _ _ _ ih => exact ih
  | @blZero b sc ns levels low hi me st m o st1 o' st' hs ha hb1 hz1 hz2 hb2 ih1 ih2 =>
    intro h hp hnp h1 h2
    have hh : (afterBlock env b (target sc levels []).1 st st1 o.me).hit = false := big_hit hb2 h
    have hh : st1.hit = false := hh
    obtain ⟨g1, g2, g3, g4, g5⟩ := big_facts hq hb1 hh trivial
    obtain ⟨k0, z0, q0⟩ := g5 hu
    obtain ⟨⟨nw2, T2, m1, m2, m3⟩, m4, m5, m6, _⟩ := run_nest hb1 (fun _ => hnp.1)
    have hl2 : st1.line < env.endL := by omega
    have hT := m2 hl2
    subst hT
    have hz3 : (afterBlock env b (target sc levels []).1 st st1 o.me).zip = st.zip := by
      simp only [afterBlock, hu, if_true, hz2, z0, beforeBlock]
      rw [Zip.push_addKids_discard]
      rfl
    have hpr : pre env (.colorize (blockCtx env b sc levels st m) me) (beforeBlock env b (target sc levels []).1 (target sc levels []).2 m st.tock) = [] := by
      have := hnp.1
      simp [pre, beforeBlock, St.tock, this]
    refine (ih2 h ⟨g3 hh hl2, hl2⟩ ⟨m6 hnp.1, hl2⟩ hl2 h2).after (k0 := [])
      (new0 := enterEvs st.line m b (target sc levels []).1 ++ nw2 ++ leaveEvs st1.line o.me b (target sc levels []).1)
      (by rw [hz3, Zip.addKids_nil]) bnil ?_ ?_ rfl
    · show st1.evs ++ _ = _
      rw [if_pos hl2, m1]
      show st.evs ++ _ ++ _ ++ _ = _
      simp [St.tock]
    · intro S
      rw [nest_append, nest_append, nest_enter, Option.bind_some, m3, hpr]
      simp only [List.nil_append, Option.bind_some]
      rw [nest_leave _ _ _ _ _ _ (by simp [closes])]
      rfl
  | @blHit b sc ns levels low hi me st m o st1 hs ha hb1 hz ih1 =>
    intro h hp hnp h1 h2
    have hh : st1.hit = false := h
    have h2 : env.endL ≤ st1.line := h2
    have hpr : pre env (.colorize (blockCtx env b sc levels st m) me) (beforeBlock env b (target sc levels []).1 (target sc levels []).2 m st.tock) = [] := by
      have := hnp.1
      simp [pre, beforeBlock, St.tock, this]
    obtain ⟨fs, r, ks, new, a1, a2, a3, a4⟩ := ih1 hh trivial (fun _ => hnp.1) h1 h2
    have hne : ¬ st.line = st1.line := by omega
    refine ⟨fs ++ [⟨⟨st.line + 1, (target sc levels []).1, (target sc levels []).2, b, m, st.str env⟩, r⟩], [],
      [.node ⟨st.line + 1, (target sc levels []).1, (target sc levels []).2, b, m, st.str env⟩ st1.line ks],
      enterEvs st.line m b (target sc levels []).1 ++ new, ?_, ?_, ?_, fun S => ?_⟩
    · show (if env.upd then (if st.line = st1.line then _ else st1.zip.close st1.line) else _) = _
      rw [if_pos hu, if_neg hne, a1]
      simp only [beforeBlock, hu, if_true]
      rw [Zip.push_addKids_close]
      rfl
    · exact .some (r := []) (l := []) (a2.closed (by show st.line + 1 ≤ _; omega) h2) bnil anil
    · show st1.evs ++ _ = _
      rw [if_neg (by omega), a3]
      show st.evs ++ _ ++ _ ++ _ = _
      simp [St.tock]
    · rw [nest_append, nest_enter, Option.bind_some, a4, hpr]
      simp [opened, pre]

/-- C33, second half: after a full parse from an empty cache, the schemes entered and not left are exactly the blocks that the cache
records as covering the next line, with their regions and schemes, in the same order. -/
theorem C33_open_at_end_is_cached (env : Env) (hb : ∀ t, env.brk t = false) (fuel : Nat) (p : PState) (hc : p.cache = []) (num : Int)
    (hn : 0 ≤ num) (r : Result) (h : parse env fuel p 0 num .update = .ok r) (hh : r.hit = false) :
    nest [] r.evs = some (opened (locateRoot num r.after.cache).frames) := by
  obtain ⟨z, me, st, hz, hcb, hr⟩ := parse_cb h
  have hz : z = ⟨[], []⟩ := by
    simp only [entry, hc] at hz
    rw [if_pos (by omega)] at hz
    cases hz
    unfold locateRoot
    rw [locateKids.eq_def]
  subst hz
  cases hcb with
  | @nil _ _ o st1 hbg =>
    cases hbg with
    | limit hl => exact absurd hl (by simp)
    | @colorize _ _ _ _ st2 hl hbg =>
      subst hr
      have hh : st2.hit = false := hh
      by_cases h0 : num = 0
      · subst h0
        have := outer_done hbg (by show ¬ (0 : Int) < 0 + 0; omega)
        subst this
        · show some ([] : List Open) = some (opened (locateRoot 0 []).frames)
          unfold locateRoot
          rw [locateKids.eq_def]
          rfl
      · have hend := outer_none hbg _ _ rfl rfl
        obtain ⟨fs, r, ks, new, a1, a2, a3, a4⟩ := open_nest (env := env.call 0 num .update) ⟨hb⟩ rfl hbg hh trivial trivial
          (by show (0 : Int) < 0 + num; omega) hend
        have e0 : (env.call 0 num .update).endL = num := by show 0 + num = num; omega
        rw [e0] at a2
        have a1 : st2.zip.root = ks := by rw [a1]; simp [startState, Zip.addKids]
        show nest [] (st2.evs ++ [.fin st2.endLine]) = some (opened (locateRoot num st2.zip.root).frames)
        rw [a1, a2.locateRoot, a3]
        show nest [] ([.start 0] ++ new ++ [.fin st2.endLine]) = _
        rw [nest_append, nest_append]
        have a4 := a4 []
        simp only [pre, startState, opens, List.map_nil, ite_self, List.append_nil] at a4
        simp only [nest, nestStep, Option.bind_some, a4]

end Verif.TextParser
