import Verif.TextParser.Cut
import Verif.TextParser.Lines
/-!
# C34: a resumed parse equals the full parse

Specification: `Parses env p from num mode r` - the call of `parse` ends with `r` (for every large enough fuel of the model).
`onOrAfter F`, `before F` select the events of the lines from `F` on / before `F`.
-/
namespace Verif.TextParser
open Verif.VTList (VEntries resolve)

def Parses (env : Env) (p : PState) (from' num : Int) (mode : Mode) (r : Result) : Prop :=
  ∃ N, ∀ fuel, N ≤ fuel → parse env fuel p from' num mode = .ok r

/-- expressions and keyword lists are functions of text, position, end and back trace (they use neither `~`, the scheme start, nor
anything that changes with time), and nobody calls `breakParse` -/
structure Pure (env : Env) : Prop where
  rx  : ∀ t t' q ss, env.rx t' { q with schemeStart := ss } = env.rx t q
  kw  : ∀ t t', env.kw t' = env.kw t
  brk : ∀ t, env.brk t = false

/-- the line of an event -/
def Ev.line? : Ev → Option Int
  | .start _ | .fin _ => none
  | .clear l | .region l _ _ _ | .enter l _ _ _ _ | .leave l _ _ _ _ | .pseudo l _ _ => some l

def onOrAfter (F : Int) (e : Ev) : Bool := match e.line? with | some l => decide (F ≤ l) | none => false
def before (F : Int) (e : Ev) : Bool := match e.line? with | some l => decide (l < F) | none => false

/-! ## Proof -/

/-- `climb` as rules -/
inductive CB (env : Env) (base : Nat) : List Frame → Match → St → Match → St → Prop
  | nil {me : Match} {st : St} {o : Out} {st1 : St} : Big env (.colorize ⟨none, false, base, []⟩ me) { st with level := 0 } o st1 →
      CB env base [] me st o.me { st1 with gx := o.me.e }
  | cons {f : Frame} {fs : List Frame} {me : Match} {st : St} {o : Out} {st1 : St} {me' : Match} {st' : St} :
      Big env (.colorize (ctxOf f.info) me) { st with level := 0 } o st1 →
      CB env base fs o.me (afterFrame env f.info st1 o.me) me' st' → CB env base (f :: fs) me st me' st'

theorem climb_cb {env : Env} {fuel base : Nat} (fs : List Frame) : ∀ (me : Match) (st : St) (me' : Match) (st' : St),
    climb env fuel base fs me st = .ok (me', st') → CB env base fs me st me' st' := by
  induction fs with
  | nil =>
    intro me st me' st' h
    obtain ⟨⟨o, st1⟩, h1, h2⟩ := andThen_ok h
    cases h2
    exact .nil (run_big _ _ _ _ _ _ h1)
  | cons f fs ih =>
    intro me st me' st' h
    obtain ⟨⟨o, st1⟩, h1, h2⟩ := andThen_ok h
    exact .cons (run_big _ _ _ _ _ _ h1) (ih _ _ _ _ h2)

theorem cb_climb {env : Env} {base : Nat} {fs : List Frame} {me : Match} {st : St} {me' : Match} {st' : St}
    (h : CB env base fs me st me' st') : ∃ N, ∀ fuel, N ≤ fuel → climb env fuel base fs me st = .ok (me', st') := by
  induction h with
  | nil h1 =>
    obtain ⟨N, h1⟩ := big_run h1
    refine ⟨N, fun n hn => ?_⟩
    rw [climb, andThen_of (h1 n hn)]
  | cons h1 _ ih =>
    obtain ⟨N, h1⟩ := big_run h1
    obtain ⟨M, ih⟩ := ih
    refine ⟨max N M, fun n hn => ?_⟩
    rw [climb, andThen_of (h1 n (by omega))]
    exact ih n (by omega)

/-- the parameters of a call of `parse` in place -/
def Env.call (env : Env) (from' num : Int) (mode : Mode) : Env := { env with endL := from' + num, upd := decide (mode = .update) }

theorem parses_of_cb {env : Env} {p : PState} {from' num : Int} {mode : Mode} {z : Zip} {me : Match} {st : St}
    (hz : entry p from' mode = some z) (h : CB (env.call from' num mode) p.base z.frames p.me (startState p from' z) me st) :
    Parses env p from' num mode
      { after := { p with cache := if mode = .update then st.zip.root else p.cache, endLine := st.endLine, me := me }
        evs := st.evs ++ [.fin st.endLine], ret := st.endLine, hit := st.hit } := by
  obtain ⟨N, h⟩ := cb_climb h
  refine ⟨N, fun n hn => ?_⟩
  unfold parse
  rw [hz]
  simp only
  have := h n hn
  unfold Env.call at this
  rw [andThen_of this]

theorem parse_cb {env : Env} {fuel : Nat} {p : PState} {from' num : Int} {mode : Mode} {r : Result}
    (h : parse env fuel p from' num mode = .ok r) :
    ∃ z me st, entry p from' mode = some z ∧ CB (env.call from' num mode) p.base z.frames p.me (startState p from' z) me st ∧
      r = { after := { p with cache := if mode = .update then st.zip.root else p.cache, endLine := st.endLine, me := me }
            evs := st.evs ++ [.fin st.endLine], ret := st.endLine, hit := st.hit } := by
  unfold parse at h
  split at h
  · simp at h
  · rename_i z hz
    obtain ⟨⟨me, st⟩, h1, h2⟩ := andThen_ok h
    cases h2
    exact ⟨z, me, st, hz, climb_cb _ _ _ _ _ h1, rfl⟩

/-- one fuel that is enough makes all larger ones enough, with the same result -/
theorem parses_of_parse {env : Env} {fuel : Nat} {p : PState} {from' num : Int} {mode : Mode} {r : Result}
    (h : parse env fuel p from' num mode = .ok r) : Parses env p from' num mode r := by
  obtain ⟨z, me, st, h1, h2, h3⟩ := parse_cb h
  subst h3
  exact parses_of_cb h1 h2

theorem Parses.parse {env : Env} {p : PState} {from' num : Int} {mode : Mode} {r : Result} (h : Parses env p from' num mode r) :
    ∃ fuel, TextParser.parse env fuel p from' num mode = .ok r := by
  obtain ⟨N, h⟩ := h
  exact ⟨N, h N (Nat.le_refl _)⟩

theorem Parses.det {env : Env} {p : PState} {from' num : Int} {mode : Mode} {r1 r2 : Result} (h1 : Parses env p from' num mode r1)
    (h2 : Parses env p from' num mode r2) : r1 = r2 := by
  obtain ⟨N, h1⟩ := h1
  obtain ⟨M, h2⟩ := h2
  have a := h1 (max N M) (by omega)
  rw [h2 (max N M) (by omega)] at a
  cases a; rfl

theorem chain_hit {env : Env} {is : List Info} {st st1 : St} (h : Chain env is st st1) : st1.hit = false → st.hit = false := by
  induction h with
  | nil => exact id
  | @cons i is st me o st1 ss st' hb hc ih =>
    intro hh
    have hh : st1.hit = false := ih hh
    exact big_hit hb hh

/-- children of an entry since line `F` was passed: later ones, or the rest of the path first -/
def MidKids (F : Int) (fs0 : List Frame) (mid : List Tree) : Prop :=
  (fs0 = [] ∧ Aft F mid) ∨ ∃ t l, Closed F fs0 t ∧ Aft F l ∧ mid = t :: l

theorem MidKids.more {F : Int} {fs0 : List Frame} {mid l : List Tree} (h : MidKids F fs0 mid) (hl : Aft F l) : MidKids F fs0 (mid ++ l) := by
  have app : ∀ {a b : List Tree}, Aft F a → Aft F b → Aft F (a ++ b) := by
    intro a b ha hb k hk
    rcases List.mem_append.1 hk with h | h
    · exact ha k h
    · exact hb k h
  rcases h with ⟨h1, h2⟩ | ⟨t, k, h1, h2, h3⟩
  · exact Or.inl ⟨h1, app h2 hl⟩
  · exact Or.inr ⟨t, k ++ l, h1, app h2 hl, by rw [h3]; rfl⟩

theorem MidKids.closed {F : Int} {fs0 : List Frame} {mid : List Tree} (h : MidKids F fs0 mid) {f : Frame} {e : Int} (h1 : Bef F f.kids)
    (h2 : f.info.sline ≤ F) (h3 : F ≤ e) : Closed F (fs0 ++ [f]) (.node f.info e (f.kids ++ mid)) := by
  rcases h with ⟨rfl, ha⟩ | ⟨t, l, hc, ha, rfl⟩
  · exact .one h1 ha h3 h2
  · exact .more hc h1 ha h3 h2

theorem chain_zip {env : Env} (hq : Quiet env) (hu : env.upd = true) {F : Int} {is : List Info} {st st1 : St} (h : Chain env is st st1) :
    ∀ (fs0 : List Frame) (f : Frame) (gs : List Frame) (mid r : List Tree), is = (f :: gs).map (·.info) →
    st.zip = ⟨⟨f.info, f.kids ++ mid⟩ :: gs, r⟩ → MidKids F fs0 mid → (∀ g ∈ f :: gs, Bef F g.kids ∧ g.info.sline ≤ F) → F ≤ st.line →
    st1.hit = false → ∃ t, st1.zip = ⟨[], r ++ [t]⟩ ∧ Closed F (fs0 ++ f :: gs) t ∧ F ≤ st1.line := by
  induction h with
  | nil => intro fs0 f gs mid r h; simp at h
  | @cons i is st me o st1 ss st' hb hc ih =>
    intro fs0 f gs mid r hi hz hm hok hl hh
    simp only [List.map_cons, List.cons.injEq] at hi
    obtain ⟨rfl, rfl⟩ := hi
    have hh1 := chain_hit hc hh
    have hh1 : st1.hit = false := hh1
    obtain ⟨g1, g2, g3, g4, g5⟩ := big_facts hq hb hh1 trivial
    obtain ⟨ks, z1, q1⟩ := g5 hu
    have haft : Aft F ks := by intro k hk; have := q1 k hk; omega
    obtain ⟨f1, f2⟩ := hok f (by simp)
    have hcl := (hm.more haft).closed f1 f2 (show F ≤ st1.line by omega)
    have hz2 : (afterFrame env f.info { st1 with level := st1.level - 1 } o.me).zip =
        Zip.addKids ⟨gs, r⟩ [.node f.info st1.line (f.kids ++ (mid ++ ks))] := by
      show (if env.upd then st1.zip.close st1.line else _) = _
      rw [if_pos hu, z1, hz, ← Zip.addKid_eq]
      simp [Zip.addKids, Zip.close]
    cases gs with
    | nil =>
      cases hc with
      | nil =>
        refine ⟨_, ?_, hcl, by show F ≤ st1.line; omega⟩
        show (afterFrame env f.info { st1 with level := st1.level - 1 } o.me).zip = _
        rw [hz2]; rfl
    | cons f2 gs =>
      obtain ⟨t, a1, a2, a3⟩ := ih (fs0 ++ [f]) f2 gs [.node f.info st1.line (f.kids ++ (mid ++ ks))] r rfl
        (by show (afterFrame env f.info { st1 with level := st1.level - 1 } o.me).zip = _; rw [hz2]; rfl)
        (Or.inr ⟨_, [], hcl, by intro k hk; simp at hk, rfl⟩) (fun g hg => hok g (by simp only [List.mem_cons] at hg ⊢; exact Or.inr hg))
        (by show F ≤ st1.line; omega) hh
      exact ⟨t, a1, by simpa using a2, a3⟩

def rootCtx (base : Nat) : Ctx := ⟨none, false, base, []⟩

/-- the cut at the root -/
theorem cut_root {env : Env} (hq : Quiet env) (hu : env.upd = true) {F : Int} (hF : F ≤ env.endL) {base : Nat} {me : Match} {st : St}
    {o : Out} {st' : St} (h : Big env (.outer (rootCtx base) me) st o st') (hh : st'.hit = false) (hl : st.line ≤ F)
    (hc : st.cleared < st.line) (hgx : st.gx = 0) (hz : st.zip = ⟨[], []⟩) (hlev : st.level = 1) :
    ∃ fs r stM oF stF me' st1, Big (env.to F) (.outer (rootCtx base) me) st oF stF ∧ stF.hit = false ∧ stF.evs = stM.evs ∧
      Passed F fs r stF.zip.root ∧ Passed F fs r st'.zip.root ∧ stM.zip = ⟨fs, r⟩ ∧ stM.line = F ∧ stM.gx = 0 ∧ stM.cleared ≠ F ∧
      stM.level = fs.length + 1 ∧ Chain env (fs.map (·.info)) stM st1 ∧ Big env (.outer (rootCtx base) me') st1 o st' := by
  have bnil : Bef F ([] : List Tree) := by intro k hk; simp at hk
  have anil : Aft F ([] : List Tree) := by intro k hk; simp at hk
  by_cases hlt : st.line < F
  · obtain ⟨fs, ks, stM, oF, stF, c1, c2, c3, me', st1, c4, c5⟩ := (cut hq hu hF h hh trivial hlt).2 (by
      have := outer_none h _ _ rfl rfl
      omega)
    obtain ⟨d1, d2, d3, d4, d5, d6, d7, d8, d9, tF, d10, d11⟩ := c2
    rw [hz] at d1 d10
    have hkb : Bef F ks := by intro k hk; have := d2 k hk; omega
    have e1 : stM.zip = ⟨fs, ks⟩ := by rw [d1]; simp [Zip.addKids, Zip.under]
    have hh1 : st1.hit = false := big_hit c5 hh
    refine ⟨fs, ks, stM, oF, stF, me', st1, c1, d8, d9, ?_, ?_, e1, d4, d5, by omega, by rw [c3, hlev]; omega, c4, c5⟩
    · rw [d10]
      simp only [Zip.addKids, List.nil_append]
      rcases d11 with ⟨x1, x2⟩ | ⟨t, x1, x2⟩
      · subst x1; subst x2
        exact .none hkb anil
      · subst x2
        exact .some x1 hkb anil
    · obtain ⟨g1, g2, g3, g4, g5⟩ := big_facts hq c5 hh trivial
      obtain ⟨k2, z2, q2⟩ := g5 hu
      cases fs with
      | nil =>
        cases c4 with
        | nil =>
          rw [z2, e1]
          exact .none hkb (by intro k hk; have := q2 k hk; omega)
      | cons f gs =>
        obtain ⟨t, a1, a2, a3⟩ := chain_zip hq hu c4 [] f gs [] ks rfl (by rw [e1]; simp) (Or.inl ⟨rfl, anil⟩) d3 (by omega) hh1
        rw [z2, a1]
        simp only [Zip.addKids, List.append_assoc, List.cons_append, List.nil_append]
        exact .some a2 hkb (by intro k hk; have := q2 k hk; omega)
  · have he : st.line = F := by omega
    obtain ⟨g1, g2, g3, g4, g5⟩ := big_facts hq h hh trivial
    obtain ⟨k2, z2, q2⟩ := g5 hu
    refine ⟨[], [], st, _, st, me, st, .outEnd (by show ¬ st.line < F; omega), big_hit h hh, rfl, ?_, ?_, hz, he, hgx, by omega, hlev, .nil, h⟩
    · rw [hz]; exact .none bnil anil
    · rw [z2, hz]
      exact .none bnil (by intro k hk; have := q2 k hk; omega)

theorem afterFrame_sim {env1 env2 : Env} {P1 P2 : List Ev} (i : Info) {st t : St} {me me' : Match} {ss : Int} (H : EnvSim env1 env2)
    (h : Sim env1 env2 P1 P2 st t) (hm : st.line < env1.endL → me' = me) :
    Sim env1 env2 P1 P2 { afterFrame env1 i st me with schemeStart := ss } (afterFrame env2 i t me') := by
  refine ⟨h.line, fun hlt => ?_, h.cleared, h.level, h.hit, ?_, ?_⟩
  · show me'.e = me.e
    rw [hm hlt]
  · intro hu
    show (if env2.upd then t.zip.close t.line else _) = (if env1.upd then st.zip.close st.line else _)
    rw [if_pos hu, if_pos (H.upd hu), h.zip hu, h.line]
  · show ∃ n1 n2, st.evs ++ (if st.line < env1.endL then leaveEvs st.line me i.block i.scheme else []) = _ ∧
      t.evs ++ (if t.line < env2.endL then leaveEvs t.line me' i.block i.scheme else []) = _ ∧ _
    rw [h.line, H.endL]
    by_cases hlt : st.line < env1.endL
    · rw [if_pos hlt, if_pos hlt, hm hlt]
      exact evs_app h.evs _ _ rfl
    · rw [if_neg hlt, if_neg hlt]
      exact evs_app h.evs _ _ rfl

theorem chain_sim {env1 env2 : Env} {P1 P2 : List Ev} (H : EnvSim env1 env2) {base : Nat} {is : List Info} {st st1 : St}
    (h : Chain env1 is st st1) {me' : Match} {o : Out} {st' : St} (hb : Big env1 (.outer (rootCtx base) me') st1 o st')
    (hh : st'.hit = false) : ∀ (fs : List Frame) (me : Match) (t : St), fs.map (·.info) = is → is.length + 1 ≤ st.level →
    Sim env1 env2 P1 P2 st { t with level := 0 } →
    ∃ me3 t', CB env2 base fs me t me3 t' ∧ Sim env1 env2 P1 P2 { st' with gx := t'.gx } t' := by
  induction h with
  | @nil st =>
    intro fs me t hfs hlev s
    simp only [List.map_eq_nil_iff] at hfs
    subst hfs
    obtain ⟨o2, t', b1, b2, b3⟩ := sim H hb hh trivial (.outer (rootCtx base) me) { t with level := 1 } ⟨me, rfl⟩
      ⟨s.line, s.gx, s.cleared, by show 1 ≤ st.level; have : ([] : List Info).length + 1 ≤ st.level := hlev; simpa using this, s.hit, s.zip, s.evs⟩
    have hcol : Big env2 (.colorize (rootCtx base) me) { t with level := 0 } o2 { t' with level := t'.level - 1 } :=
      .colorize (by show ¬ 0 > env2.limit; omega) b1
    refine ⟨_, _, .nil hcol, ⟨b2.line, fun _ => rfl, b2.cleared, ?_, b2.hit, b2.zip, b2.evs⟩⟩
    show t'.level - 1 ≤ st'.level
    have := b2.level
    omega
  | @cons i is st me1 o1 st1 ss st'' hb1 hc ih =>
    intro fs me t hfs hlev s
    cases fs with
    | nil => simp at hfs
    | cons f gs =>
      simp only [List.map_cons, List.cons.injEq] at hfs
      obtain ⟨rfl, rfl⟩ := hfs
      have hh1 := chain_hit hc (big_hit hb hh)
      have hh1 : st1.hit = false := hh1
      have hlev' : (gs.map (·.info)).length + 2 ≤ st.level := by simp only [List.length_cons] at hlev; omega
      obtain ⟨o2, t1, b1, b2, b3, b4, b5⟩ := sim H hb1 hh1 trivial (.outer (ctxOf f.info) me) { t with level := 1 } ⟨me, rfl⟩
        ⟨s.line, s.gx, s.cleared, by show 1 ≤ st.level; omega, s.hit, s.zip, s.evs⟩
      have hcol : Big env2 (.colorize (ctxOf f.info) me) { t with level := 0 } o2 { t1 with level := t1.level - 1 } :=
        .colorize (by show ¬ 0 > env2.limit; omega) b1
      have b6 : Sim env1 env2 P1 P2 { st1 with level := st1.level - 1 } { t1 with level := t1.level - 1 } :=
        ⟨b2.line, b2.gx, b2.cleared, by show t1.level - 1 ≤ st1.level - 1; have := b2.level; omega, b2.hit, b2.zip, b2.evs⟩
      have b7 := afterFrame_sim (ss := ss) f.info H b6 b3
      obtain ⟨me3, t', d1, d2⟩ := ih hb gs o2.me (afterFrame env2 f.info { t1 with level := t1.level - 1 } o2.me) rfl
        (by show _ ≤ st1.level - 1; rw [big_level hb1]; omega) ⟨b7.line, b7.gx, b7.cleared, Nat.zero_le _, b7.hit, b7.zip, b7.evs⟩
      exact ⟨me3, t', .cons hcol d1, d2⟩

theorem Lines.mem {from' : Int} {n : Nat} {evs : List Ev} (h : Lines from' n evs) : ∀ e ∈ evs, ∃ l, e.line? = some l ∧ from' ≤ l ∧ l < from' + n := by
  induction h with
  | nil => intro e he; simp at he
  | @next n evs b _ hb ih =>
    intro e he
    rcases List.mem_append.1 he with he | he
    · obtain ⟨l, h1, h2, h3⟩ := ih e he
      exact ⟨l, h1, h2, by omega⟩
    · rcases List.mem_cons.1 he with he | he
      · subst he; exact ⟨_, rfl, by omega, by omega⟩
      · have := hb e he
        refine ⟨from' + n, ?_, by omega, by omega⟩
        cases e <;> simp_all [OnLine, Ev.line?]

theorem call_to (env : Env) (E F : Int) (m : Mode) : (env.call 0 E m).to F = env.call 0 F m := by
  simp [Env.call, Env.to]

theorem Pure.quiet {env : Env} (h : Pure env) (a b : Int) (m : Mode) : Quiet (env.call a b m) := ⟨h.brk⟩

theorem Pure.envSim {env : Env} (h : Pure env) {a b c d : Int} {m : Mode} (he : a + b = c + d) :
    EnvSim (env.call a b .update) (env.call c d m) :=
  ⟨rfl, h.rx, h.kw, h.brk, h.brk, fun _ _ => rfl, rfl, rfl, he.symm, fun _ => rfl⟩

theorem resume_core {env : Env} (hp : Pure env) {p0 : PState} (h0 : p0.cache = []) {E F : Int} (hF : 0 ≤ F) (hFE : F ≤ E) {r : Result}
    (h : Parses env p0 0 E .update r) (hh : r.hit = false) :
    ∃ fs c rF A new, Parses env p0 0 F .update rF ∧ rF.hit = false ∧ locateRoot F rF.after.cache = ⟨fs, c⟩ ∧
      locateRoot F r.after.cache = ⟨fs, c⟩ ∧ r.evs = A ++ new ++ [.fin r.ret] ∧ rF.evs = A ++ [.fin rF.ret] ∧
      ∀ (p : PState) (mode : Mode), mode ≠ .off → F ≤ 0x7FFFFFF → p.base = p0.base → locateRoot F p.cache = ⟨fs, c⟩ →
        ∃ r2 new2, Parses env p F (E - F) mode r2 ∧ r2.hit = false ∧ r2.evs = .start F :: new2 ++ [.fin r2.ret] ∧
          new2.filter notPseudo = new.filter notPseudo ∧ (mode = .update → r2.after.cache = r.after.cache) := by
  obtain ⟨fuel, h⟩ := h.parse
  obtain ⟨z, me, st, hz, hcb, hr⟩ := parse_cb h
  have hz : z = ⟨[], []⟩ := by
    simp only [entry, h0] at hz
    rw [if_pos (by omega)] at hz
    cases hz
    unfold locateRoot
    rw [locateKids.eq_def]
  subst hz
  cases hcb with
  | @nil _ _ o st1 hb =>
    cases hb with
    | limit hl => exact absurd hl (by simp)
    | @colorize _ _ _ _ st2 hl hb =>
      subst hr
      have hh : st2.hit = false := hh
      obtain ⟨fs, c, stM, oF, stF, me', st3, c1, c2, c3, c4, c5, c6, c7, c8, c9, c10, c11, c12⟩ :=
        cut_root (F := F) (base := p0.base) (hp.quiet 0 E .update) rfl (by show F ≤ 0 + E; omega) hb hh hF (by show (-1 : Int) < 0; omega) rfl rfl rfl
      rw [call_to] at c1
      have d1 : Big (env.call 0 F .update) (.colorize ⟨none, false, p0.base, []⟩ p0.me) { startState p0 0 ⟨[], []⟩ with level := 0 } oF
        { stF with level := stF.level - 1 } := .colorize (by show ¬ 0 > _; omega) c1
      have hz0 : entry p0 0 .update = some ⟨[], []⟩ := by
        simp only [entry, h0]
        rw [if_pos (by omega)]
        unfold locateRoot
        rw [locateKids.eq_def]
      have d2 := parses_of_cb hz0 (CB.nil d1)
      have hstM : stM.evs = stM.evs ++ [] := by simp
      -- what the full run does after the cut
      have hs0 : ∀ (t : St), t.line = F → t.gx = 0 → t.cleared ≠ F → t.hit = false → ∀ (m : Mode), (m = .update → t.zip = stM.zip) →
          Sim (env.call 0 E .update) (env.call F (E - F) m) stM.evs t.evs stM { t with level := 0 } := by
        intro t t1 t2 t3 t4 m t5
        refine ⟨by rw [c7]; exact t1, fun _ => by rw [c8]; exact t2, Or.inr ⟨by rw [c7]; exact c9, by show t.cleared ≠ t.line; rw [t1]; exact t3⟩,
          Nat.zero_le _, t4, ?_, [], [], by simp, by simp, rfl⟩
        intro hm
        have hm : decide (m = .update) = true := hm
        exact t5 (by simpa using hm)
      have hsim0 := chain_sim (hp.envSim (c := F) (d := E - F) (m := .update) (by omega)) c11 c12 hh fs p0.me
        (startState p0 F ⟨fs, c⟩) rfl (by rw [c10]; simp)
        (hs0 (startState p0 F ⟨fs, c⟩) rfl rfl (by show (-1 : Int) ≠ F; omega) rfl .update (fun _ => c6.symm))
      obtain ⟨_, t0, _, s0⟩ := hsim0
      obtain ⟨new, _, hn1, _, _⟩ := s0.evs
      have hn1 : st2.evs = stM.evs ++ new := hn1
      refine ⟨fs, c, _, stM.evs, new, d2, c2, ?_, ?_, ?_, ?_, ?_⟩
      · exact c4.locateRoot
      · exact c5.locateRoot
      · show st2.evs ++ _ = _
        rw [hn1]
      · show stF.evs ++ _ = _
        rw [c3]
      · intro p mode hm hmax hbase hloc
        have hze : entry p F mode = some ⟨fs, c⟩ := by
          cases mode with
          | off => exact absurd rfl hm
          | read => simp only [entry]; rw [if_pos ⟨hF, hmax⟩, hloc]
          | update => simp only [entry]; rw [if_pos ⟨hF, hmax⟩, hloc]
        obtain ⟨me3, t', e1, e2⟩ := chain_sim (hp.envSim (c := F) (d := E - F) (m := mode) (by omega)) c11 c12 hh fs p.me
          (startState p F ⟨fs, c⟩) rfl (by rw [c10]; simp)
          (hs0 (startState p F ⟨fs, c⟩) rfl rfl (by show (-1 : Int) ≠ F; omega) rfl mode (fun _ => c6.symm))
        rw [← hbase] at e1
        obtain ⟨n1, n2, x1, x2, x3⟩ := e2.evs
        have x1 : st2.evs = stM.evs ++ n1 := x1
        rw [hn1] at x1
        have x1 := List.append_cancel_left x1
        subst x1
        refine ⟨_, n2, parses_of_cb hze e1, e2.hit, ?_, x3, ?_⟩
        · show t'.evs ++ _ = _
          rw [x2]; rfl
        · intro hmu
          subst hmu
          show t'.zip.root = st2.zip.root
          rw [e2.zip rfl]

theorem filter_lines_out {A : List Ev} {F : Int} {from' : Int} {n : Nat} (h : Lines from' n A) (hb : from' + n ≤ F) :
    A.filter (onOrAfter F) = [] ∧ A.filter (before F) = A := by
  constructor
  · rw [List.filter_eq_nil_iff]
    intro e he
    obtain ⟨l, h1, h2, h3⟩ := h.mem e he
    simp only [onOrAfter, h1, decide_eq_true_eq]
    omega
  · rw [List.filter_eq_self]
    intro e he
    obtain ⟨l, h1, h2, h3⟩ := h.mem e he
    simp only [before, h1, decide_eq_true_eq]
    omega

theorem filter_lines_in {A : List Ev} {F : Int} {n : Nat} (h : Lines F n A) : A.filter (onOrAfter F) = A := by
  rw [List.filter_eq_self]
  intro e he
  obtain ⟨l, h1, h2, h3⟩ := h.mem e he
  simp only [onOrAfter, h1, decide_eq_true_eq]
  omega

end Verif.TextParser
