import Verif.TextParser.Replay
import Verif.TextParser.Proper
/-!
# The columns a parse reports lie in the line

`parse_inside`: every column a parse reports for a line is at most the length of the line, for a parse from anywhere with any cache, if
expressions and keyword lists report what lies in the text they search.
-/
namespace Verif.TextParser
open Verif.VTList (VEntries resolve)

/-- no group goes beyond column `N` -/
def Match.Upto (m : Match) (N : Int) : Prop := ∀ g ∈ m.groups, g.1 ≤ N ∧ g.2 ≤ N

/-- Expressions and keyword lists that are asked about a place in a text report places in the text. -/
structure RangesIn (env : Env) : Prop where
  rx : ∀ t q, 0 ≤ q.pos → q.pos ≤ q.text.length → q.len ≤ q.text.length → (env.rx t q).1 = true → (env.rx t q).2.Upto q.text.length
  kw : ∀ t id s x low n r, 0 ≤ x → x ≤ (s.length : Int) → low ≤ (s.length : Int) → env.kw t id s x low = some (n, r) → x + n ≤ (s.length : Int)

/-- the columns reported are at most the length of the line they are reported for -/
def ColIn (env : Env) : Ev → Prop
  | .region l s e _ => s ≤ lenAt env l ∧ e ≤ lenAt env l
  | .enter l s e _ _ => s ≤ lenAt env l ∧ e ≤ lenAt env l
  | .leave l s e _ _ => s ≤ lenAt env l ∧ e ≤ lenAt env l
  | _ => True

theorem regEv_in {env : Env} {l : Int} {g : Int × Int} (r : Option Nat) (h : g.1 ≤ lenAt env l ∧ g.2 ≤ lenAt env l) : ∀ e ∈ regEv l g r, ColIn env e := by
  intro e he
  unfold regEv at he
  split at he
  · simp at he
  · split at he
    · simp at he
    · simp only [List.mem_singleton] at he
      subst he
      exact h

theorem regEvs_in {env : Env} {l : Int} {m : Match} (regs : List (Option Nat)) (h : m.Upto (lenAt env l)) : ∀ e ∈ regEvs l m regs, ColIn env e := by
  intro e he
  unfold regEvs at he
  simp only [List.mem_flatten, List.mem_map] at he
  obtain ⟨_, ⟨x, hx, rfl⟩, he⟩ := he
  exact regEv_in x.2 (h x.1 (List.of_mem_zip hx).1) e he

theorem upto_main {m : Match} {N : Int} (h : m.Upto N) : m.s ≤ N ∧ m.e ≤ N := h (m.s, m.e) (by simp [Match.groups])

theorem enterEvs_in {env : Env} {l : Int} {m : Match} (b : Block) (s : Nat) (h : m.Upto (lenAt env l)) : ∀ e ∈ enterEvs l m b s, ColIn env e := by
  obtain ⟨h1, h2⟩ := upto_main h
  intro e he
  unfold enterEvs at he
  split at he
  · rcases List.mem_append.1 he with he | he
    · exact regEvs_in _ h e he
    · simp only [List.mem_singleton] at he; subst he; exact ⟨h2, h2⟩
  · rcases List.mem_cons.1 he with he | he
    · subst he; exact ⟨h1, h2⟩
    · exact regEvs_in _ h e he

theorem leaveEvs_in {env : Env} {l : Int} {m : Match} (b : Block) (s : Nat) (h : m.Upto (lenAt env l)) : ∀ e ∈ leaveEvs l m b s, ColIn env e := by
  obtain ⟨h1, h2⟩ := upto_main h
  intro e he
  unfold leaveEvs at he
  split at he
  · rcases List.mem_cons.1 he with he | he
    · subst he; exact ⟨h1, h1⟩
    · exact regEvs_in _ h e he
  · rcases List.mem_append.1 he with he | he
    · exact regEvs_in _ h e he
    · simp only [List.mem_singleton] at he; subst he; exact ⟨h1, h2⟩

theorem startLine_in {env : Env} {c : Ctx} {st st1 : St} (h : startLine env c st = .ok st1) : Adds (ColIn env) st st1 := by
  obtain ⟨st2, h2, h3⟩ := andThen_ok h
  cases h3
  have key : Adds (ColIn env) st st2 := by
    unfold openLine at h2
    split at h2
    · split at h2
      · simp at h2
      · cases h2; exact .of rfl (by intro e he; simp only [List.mem_singleton] at he; subst he; trivial)
    · cases h2; exact .refl rfl
  refine key.trans ?_
  have : ∃ es, (fill c st2).evs = st2.evs ++ es ∧ ∀ e ∈ es, ColIn env e := by
    unfold fill
    split
    · exact ⟨[], by simp, by intro e he; simp at he⟩
    · refine ⟨_, rfl, ?_⟩
      intro e he
      unfold pseudos at he
      simp only [List.mem_map] at he
      obtain ⟨f, _, rfl⟩ := he
      trivial
  exact this

/-- the search for the end of a block: on the line -/
theorem endSearch_upto {env : Env} (hi : RangesIn env) (c : Ctx) (me : Match) {st : St} (h0 : 0 ≤ st.gx) (h1 : st.gx ≤ lenAt env st.line)
    (hcl : st.cleared = st.line) :
    (endSearch env c me st).2.s ≤ lenAt env st.line ∧ ((endSearch env c me st).1 = true → (endSearch env c me st).2.Upto (lenAt env st.line)) := by
  have hl := str_len (env := env) hcl
  have hd : (if st.gx + env.maxBlock > (st.str env).length then ((st.str env).length : Int) else st.gx + env.maxBlock) ≤ lenAt env st.line := by
    rw [hl]; split <;> omega
  unfold endSearch
  split
  · exact ⟨hd, fun h => by cases h⟩
  · rename_i re back m hs
    dsimp only
    split
    · rename_i ha
      have := hi.rx _ _ h0 (by show st.gx ≤ ((st.str env).length : Int); omega) (Int.le_refl _) ha
      have this : Match.Upto _ ((st.str env).length : Int) := this
      exact ⟨hl ▸ (upto_main this).1, fun _ => hl ▸ this⟩
    · exact ⟨hd, fun h => by cases h⟩

/-- what is known before a call -/
def IPre (env : Env) (st : St) : Call → Prop
  | .colorize _ _ | .outer _ _ => 0 ≤ st.gx ∧ (st.line < env.endL → st.gx ≤ lenAt env st.line)
  | .cols _ me len plen => 0 ≤ st.gx ∧ st.line < env.endL ∧ st.cleared = st.line ∧ me.s ≤ lenAt env st.line ∧ len ≤ lenAt env st.line ∧
      plen ≤ lenAt env st.line
  | .nodes _ _ low hi _ => 0 ≤ st.gx ∧ st.line < env.endL ∧ st.cleared = st.line ∧ st.gx ≤ lenAt env st.line ∧ low ≤ lenAt env st.line ∧
      hi ≤ lenAt env st.line

/-- … and after it -/
def IPost (env : Env) (c : Call) (st : St) (o : Out) (st' : St) : Prop :=
  Adds (ColIn env) st st' ∧ 0 ≤ st'.gx ∧
  match c with
  | .colorize _ _ | .outer _ _ => st'.line < env.endL → st'.cleared = st'.line ∧ 0 ≤ o.me.e ∧ o.me.Upto (lenAt env st'.line)
  | .cols _ _ _ _ => (o.rep = true → st'.line < env.endL → st'.gx ≤ lenAt env st'.line) ∧
      (o.rep = false → (st'.line = st.line ∧ st'.cleared = st.cleared) ∨ env.endL ≤ st'.line)
  | .nodes _ _ _ _ _ => (o.res ≠ .scheme → st'.line = st.line) ∧ (st'.line < env.endL → st'.cleared = st'.line ∧ st'.gx ≤ lenAt env st'.line)

theorem big_in {env : Env} (hr : RangesOk env) (hi : RangesIn env) {c : Call} {st : St} {o : Out} {st' : St} (h : Big env c st o st') :
    st'.hit = false → IPre env st c → c.MeOk → IPost env c st o st' := by
  induction h with
  | limit => intro h; simp at h
  | colorize _ _ ih => intro h hp hm; exact ih h hp hm
  | outEnd hl => intro h hp hm; exact ⟨.refl rfl, hp.1, fun h => absurd h hl⟩
  | @outRep c me st st1 o st2 o' st' hl h1 hb1 hrep hb ih1 ih2 =>
    intro h hp hm
    obtain ⟨g1, g2, g3, _⟩ := startLine_facts h1
    obtain ⟨p1, p2⟩ := hp
    have hcl : st1.cleared = st1.line := by rw [g3, g2]
    have h0 : 0 ≤ st1.gx := by omega
    have hx : st1.gx ≤ lenAt env st1.line := by rw [g1, g2]; exact p2 hl
    have e0 := endSearch_upto hi c me h0 hx hcl
    have e1 := endSearch_ok hr c me h0
    have hlen := str_len (env := env) hcl
    obtain ⟨a1, a2, a3, _⟩ := ih1 (big_hit hb h) ⟨h0, by show st1.line < _; omega, hcl, e0.1, by
        show (if c.low then _ else _) ≤ lenAt env st1.line
        split
        · exact e0.1
        · omega, by show _ ≤ lenAt env st1.line; omega⟩ e1.1
    obtain ⟨b1, b2, b3⟩ := ih2 h ⟨a2, a3 hrep⟩ e1.1
    exact ⟨((startLine_in h1).trans a1).trans b1, b2, b3⟩
  | @outStop c me st st1 o st2 hl h1 hb1 hrep ha ih1 =>
    intro h hp hm
    obtain ⟨g1, g2, g3, _⟩ := startLine_facts h1
    obtain ⟨p1, p2⟩ := hp
    have hcl : st1.cleared = st1.line := by rw [g3, g2]
    have h0 : 0 ≤ st1.gx := by omega
    have hx : st1.gx ≤ lenAt env st1.line := by rw [g1, g2]; exact p2 hl
    have e0 := endSearch_upto hi c me h0 hx hcl
    have e1 := endSearch_ok hr c me h0
    have hlen := str_len (env := env) hcl
    obtain ⟨a1, a2, _, a4⟩ := ih1 h ⟨h0, by show st1.line < _; omega, hcl, e0.1, by
        show (if c.low then _ else _) ≤ lenAt env st1.line
        split
        · exact e0.1
        · omega, by show _ ≤ lenAt env st1.line; omega⟩ e1.1
    refine ⟨((startLine_in h1).trans a1).trans (.refl rfl), a2, fun hlt => ?_⟩
    have hlt : st2.line < env.endL := hlt
    rcases a4 hrep with ⟨y1, y2⟩ | hy
    · have y1 : st2.line = st1.line := y1
      have y2 : st2.cleared = st1.cleared := y2
      refine ⟨by show st2.cleared = st2.line; rw [y1, y2, hcl], by show 0 ≤ (endSearch env c me st1).2.e; have := e1.1.1; have := e1.1.2; omega, ?_⟩
      show (endSearch env c me st1).2.Upto (lenAt env st2.line)
      rw [y1]
      exact e0.2 ha
    · omega
  | @outNext c me st st1 o st2 o' st' hl h1 hb1 hrep ha hb ih1 ih2 =>
    intro h hp hm
    obtain ⟨g1, g2, g3, _⟩ := startLine_facts h1
    obtain ⟨p1, p2⟩ := hp
    have hcl : st1.cleared = st1.line := by rw [g3, g2]
    have h0 : 0 ≤ st1.gx := by omega
    have hx : st1.gx ≤ lenAt env st1.line := by rw [g1, g2]; exact p2 hl
    have e0 := endSearch_upto hi c me h0 hx hcl
    have e1 := endSearch_ok hr c me h0
    have hlen := str_len (env := env) hcl
    obtain ⟨a1, a2, _, _⟩ := ih1 (show (nextLine st2).hit = false from big_hit hb h) ⟨h0, by show st1.line < _; omega, hcl, e0.1, by
        show (if c.low then _ else _) ≤ lenAt env st1.line
        split
        · exact e0.1
        · omega, by show _ ≤ lenAt env st1.line; omega⟩ e1.1
    obtain ⟨b1, b2, b3⟩ := ih2 h ⟨Int.le_refl 0, fun _ => by show (0 : Int) ≤ lenAt env (st2.line + 1); unfold lenAt; omega⟩ e1.1
    exact ⟨(((startLine_in h1).trans a1).trans (.refl rfl)).trans b1, b2, b3⟩
  | colEnd => intro h hp hm; exact ⟨.refl rfl, hp.1, (fun h => by cases h), fun _ => .inl ⟨rfl, rfl⟩⟩
  | @colBrk c me len plen st => intro h hp hm; exact ⟨.refl rfl, hp.1, (fun h => by cases h), fun _ => .inr (Int.le_refl _)⟩
  | @colRep c me len plen st o st1 hle hbk hb hrp ih =>
    intro h hp hm
    obtain ⟨p1, p2, p3, p4, p5, p6⟩ := hp
    obtain ⟨a1, a2, _, a4⟩ := ih h ⟨p1, p2, p3, by show st.gx ≤ lenAt env st.line; omega, p4, by
      show hiLen env me.s len ≤ lenAt env st.line
      unfold hiLen; split <;> omega⟩ hm
    exact ⟨a1, a2, fun _ hlt => (a4 hlt).2, fun h => by cases h⟩
  | @colGo c me len plen st o st1 o' st' hle hbk hb1 hrp hb ih1 ih2 =>
    intro h hp hm
    obtain ⟨p1, p2, p3, p4, p5, p6⟩ := hp
    have hb' := big_hit hb h
    rw [(bump_facts o st1).2.2.2.1] at hb'
    obtain ⟨a1, a2, a3, a4⟩ := ih1 hb' ⟨p1, p2, p3, by show st.gx ≤ lenAt env st.line; omega, p4, by
      show hiLen env me.s len ≤ lenAt env st.line
      unfold hiLen; split <;> omega⟩ hm
    have hline : st1.line = st.line := by
      by_cases ho : o.res = .scheme
      · unfold reparse at hrp
        by_cases hne : st1.line = st.line
        · exact hne
        · exact absurd (Or.inl ⟨ho, Or.inl hne⟩) hrp
      · exact a3 ho
    obtain ⟨c1, c2⟩ := a4 (by rw [hline]; exact p2)
    have k := (bump_facts o st1)
    obtain ⟨b1, b2, b3, b4⟩ := ih2 h ⟨bump_gx o a2, by rw [k.1, hline]; exact p2, by rw [k.1, k.2.1]; exact c1, by rw [k.1, hline]; exact p4, by
      rw [k.1, hline]; split <;> omega, by rw [k.1, hline]; exact p6⟩ hm
    refine ⟨(a1.trans (.refl k.2.2.2.2.2.2)).trans b1, b2, b3, fun hx => ?_⟩
    rcases b4 hx with ⟨y1, y2⟩ | hy
    · exact .inl ⟨by rw [y1, k.1, hline], by rw [y2, k.2.1, c1, hline, p3]⟩
    · exact .inr hy
  | nil => intro h hp hm; exact ⟨.refl rfl, hp.1, fun _ => rfl, fun _ => ⟨hp.2.2.1, hp.2.2.2.1⟩⟩
  | inhNone _ ih => intro h hp hm; exact ih h hp hm
  | inhHit _ _ ih => intro h hp hm; exact ih h hp hm
  | @inhMiss s virt ns levels low hi' me st o st1 o' st' hb1 ho hb ih1 ih2 =>
    intro h hp hm
    obtain ⟨a1, a2, a3, a4⟩ := ih1 (big_hit hb h) hp hm
    obtain ⟨p1, p2, p3, p4, p5, p6⟩ := hp
    have hline : st1.line = st.line := a3 (by rw [ho]; simp)
    obtain ⟨c1, c2⟩ := a4 (by rw [hline]; exact p2)
    obtain ⟨b1, b2, b3, b4⟩ := ih2 h ⟨a2, by rw [hline]; exact p2, c1, c2, by rw [hline]; exact p5, by rw [hline]; exact p6⟩ hm
    exact ⟨a1.trans b1, b2, fun hx => by rw [b3 hx, hline], b4⟩
  | @kwHit id ns levels low hi' me st n r hk =>
    intro h hp hm
    obtain ⟨p1, p2, p3, p4, p5, p6⟩ := hp
    have hl := str_len (env := env) p3
    have h0 := hr.kw _ _ _ _ _ _ _ hk
    have h1 := hi.kw _ _ _ _ _ _ _ p1 (by rw [hl]; exact p4) (by rw [hl]; exact p5) hk
    rw [hl] at h1
    exact ⟨.of rfl (regEv_in _ ⟨p4, h1⟩), by show 0 ≤ st.gx + n; omega, fun _ => rfl, fun _ => ⟨p3, h1⟩⟩
  | kwMiss _ _ ih => intro h hp hm; exact ih h hp hm
  | @reHit start lowP regs ns levels low hi' me st m hx he =>
    intro h hp hm
    obtain ⟨p1, p2, p3, p4, p5, p6⟩ := hp
    have hl := str_len (env := env) p3
    have hok : m.Ok := by have := hr.rx _ _ (by rw [hx]); rwa [hx] at this
    have hup : m.Upto (lenAt env st.line) := by
      have := hi.rx st.tick (startQ env start st (if lowP then low else hi')) p1 (by show st.gx ≤ ((st.str env).length : Int); omega) (by
        show (if lowP then low else hi') ≤ ((st.str env).length : Int); split <;> omega) (by rw [hx])
      rw [hx] at this
      have this : m.Upto ((st.str env).length : Int) := this
      rwa [hl] at this
    exact ⟨.of rfl (regEvs_in _ hup), by show 0 ≤ m.e; have := hok.1; omega, fun _ => rfl, fun _ => ⟨p3, (upto_main hup).2⟩⟩
  | @reZero start lowP regs ns levels low hi' me st m o st' hx he hb ih =>
    intro h hp hm
    obtain ⟨p1, p2, p3, p4, p5, p6⟩ := hp
    have hl := str_len (env := env) p3
    have hup : m.Upto (lenAt env st.line) := by
      have := hi.rx st.tick (startQ env start st (if lowP then low else hi')) p1 (by show st.gx ≤ ((st.str env).length : Int); omega) (by
        show (if lowP then low else hi') ≤ ((st.str env).length : Int); split <;> omega) (by rw [hx])
      rw [hx] at this
      have this : m.Upto ((st.str env).length : Int) := this
      rwa [hl] at this
    obtain ⟨a1, a2, a3⟩ := ih h ⟨p1, p2, p3, p4, p5, p6⟩ hm
    exact ⟨(Adds.of rfl (regEvs_in _ hup)).trans a1, a2, a3⟩
  | reMiss _ _ ih => intro h hp hm; exact ih h hp hm
  | blNone _ _ ih => intro h hp hm; exact ih h hp hm
  | blMiss _ _ _ ih => intro h hp hm; exact ih h hp hm
  | @blZero b s ns levels low hi' me st m o st1 o' st' hs hx hb1 he hll hb ih1 ih2 =>
    intro h hp hm
    obtain ⟨p1, p2, p3, p4, p5, p6⟩ := hp
    have hl := str_len (env := env) p3
    have hok : m.Ok := by have := hr.rx _ _ (by rw [hx]); rwa [hx] at this
    have hup : m.Upto (lenAt env st.line) := by
      have := hi.rx st.tick (startQ env b.start st (if b.low then low else hi')) p1 (by show st.gx ≤ ((st.str env).length : Int); omega) (by
        show (if b.low then low else hi') ≤ ((st.str env).length : Int); split <;> omega) (by rw [hx])
      rw [hx] at this
      have this : m.Upto ((st.str env).length : Int) := this
      rwa [hl] at this
    have h1 : (afterBlock env b (target s levels []).1 st st1 o.me).hit = false := big_hit hb h
    obtain ⟨a1, a2, a3⟩ := ih1 h1 ⟨by show 0 ≤ m.e; have := hok.1; omega, fun _ => (upto_main hup).2⟩ hm
    obtain ⟨c1, c2, c3⟩ := a3 (by rw [← hll]; exact p2)
    obtain ⟨b1, b2, b3, b4⟩ := ih2 h ⟨by show 0 ≤ o.me.e; exact c2, by show st1.line < _; rw [← hll]; exact p2, c1, (upto_main c3).2,
      by show low ≤ lenAt env st1.line; rw [← hll]; exact p5, by show hi' ≤ lenAt env st1.line; rw [← hll]; exact p6⟩ hm
    refine ⟨((Adds.of rfl (enterEvs_in _ _ hup)).trans a1).trans (Adds.trans ?_ b1), b2, fun hx => ?_, b4⟩
    · refine .of rfl ?_
      split
      · exact leaveEvs_in _ _ c3
      · intro e he; simp at he
    · rw [b3 hx, hll]; rfl
  | @blHit b s ns levels low hi' me st m o st1 hs hx hb1 hne ih1 =>
    intro h hp hm
    obtain ⟨p1, p2, p3, p4, p5, p6⟩ := hp
    have hl := str_len (env := env) p3
    have hok : m.Ok := by have := hr.rx _ _ (by rw [hx]); rwa [hx] at this
    have hup : m.Upto (lenAt env st.line) := by
      have := hi.rx st.tick (startQ env b.start st (if b.low then low else hi')) p1 (by show st.gx ≤ ((st.str env).length : Int); omega) (by
        show (if b.low then low else hi') ≤ ((st.str env).length : Int); split <;> omega) (by rw [hx])
      rw [hx] at this
      have this : m.Upto ((st.str env).length : Int) := this
      rwa [hl] at this
    have hg0 : 0 ≤ (beforeBlock env b (target s levels []).1 (target s levels []).2 m st.tock).gx := by show 0 ≤ m.e; have := hok.1; omega
    obtain ⟨a1, a2, a3⟩ := ih1 h ⟨hg0, fun _ => (upto_main hup).2⟩ hm
    obtain ⟨_, _, d3, _⟩ := big_cols hr hb1 h hg0 hm
    refine ⟨((Adds.of rfl (enterEvs_in _ _ hup)).trans a1).trans ?_, by show 0 ≤ o.me.e; have := d3.1; have := d3.2; omega,
      (fun hx => absurd rfl hx), fun hlt => ?_⟩
    · refine .of rfl ?_
      split
      · rename_i hlt; exact leaveEvs_in _ _ (a3 hlt).2.2
      · intro e he; simp at he
    · have hlt : st1.line < env.endL := hlt
      obtain ⟨c1, c2, c3⟩ := a3 hlt
      exact ⟨c1, (upto_main c3).2⟩

theorem cb_hit {env : Env} {base : Nat} {fs : List Frame} {me : Match} {st : St} {me' : Match} {st' : St}
    (h : CB env base fs me st me' st') : st'.hit = false → st.hit = false := by
  induction h with
  | nil hb => intro h; have h := big_hit hb h; exact h
  | cons hb hcb ih => intro h; have h := big_hit hb (ih h); exact h

theorem cb_in {env : Env} (hr : RangesOk env) (hi : RangesIn env) {base : Nat} {fs : List Frame} {me : Match} {st : St} {me' : Match} {st' : St}
    (h : CB env base fs me st me' st') : st'.hit = false → 0 ≤ st.gx → (st.line < env.endL → st.gx ≤ lenAt env st.line) → me.Ok0 →
    Adds (ColIn env) st st' := by
  induction h with
  | @nil me st o st1 hb =>
    intro h h0 h1 hm
    exact (big_in hr hi hb h ⟨h0, h1⟩ hm).1.trans (.refl rfl)
  | @cons f fs me st o st1 me' st' hb hcb ih =>
    intro h h0 h1 hm
    have hh : (afterFrame env f.info st1 o.me).hit = false := cb_hit hcb h
    have hh : st1.hit = false := hh
    obtain ⟨a1, _, a3⟩ := big_in hr hi hb hh ⟨h0, h1⟩ hm
    obtain ⟨_, _, d3, _⟩ := big_cols hr hb hh h0 hm
    have e0 : 0 ≤ o.me.e := by have := d3.1; have := d3.2; omega
    have b := ih h e0 (fun hlt => (upto_main (a3 hlt).2.2).2) d3
    refine (a1.trans ?_).trans b
    refine .of rfl ?_
    split
    · rename_i hlt; exact leaveEvs_in _ _ (a3 hlt).2.2
    · intro e he; simp at he

/-- **The columns a parse reports lie in the line**: a parse from any line, with any cache. -/
theorem parse_inside {env : Env} (hr : RangesOk env) (hi : RangesIn env) {p : PState} {from' num : Int} {mode : Mode} (hm : p.me.Ok0) {r : Result}
    (h : Parses env p from' num mode r) (hh : r.hit = false) : ∀ e ∈ r.evs, ColIn env e := by
  obtain ⟨fuel, h⟩ := h.parse
  obtain ⟨z, me, st, hz, hcb, hr'⟩ := parse_cb h
  subst hr'
  have hR : RangesOk (env.call from' num mode) := ⟨hr.rx, hr.kw, hr.maxBlock⟩
  have hI : RangesIn (env.call from' num mode) := ⟨hi.rx, hi.kw⟩
  obtain ⟨new, a1, a2⟩ := cb_in hR hI hcb hh (Int.le_refl 0) (fun _ => by show (0 : Int) ≤ lenAt _ from'; unfold lenAt; omega) hm
  intro e he
  have he : e ∈ st.evs ++ [.fin st.endLine] := he
  rw [a1] at he
  simp only [List.mem_append, List.mem_singleton] at he
  rcases he with (he | he) | he
  · have he : e ∈ [Ev.start from'] := he
    simp only [List.mem_singleton] at he
    subst he; trivial
  · have := a2 e he
    cases e <;> exact this
  · subst he; trivial

end Verif.TextParser
