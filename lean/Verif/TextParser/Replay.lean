import Verif.TextParser.Open
/-!
# What a parse replays, and the columns it reports

* `parse_replay`: a parse of at least one line announces its first line, then replays the open blocks, and replays nothing afterwards.
* `parse_cols`: the columns reported are not negative and in order, if those of the matches are.
-/
namespace Verif.TextParser
open Verif.VTList (VEntries resolve)

/-- a match with proper bounds: every group is unset or a range -/
def Match.Ok (m : Match) : Prop := (0 ≤ m.s ∧ m.s ≤ m.e) ∧ ∀ g ∈ m.more, g.1 = -1 ∨ (0 ≤ g.1 ∧ g.1 ≤ g.2)

/-- proper columns -/
def ColOk : Ev → Prop
  | .region _ s e _ => 0 ≤ s ∧ s ≤ e
  | .enter _ s _ _ _ => 0 ≤ s
  | .leave _ _ e _ _ => 0 ≤ e
  | _ => True

/-- expressions and keyword lists report proper ranges -/
structure RangesOk (env : Env) : Prop where
  rx : ∀ t q, (env.rx t q).1 = true → (env.rx t q).2.Ok
  kw : ∀ t id s x low n r, env.kw t id s x low = some (n, r) → 0 ≤ n
  maxBlock : 0 ≤ env.maxBlock

/-! ## Replaying -/

def NoPseudo (es : List Ev) : Prop := ∀ e ∈ es, notPseudo e = true

theorem NoPseudo.append {a b : List Ev} (h1 : NoPseudo a) (h2 : NoPseudo b) : NoPseudo (a ++ b) := by
  intro e he
  rcases List.mem_append.1 he with h | h
  · exact h1 e h
  · exact h2 e h

theorem noPseudo_nil : NoPseudo [] := by intro e he; simp at he

theorem regEvs_noPseudo (l : Int) (m : Match) (regs : List (Option Nat)) : NoPseudo (regEvs l m regs) := by
  intro e he
  have := regEvs_on l m regs e he
  unfold regEvs at he
  simp only [List.mem_flatten, List.mem_map] at he
  obtain ⟨_, ⟨x, _, rfl⟩, he⟩ := he
  unfold regEv at he
  split at he
  · simp at he
  · split at he
    · simp at he
    · simp only [List.mem_singleton] at he; subst he; rfl

theorem regEv_noPseudo (l : Int) (g : Int × Int) (r : Option Nat) : NoPseudo (regEv l g r) := by
  intro e he
  unfold regEv at he
  split at he
  · simp at he
  · split at he
    · simp at he
    · simp only [List.mem_singleton] at he; subst he; rfl

theorem enterEvs_noPseudo (l : Int) (m : Match) (b : Block) (s : Nat) : NoPseudo (enterEvs l m b s) := by
  unfold enterEvs
  split
  · exact (regEvs_noPseudo _ _ _).append (by intro e he; simp only [List.mem_singleton] at he; subst he; rfl)
  · intro e he
    rcases List.mem_cons.1 he with h | h
    · subst h; rfl
    · exact regEvs_noPseudo _ _ _ e h

theorem leaveEvs_noPseudo (l : Int) (m : Match) (b : Block) (s : Nat) : NoPseudo (leaveEvs l m b s) := by
  unfold leaveEvs
  split
  · intro e he
    rcases List.mem_cons.1 he with h | h
    · subst h; rfl
    · exact regEvs_noPseudo _ _ _ e h
  · exact (regEvs_noPseudo _ _ _).append (by intro e he; simp only [List.mem_singleton] at he; subst he; rfl)

/-- the events of a state come after those of another one, and satisfy `P` -/
def Adds (P : Ev → Prop) (st st' : St) : Prop := ∃ new, st'.evs = st.evs ++ new ∧ ∀ e ∈ new, P e

theorem Adds.refl {P : Ev → Prop} {st st' : St} (h : st'.evs = st.evs) : Adds P st st' := ⟨[], by simp [h], by intro e he; simp at he⟩

theorem Adds.trans {P : Ev → Prop} {a b c : St} (h1 : Adds P a b) (h2 : Adds P b c) : Adds P a c := by
  obtain ⟨n1, a1, b1⟩ := h1
  obtain ⟨n2, a2, b2⟩ := h2
  refine ⟨n1 ++ n2, by rw [a2, a1, List.append_assoc], ?_⟩
  intro e he
  rcases List.mem_append.1 he with h | h
  · exact b1 e h
  · exact b2 e h

theorem Adds.of {P : Ev → Prop} {st st' : St} {es : List Ev} (h : st'.evs = st.evs ++ es) (hp : ∀ e ∈ es, P e) : Adds P st st' := ⟨es, h, hp⟩

abbrev NP : Ev → Prop := fun e => notPseudo e = true

theorem startLine_filled {env : Env} {c : Ctx} {st st1 : St} (hf : st.filled = true) (h : startLine env c st = .ok st1) :
    Adds NP st st1 := by
  obtain ⟨st2, h2, h3⟩ := andThen_ok h
  cases h3
  have key : st2.filled = st.filled ∧ Adds NP st st2 := by
    unfold openLine at h2
    split at h2
    · split at h2
      · simp at h2
      · cases h2; exact ⟨rfl, .of rfl (by intro e he; simp only [List.mem_singleton] at he; subst he; rfl)⟩
    · cases h2; exact ⟨rfl, .refl rfl⟩
  refine key.2.trans (.refl ?_)
  show (fill c st2).evs = st2.evs
  unfold fill
  rw [if_pos (by rw [key.1]; exact hf)]

theorem big_noPseudo {env : Env} {c : Call} {st : St} {o : Out} {st' : St} (h : Big env c st o st') :
    st.filled = true → st'.filled = true ∧ Adds NP st st' := by
  induction h with
  | limit => intro h; exact ⟨h, .refl rfl⟩
  | colorize _ _ ih => intro h; exact ih h
  | outEnd => intro h; exact ⟨h, .refl rfl⟩
  | outRep _ h1 _ _ _ ih1 ih2 =>
    intro h
    have a := ih1 (startLine_facts h1).2.2.2.2.2.2.1
    have b := ih2 a.1
    exact ⟨b.1, ((startLine_filled h h1).trans a.2).trans b.2⟩
  | outStop _ h1 _ _ _ ih1 =>
    intro h
    have a := ih1 (startLine_facts h1).2.2.2.2.2.2.1
    exact ⟨a.1, ((startLine_filled h h1).trans a.2).trans (.refl rfl)⟩
  | outNext _ h1 _ _ _ _ ih1 ih2 =>
    intro h
    have a := ih1 (startLine_facts h1).2.2.2.2.2.2.1
    have b := ih2 a.1
    exact ⟨b.1, (((startLine_filled h h1).trans a.2).trans (.refl rfl)).trans b.2⟩
  | colEnd => intro h; exact ⟨h, .refl rfl⟩
  | colBrk => intro h; exact ⟨h, .refl rfl⟩
  | colRep _ _ _ _ ih => intro h; exact ih h
  | @colGo c me len plen st o st1 o' st' _ _ _ _ _ ih1 ih2 =>
    intro h
    have a := ih1 h
    obtain ⟨_, _, _, _, _, b6, b7⟩ := bump_facts o st1
    have b := ih2 (b6.trans a.1)
    exact ⟨b.1, (a.2.trans (.refl b7)).trans b.2⟩
  | nil => intro h; exact ⟨h, .refl rfl⟩
  | inhNone _ ih => exact ih
  | inhHit _ _ ih => exact ih
  | inhMiss _ _ _ ih1 ih2 => intro h; exact ⟨(ih2 (ih1 h).1).1, (ih1 h).2.trans (ih2 (ih1 h).1).2⟩
  | kwHit => intro h; exact ⟨h, .of rfl (regEv_noPseudo _ _ _)⟩
  | kwMiss _ _ ih => exact ih
  | reHit => intro h; exact ⟨h, .of rfl (regEvs_noPseudo _ _ _)⟩
  | reZero _ _ _ ih => intro h; exact ⟨(ih h).1, (Adds.of rfl (regEvs_noPseudo _ _ _)).trans (ih h).2⟩
  | reMiss _ _ ih => exact ih
  | blNone _ _ ih => exact ih
  | blMiss _ _ _ ih => exact ih
  | blZero _ _ _ _ _ _ ih1 ih2 =>
    intro h
    have a := ih1 h
    have b := ih2 a.1
    refine ⟨b.1, ((Adds.of rfl (enterEvs_noPseudo _ _ _ _)).trans a.2).trans (Adds.trans ?_ b.2)⟩
    refine .of rfl ?_
    split
    · exact leaveEvs_noPseudo _ _ _ _
    · exact noPseudo_nil
  | blHit _ _ _ _ ih1 =>
    intro h
    have a := ih1 h
    refine ⟨a.1, ((Adds.of rfl (enterEvs_noPseudo _ _ _ _)).trans a.2).trans ?_⟩
    refine .of rfl ?_
    split
    · exact leaveEvs_noPseudo _ _ _ _
    · exact noPseudo_nil

/-- the first line: announced, then the open blocks replayed -/
theorem startLine_first {env : Env} {c : Ctx} {st st1 : St} (hf : st.filled = false) (hc : st.cleared ≠ st.line) (h : startLine env c st = .ok st1) :
    st1.evs = st.evs ++ .clear st.line :: pseudos st.line st.zip.frames c.scheme := by
  obtain ⟨st2, h2, h3⟩ := andThen_ok h
  cases h3
  unfold openLine at h2
  rw [if_pos hc] at h2
  split at h2
  · simp at h2
  · cases h2
    show (fill c _).evs = _
    unfold fill
    rw [if_neg (by simp [hf])]
    simp

theorem outer_first {env : Env} {c : Ctx} {me : Match} {st : St} {o : Out} {st' : St} (h : Big env (.outer c me) st o st') (hl : st.line < env.endL)
    (hf : st.filled = false) (hc : st.cleared ≠ st.line) :
    ∃ new, st'.evs = st.evs ++ .clear st.line :: pseudos st.line st.zip.frames c.scheme ++ new ∧ NoPseudo new ∧ st'.filled = true := by
  have fin : ∀ {st1 : St}, startLine env c st = .ok st1 → st'.filled = true ∧ Adds NP st1 st' →
      ∃ new, st'.evs = st.evs ++ .clear st.line :: pseudos st.line st.zip.frames c.scheme ++ new ∧ NoPseudo new ∧ st'.filled = true := by
    intro st1 h1 ⟨h2, new, h3, h4⟩
    exact ⟨new, by rw [h3, startLine_first hf hc h1], h4, h2⟩
  cases h with
  | outEnd h => exact absurd hl h
  | outRep _ h1 h2 _ h3 =>
    have a := big_noPseudo h2 (startLine_facts h1).2.2.2.2.2.2.1
    have b := big_noPseudo h3 a.1
    exact fin h1 ⟨b.1, a.2.trans b.2⟩
  | outStop _ h1 h2 _ _ =>
    have a := big_noPseudo h2 (startLine_facts h1).2.2.2.2.2.2.1
    exact fin h1 ⟨a.1, a.2.trans (.refl rfl)⟩
  | outNext _ h1 h2 _ _ h3 =>
    have a := big_noPseudo h2 (startLine_facts h1).2.2.2.2.2.2.1
    have b := big_noPseudo h3 a.1
    exact fin h1 ⟨b.1, (a.2.trans (.refl rfl)).trans b.2⟩

theorem cb_noPseudo {env : Env} {base : Nat} {fs : List Frame} {me : Match} {st : St} {me' : Match} {st' : St} (h : CB env base fs me st me' st') :
    st.filled = true → Adds NP st st' := by
  induction h with
  | nil h1 => intro h; exact ((big_noPseudo h1 h).2).trans (.refl rfl)
  | @cons f fs me st o st1 me' st' h1 _ ih =>
    intro h
    have a := big_noPseudo h1 h
    refine Adds.trans (a.2.trans (.of (es := if st1.line < env.endL then leaveEvs st1.line o.me f.info.block f.info.scheme else []) rfl ?_)) (ih a.1)
    split
    · exact leaveEvs_noPseudo _ _ _ _
    · exact noPseudo_nil

/-- A parse of at least one line announces its first line, then replays the open blocks (outermost first), and replays nothing else. -/
theorem parse_replay {env : Env} {p : PState} {from' num : Int} {mode : Mode} {r : Result} (h : Parses env p from' num mode r) (hf : 0 ≤ from')
    (hn : 0 < num) : ∃ z s new, entry p from' mode = some z ∧ NoPseudo new ∧
      r.evs = .start from' :: .clear from' :: pseudos from' z.frames s ++ new ++ [.fin r.ret] := by
  obtain ⟨fuel, h⟩ := h.parse
  obtain ⟨z, me, st, hz, hcb, hr⟩ := parse_cb h
  subst hr
  have first : ∀ {c : Ctx} {me : Match} {o : Out} {st1 : St}, Big (env.call from' num mode) (.colorize c me) { startState p from' z with level := 0 } o st1 →
      ∃ new, st1.evs = [.start from'] ++ .clear from' :: pseudos from' z.frames c.scheme ++ new ∧ NoPseudo new ∧ st1.filled = true := by
    intro c me o st1 hb
    cases hb with
    | limit hl => exact absurd hl (by show ¬ 0 > _; omega)
    | colorize _ hb =>
      obtain ⟨new, a1, a2, a3⟩ := outer_first hb (by show from' < from' + num; omega) rfl (by show (-1 : Int) ≠ from'; omega)
      exact ⟨new, a1, a2, a3⟩
  generalize hzf : z.frames = fs0 at hcb
  cases hcb with
  | nil hb =>
    obtain ⟨new, a1, a2, a3⟩ := first hb
    refine ⟨z, p.base, new, hz, a2, ?_⟩
    show _ ++ [Ev.fin _] = _
    rw [a1]
    simp
  | @cons f fs _ _ o st1 _ _ hb hc =>
    obtain ⟨new, a1, a2, a3⟩ := first hb
    obtain ⟨n2, b1, b2⟩ := cb_noPseudo hc a3
    refine ⟨z, (ctxOf f.info).scheme, new ++ ((if st1.line < (env.call from' num mode).endL then leaveEvs st1.line o.me f.info.block f.info.scheme else []) ++ n2), hz,
      a2.append (NoPseudo.append ?_ b2), ?_⟩
    · split
      · exact leaveEvs_noPseudo _ _ _ _
      · exact noPseudo_nil
    · show _ ++ [Ev.fin _] = _
      rw [b1]
      show (st1.evs ++ _) ++ n2 ++ _ = _
      rw [a1]
      simp

/-! ## Columns -/

theorem groups_ok {m : Match} (h : m.Ok) : ∀ g ∈ m.groups, g.1 = -1 ∨ (0 ≤ g.1 ∧ g.1 ≤ g.2) := by
  intro g hg
  rcases List.mem_cons.1 hg with hg | hg
  · subst hg; exact Or.inr h.1
  · exact h.2 g hg

theorem regEv_cols (l : Int) {g : Int × Int} (r : Option Nat) (h : g.1 = -1 ∨ (0 ≤ g.1 ∧ g.1 ≤ g.2)) : ∀ e ∈ regEv l g r, ColOk e := by
  intro e he
  unfold regEv at he
  split at he
  · simp at he
  · split at he
    · simp at he
    · rename_i hn
      simp only [List.mem_singleton] at he
      subst he
      rcases h with h | h
      · exact absurd h hn
      · exact h

theorem regEvs_cols (l : Int) {m : Match} (regs : List (Option Nat)) (h : m.Ok) : ∀ e ∈ regEvs l m regs, ColOk e := by
  intro e he
  unfold regEvs at he
  simp only [List.mem_flatten, List.mem_map] at he
  obtain ⟨_, ⟨x, hx, rfl⟩, he⟩ := he
  exact regEv_cols l x.2 (groups_ok h x.1 (List.of_mem_zip hx).1) e he

theorem enterEvs_cols (l : Int) {m : Match} (b : Block) (s : Nat) (h : m.Ok) : ∀ e ∈ enterEvs l m b s, ColOk e := by
  have h0 : 0 ≤ m.e := by have := h.1; omega
  intro e he
  unfold enterEvs at he
  split at he
  · rcases List.mem_append.1 he with he | he
    · exact regEvs_cols l _ h e he
    · simp only [List.mem_singleton] at he; subst he; exact h0
  · rcases List.mem_cons.1 he with he | he
    · subst he; exact h.1.1
    · exact regEvs_cols l _ h e he

theorem leaveEvs_cols (l : Int) {m : Match} (b : Block) (s : Nat) (h : m.Ok) : ∀ e ∈ leaveEvs l m b s, ColOk e := by
  have h0 : 0 ≤ m.e := by have := h.1; omega
  intro e he
  unfold leaveEvs at he
  split at he
  · rcases List.mem_cons.1 he with he | he
    · subst he; exact h.1.1
    · exact regEvs_cols l _ h e he
  · rcases List.mem_append.1 he with he | he
    · exact regEvs_cols l _ h e he
    · simp only [List.mem_singleton] at he; subst he; exact h0

def Match.Ok0 (m : Match) : Prop := 0 ≤ m.s ∧ m.s ≤ m.e

theorem endSearch_ok {env : Env} (hr : RangesOk env) (c : Ctx) (me : Match) {st : St} (hg : 0 ≤ st.gx) :
    (endSearch env c me st).2.Ok0 ∧ ((endSearch env c me st).1 = true → (endSearch env c me st).2.Ok) := by
  have hd : ∀ m : Match, Match.Ok0 { m with
      s := (if st.gx + env.maxBlock > (st.str env).length then ((st.str env).length : Int) else st.gx + env.maxBlock)
      e := (if st.gx + env.maxBlock > (st.str env).length then ((st.str env).length : Int) else st.gx + env.maxBlock) } := by
    intro m
    have := hr.maxBlock
    refine ⟨?_, Int.le_refl _⟩
    dsimp only
    split <;> omega
  unfold endSearch
  cases c.stop with
  | none => exact ⟨hd _, fun h => by cases h⟩
  | some v =>
    obtain ⟨re, back, m⟩ := v
    simp only
    split
    · rename_i h
      have := hr.rx _ _ h
      exact ⟨this.1, fun _ => this⟩
    · exact ⟨hd _, fun h => by cases h⟩

theorem startLine_adds {env : Env} {c : Ctx} {st st1 : St} (h : startLine env c st = .ok st1) : Adds ColOk st st1 := by
  obtain ⟨st2, h2, h3⟩ := andThen_ok h
  cases h3
  have key : Adds ColOk st st2 := by
    unfold openLine at h2
    split at h2
    · split at h2
      · simp at h2
      · cases h2; exact .of rfl (by intro e he; simp only [List.mem_singleton] at he; subst he; trivial)
    · cases h2; exact .refl rfl
  refine key.trans ?_
  have : ∃ es, (fill c st2).evs = st2.evs ++ es ∧ ∀ e ∈ es, ColOk e := by
    unfold fill
    split
    · exact ⟨[], by simp, by intro e he; simp at he⟩
    · refine ⟨_, rfl, ?_⟩
      intro e he
      unfold pseudos at he
      simp only [List.mem_map] at he
      obtain ⟨f, _, rfl⟩ := he
      trivial
  exact this

/-- the match handed to a call -/
def Call.MeOk : Call → Prop
  | .colorize _ me | .outer _ me => me.Ok0
  | .cols _ me _ _ => me.Ok0
  | .nodes _ _ _ _ me => me.Ok0

def CPost (env : Env) (c : Call) (st : St) (o : Out) (st' : St) : Prop :=
  Adds ColOk st st' ∧ 0 ≤ st'.gx ∧
  match c with
  | .colorize _ _ | .outer _ _ => o.me.Ok0 ∧ (st'.line < env.endL → o.me.Ok)
  | _ => True

theorem bump_gx (o : Out) {st : St} (h : 0 ≤ st.gx) : 0 ≤ (bump o st).gx := by
  unfold bump
  split
  · show 0 ≤ st.gx + 1; omega
  · exact h

theorem big_cols {env : Env} (hr : RangesOk env) {c : Call} {st : St} {o : Out} {st' : St} (h : Big env c st o st') :
    st'.hit = false → 0 ≤ st.gx → c.MeOk → CPost env c st o st' := by
  induction h with
  | limit => intro h; simp at h
  | colorize _ _ ih => intro h hg hm; exact ih h hg hm
  | outEnd hl => intro h hg hm; exact ⟨.refl rfl, hg, hm, fun h => absurd h hl⟩
  | @outRep c me st st1 o st2 o' st' hl h1 hb1 _ hb ih1 ih2 =>
    intro h hg hm
    have g1 := (startLine_facts h1).1
    obtain ⟨a1, a2, _⟩ := ih1 (big_hit hb h) (by show 0 ≤ st1.gx; omega) (endSearch_ok hr c me (by omega)).1
    obtain ⟨b1, b2, b3⟩ := ih2 h a2 (endSearch_ok hr c me (by omega)).1
    exact ⟨((startLine_adds h1).trans a1).trans b1, b2, b3⟩
  | @outStop c me st st1 o st2 hl h1 _ hrep ha ih1 =>
    intro h hg hm
    have g1 := (startLine_facts h1).1
    obtain ⟨a1, a2, _⟩ := ih1 h (by show 0 ≤ st1.gx; omega) (endSearch_ok hr c me (by omega)).1
    exact ⟨((startLine_adds h1).trans a1).trans (.refl rfl), a2, (endSearch_ok hr c me (by omega)).1, fun _ => (endSearch_ok hr c me (by omega)).2 ha⟩
  | @outNext c me st st1 o st2 o' st' hl h1 _ hrep ha hb ih1 ih2 =>
    intro h hg hm
    have g1 := (startLine_facts h1).1
    obtain ⟨a1, a2, _⟩ := ih1 (show (nextLine st2).hit = false from big_hit hb h) (by show 0 ≤ st1.gx; omega) (endSearch_ok hr c me (by omega)).1
    obtain ⟨b1, b2, b3⟩ := ih2 h (by show (0 : Int) ≤ 0; omega) (endSearch_ok hr c me (by omega)).1
    exact ⟨(((startLine_adds h1).trans a1).trans (.refl rfl)).trans b1, b2, b3⟩
  | colEnd => intro h hg hm; exact ⟨.refl rfl, hg, trivial⟩
  | colBrk => intro h hg hm; exact ⟨.refl rfl, hg, trivial⟩
  | colRep _ _ _ _ ih => intro h hg hm; obtain ⟨a, b, _⟩ := ih h hg hm; exact ⟨a, b, trivial⟩
  | @colGo c me len plen st o st1 o' st' _ _ _ _ hb ih1 ih2 =>
    intro h hg hm
    have hb' := big_hit hb h
    rw [(bump_facts o st1).2.2.2.1] at hb'
    obtain ⟨a1, a2, _⟩ := ih1 hb' hg hm
    obtain ⟨b1, b2, _⟩ := ih2 h (bump_gx o a2) hm
    exact ⟨(a1.trans (.refl (bump_facts o st1).2.2.2.2.2.2)).trans b1, b2, trivial⟩
  | nil => intro h hg hm; exact ⟨.refl rfl, hg, trivial⟩
  | inhNone _ ih => intro h hg hm; exact ih h hg hm
  | inhHit _ _ ih => intro h hg hm; exact ih h hg hm
  | inhMiss _ _ hb ih1 ih2 =>
    intro h hg hm
    obtain ⟨a1, a2, _⟩ := ih1 (big_hit hb h) hg hm
    obtain ⟨b1, b2, _⟩ := ih2 h a2 hm
    exact ⟨a1.trans b1, b2, trivial⟩
  | @kwHit id ns levels low hi me st n r hk =>
    intro h hg hm
    have := hr.kw _ _ _ _ _ _ _ hk
    refine ⟨.of rfl (regEv_cols _ _ (Or.inr ⟨hg, ?_⟩)), ?_, trivial⟩
    · show st.gx ≤ st.gx + n; omega
    · show 0 ≤ st.gx + n; omega
  | kwMiss _ _ ih => intro h hg hm; exact ih h hg hm
  | @reHit start lowP regs ns levels low hi me st m hx he =>
    intro h hg hm
    have hok : m.Ok := by have := hr.rx _ _ (by rw [hx]); rwa [hx] at this
    exact ⟨.of rfl (regEvs_cols _ _ hok), by show 0 ≤ m.e; have := hok.1; omega, trivial⟩
  | @reZero start lowP regs ns levels low hi me st m o st' hx he hb ih =>
    intro h hg hm
    have hok : m.Ok := by have := hr.rx _ _ (by rw [hx]); rwa [hx] at this
    obtain ⟨a1, a2, _⟩ := ih h hg hm
    exact ⟨(Adds.of rfl (regEvs_cols _ _ hok)).trans a1, a2, trivial⟩
  | reMiss _ _ ih => intro h hg hm; exact ih h hg hm
  | blNone _ _ ih => intro h hg hm; exact ih h hg hm
  | blMiss _ _ _ ih => intro h hg hm; exact ih h hg hm
  | @blZero b s ns levels low hi me st m o st1 o' st' hs hx hb1 he hl hb ih1 ih2 =>
    intro h hg hm
    have hok : m.Ok := by have := hr.rx _ _ (by rw [hx]); rwa [hx] at this
    have h1 : (afterBlock env b (target s levels []).1 st st1 o.me).hit = false := big_hit hb h
    obtain ⟨a1, a2, a3, a4⟩ := ih1 h1 (by show 0 ≤ m.e; have := hok.1; omega) hm
    obtain ⟨b1, b2, _⟩ := ih2 h (by show 0 ≤ o.me.e; have := a3.1; have := a3.2; omega) hm
    refine ⟨((Adds.of rfl (enterEvs_cols _ _ _ hok)).trans a1).trans (Adds.trans ?_ b1), b2, trivial⟩
    refine .of rfl ?_
    split
    · rename_i hlt; exact leaveEvs_cols _ _ _ (a4 hlt)
    · intro e he; simp at he
  | @blHit b s ns levels low hi me st m o st1 hs hx hb1 hne ih1 =>
    intro h hg hm
    have hok : m.Ok := by have := hr.rx _ _ (by rw [hx]); rwa [hx] at this
    obtain ⟨a1, a2, a3, a4⟩ := ih1 h (by show 0 ≤ m.e; have := hok.1; omega) hm
    refine ⟨((Adds.of rfl (enterEvs_cols _ _ _ hok)).trans a1).trans ?_, by show 0 ≤ o.me.e; have := a3.1; have := a3.2; omega, trivial⟩
    refine .of rfl ?_
    split
    · rename_i hlt; exact leaveEvs_cols _ _ _ (a4 hlt)
    · intro e he; simp at he

/-- The columns reported by a parse from the beginning are proper. -/
theorem parse_cols {env : Env} (hr : RangesOk env) {p : PState} {num : Int} (hc : p.cache = []) (hm : p.me.Ok0) {r : Result}
    (h : Parses env p 0 num .update r) (hh : r.hit = false) : ∀ e ∈ r.evs, ColOk e := by
  obtain ⟨fuel, h⟩ := h.parse
  obtain ⟨z, me, st, hz, hcb, hr'⟩ := parse_cb h
  subst hr'
  have hz : z = ⟨[], []⟩ := by
    simp only [entry, hc] at hz
    rw [if_pos (by omega)] at hz
    cases hz
    unfold locateRoot
    rw [locateKids.eq_def]
  subst hz
  have hR : RangesOk (env.call 0 num .update) := ⟨hr.rx, hr.kw, hr.maxBlock⟩
  cases hcb with
  | @nil _ _ o st1 hb =>
    obtain ⟨⟨new, a1, a2⟩, _, _⟩ := big_cols hR hb hh (by show (0 : Int) ≤ 0; omega) hm
    intro e he
    have he : e ∈ st1.evs ++ [.fin st1.endLine] := he
    rw [a1] at he
    simp only [List.mem_append, List.mem_singleton] at he
    rcases he with (he | he) | he
    · have he : e ∈ [Ev.start 0] := he
      simp only [List.mem_singleton] at he
      subst he; trivial
    · exact a2 e he
    · subst he; trivial

end Verif.TextParser
