import Verif.TextParser.Rules
/-!
# Facts about every run (used for C34)

What a call leaves alone, how the line moves, what the cache gains.
-/
namespace Verif.TextParser
open Verif.VTList (VEntries resolve)

/-- appending children to the innermost open entry -/
def Zip.addKids (z : Zip) (ks : List Tree) : Zip :=
  match z.frames with
  | [] => ⟨[], z.root ++ ks⟩
  | f :: fs => ⟨{ f with kids := f.kids ++ ks } :: fs, z.root⟩

theorem Zip.addKids_nil (z : Zip) : z.addKids [] = z := by
  rcases z with ⟨frames, root⟩
  cases frames with
  | nil => simp [Zip.addKids]
  | cons f fs => simp [Zip.addKids]

theorem Zip.addKids_addKids (z : Zip) (a b : List Tree) : (z.addKids a).addKids b = z.addKids (a ++ b) := by
  rcases z with ⟨frames, root⟩
  cases frames with
  | nil => simp [Zip.addKids]
  | cons f fs => simp [Zip.addKids]

theorem Zip.addKid_eq (z : Zip) (t : Tree) : z.addKid t = z.addKids [t] := by
  rcases z with ⟨frames, root⟩
  cases frames with
  | nil => simp [Zip.addKids, Zip.addKid]
  | cons f fs => simp [Zip.addKids, Zip.addKid]

theorem Zip.push_addKids_discard (z : Zip) (i : Info) (ks : List Tree) : ((z.push i).addKids ks).discard = z := by
  simp [Zip.push, Zip.addKids, Zip.discard]

theorem Zip.push_addKids_close (z : Zip) (i : Info) (ks : List Tree) (e : Int) :
    ((z.push i).addKids ks).close e = z.addKids [.node i e ks] := by
  rw [← Zip.addKid_eq]
  simp [Zip.push, Zip.addKids, Zip.close]

/-- nothing depends on the moment, nobody breaks the parse -/
structure Quiet (env : Env) : Prop where
  brk : ∀ t, env.brk t = false

theorem big_hit {env : Env} {c : Call} {st : St} {o : Out} {st' : St} (h : Big env c st o st') : st'.hit = false → st.hit = false := by
  induction h with
  | limit => intro h; simp at h
  | colorize _ _ ih => exact ih
  | outEnd => exact id
  | @outRep c me st st1 o st2 o' st' hl h1 _ hr _ ih1 ih2 =>
    intro h
    obtain ⟨st2', h2, h3⟩ := andThen_ok h1
    cases h3
    have := ih1 (ih2 h)
    have e1 : st2'.hit = st.hit := by
      unfold openLine at h2
      split at h2
      · split at h2
        · simp at h2
        · cases h2; rfl
      · cases h2; rfl
    rw [← e1]
    revert this
    unfold fill St.tock
    split <;> exact id
  | @outStop c me st st1 o st2 hl h1 _ hr ha ih1 =>
    intro h
    obtain ⟨st2', h2, h3⟩ := andThen_ok h1
    cases h3
    have := ih1 h
    have e1 : st2'.hit = st.hit := by
      unfold openLine at h2
      split at h2
      · split at h2
        · simp at h2
        · cases h2; rfl
      · cases h2; rfl
    rw [← e1]
    revert this
    unfold fill St.tock
    split <;> exact id
  | @outNext c me st st1 o st2 o' st' hl h1 _ hr ha _ ih1 ih2 =>
    intro h
    obtain ⟨st2', h2, h3⟩ := andThen_ok h1
    cases h3
    have := ih1 (ih2 h)
    have e1 : st2'.hit = st.hit := by
      unfold openLine at h2
      split at h2
      · split at h2
        · simp at h2
        · cases h2; rfl
      · cases h2; rfl
    rw [← e1]
    revert this
    unfold fill St.tock
    split <;> exact id
  | colEnd => exact id
  | colBrk => exact id
  | colRep _ _ _ _ ih => exact ih
  | @colGo c me len plen st o st1 o' st' hg hb _ hr _ ih1 ih2 =>
    intro h
    have := ih2 h
    have e1 : (bump o st1).hit = st1.hit := by unfold bump; split <;> rfl
    rw [e1] at this
    exact ih1 this
  | nil => exact id
  | inhNone _ ih => exact ih
  | inhHit _ _ ih => exact ih
  | inhMiss _ _ _ ih1 ih2 => exact fun h => ih1 (ih2 h)
  | kwHit => exact id
  | kwMiss _ _ ih => exact ih
  | reHit => exact id
  | reZero _ _ _ ih => exact ih
  | reMiss _ _ ih => exact ih
  | blNone _ _ ih => exact ih
  | blMiss _ _ _ ih => exact ih
  | blZero _ _ _ _ _ _ ih1 ih2 => exact fun h => ih1 (ih2 h)
  | blHit _ _ _ _ ih1 => exact ih1

/-- what `startLine` does -/
theorem startLine_facts {env : Env} {c : Ctx} {st st1 : St} (h : startLine env c st = .ok st1) :
    st1.gx = st.gx ∧ st1.line = st.line ∧ st1.cleared = st.line ∧ st1.level = st.level ∧ st1.hit = st.hit ∧ st1.zip = st.zip ∧
    st1.filled = true ∧ st1.schemeStart = st.schemeStart ∧ st1.tick = st.tick := by
  obtain ⟨st2, h2, h3⟩ := andThen_ok h
  cases h3
  have key : st2.gx = st.gx ∧ st2.line = st.line ∧ st2.cleared = st.line ∧ st2.level = st.level ∧ st2.hit = st.hit ∧ st2.zip = st.zip ∧
      st2.schemeStart = st.schemeStart ∧ st2.tick = st.tick := by
    unfold openLine at h2
    split at h2
    · split at h2
      · simp at h2
      · cases h2; exact ⟨rfl, rfl, rfl, rfl, rfl, rfl, rfl, rfl⟩
    · rename_i hc
      cases h2; exact ⟨rfl, rfl, Decidable.not_not.1 hc, rfl, rfl, rfl, rfl, rfl⟩
  obtain ⟨a1, a2, a3, a4, a5, a6, a7, a8⟩ := key
  unfold fill
  split
  · rename_i hf; exact ⟨a1, a2, a3, a4, a5, a6, hf, a7, a8⟩
  · exact ⟨a1, a2, a3, a4, a5, a6, rfl, a7, a8⟩

theorem big_level {env : Env} {c : Call} {st : St} {o : Out} {st' : St} (h : Big env c st o st') : st'.level = st.level := by
  induction h with
  | limit => rfl
  | colorize _ _ ih => show _ - 1 = _; rw [ih]; rfl
  | outEnd => rfl
  | outRep hl h1 _ hr _ ih1 ih2 => rw [ih2, ih1]; exact (startLine_facts h1).2.2.2.1
  | outStop hl h1 _ hr ha ih1 => rw [← (startLine_facts h1).2.2.2.1]; exact ih1
  | outNext hl h1 _ hr ha _ ih1 ih2 => rw [ih2, ← (startLine_facts h1).2.2.2.1]; exact ih1
  | colEnd => rfl
  | colBrk => rfl
  | colRep _ _ _ _ ih => exact ih
  | @colGo c me len plen st o st1 o' st' hg hb _ hr _ ih1 ih2 =>
    rw [ih2]
    have e1 : (bump o st1).level = st1.level := by unfold bump; split <;> rfl
    rw [e1]; exact ih1
  | nil => rfl
  | inhNone _ ih => exact ih
  | inhHit _ _ ih => exact ih
  | inhMiss _ _ _ ih1 ih2 => rw [ih2, ih1]
  | kwHit => rfl
  | kwMiss _ _ ih => exact ih
  | reHit => rfl
  | reZero _ _ _ ih => exact ih
  | reMiss _ _ ih => exact ih
  | blNone _ _ ih => exact ih
  | blMiss _ _ _ ih => exact ih
  | blZero _ _ _ _ _ _ ih1 ih2 => rw [ih2]; exact ih1
  | blHit _ _ _ _ ih1 => exact ih1

/-- children added by a call that moves from line `a` to line `b` -/
def KidsIn (a b : Int) (ks : List Tree) : Prop := ∀ k ∈ ks, a < k.info.sline ∧ k.info.sline ≤ k.eline ∧ k.eline ≤ b

theorem KidsIn.mono {a b a' b' : Int} {ks : List Tree} (h : KidsIn a b ks) (ha : a' ≤ a) (hb : b ≤ b') : KidsIn a' b' ks := by
  intro k hk; have := h k hk; omega

theorem KidsIn.append {a b : Int} {ks ls : List Tree} (h1 : KidsIn a b ks) (h2 : KidsIn a b ls) : KidsIn a b (ks ++ ls) := by
  intro k hk
  rcases List.mem_append.1 hk with h | h
  · exact h1 k h
  · exact h2 k h

theorem KidsIn.nil (a b : Int) : KidsIn a b [] := by intro k hk; simp at hk

/-- before a call: inside a line, that line is the one announced -/
def FPre (env : Env) (c : Call) (st : St) : Prop :=
  match c with
  | .cols _ _ _ _ | .nodes _ _ _ _ _ => st.cleared = st.line ∧ st.line < env.endL
  | _ => True

def FPost (env : Env) (c : Call) (st : St) (o : Out) (st' : St) : Prop :=
  st.line ≤ st'.line ∧ (st.line ≤ env.endL → st'.line ≤ env.endL) ∧ (st'.hit = false → st'.line < env.endL → st'.cleared = st'.line) ∧
  (match c with
    | .nodes _ _ _ _ _ => o.res ≠ .scheme → st'.line = st.line
    | .cols _ _ _ _ => o.rep = false → st'.line = st.line
    | _ => True) ∧
  (env.upd = true → ∃ ks, st'.zip = st.zip.addKids ks ∧ KidsIn st.line st'.line ks)

theorem not_reparse_line {me : Match} {o : Out} {st st1 : St} (hr : ¬ reparse me o st st1) (h : o.res ≠ .scheme → st1.line = st.line) :
    st1.line = st.line := by
  by_cases hs : o.res = .scheme
  · unfold reparse at hr
    rw [not_or] at hr
    have := hr.1
    rw [not_and] at this
    have := this hs
    rw [not_or, Decidable.not_not] at this
    exact this.1
  · exact h hs

theorem bump_facts (o : Out) (st : St) : (bump o st).line = st.line ∧ (bump o st).cleared = st.cleared ∧ (bump o st).zip = st.zip ∧
    (bump o st).hit = st.hit ∧ (bump o st).level = st.level ∧ (bump o st).filled = st.filled ∧ (bump o st).evs = st.evs := by
  unfold bump; split <;> exact ⟨rfl, rfl, rfl, rfl, rfl, rfl, rfl⟩

theorem big_facts {env : Env} (hq : Quiet env) {c : Call} {st : St} {o : Out} {st' : St} (h : Big env c st o st') :
    st'.hit = false → FPre env c st → FPost env c st o st' := by
  induction h with
  | limit => intro h; simp at h
  | @colorize c me st o st1 hl _ ih =>
    intro h _
    obtain ⟨a1, a2, a3, _, a5⟩ := ih h trivial
    exact ⟨a1, a2, a3, trivial, a5⟩
  | @outEnd c me st hl =>
    intro _ _
    exact ⟨Int.le_refl _, id, fun _ h => absurd h hl, trivial, fun _ => ⟨[], (Zip.addKids_nil _).symm, .nil _ _⟩⟩
  | @outRep c me st st1 o st2 o' st' hl h1 _ hr hb ih1 ih2 =>
    intro h _
    obtain ⟨s1, s2, s3, s4, s5, s6, s7, _⟩ := startLine_facts h1
    obtain ⟨a1, a2, a3, a4, a5⟩ := ih1 (big_hit hb h) ⟨by show st1.cleared = st1.line; omega, by show st1.line < _; omega⟩
    obtain ⟨b1, b2, b3, _, b5⟩ := ih2 h trivial
    have e0 : st1.tock.line = st.line := s2
    rw [e0] at a1 a2
    refine ⟨by omega, fun h => b2 (a2 h), b3, trivial, fun hu => ?_⟩
    obtain ⟨k1, z1, q1⟩ := a5 hu
    obtain ⟨k2, z2, q2⟩ := b5 hu
    rw [e0] at q1
    refine ⟨k1 ++ k2, ?_, (q1.mono (by omega) (by omega)).append (q2.mono (by omega) (by omega))⟩
    rw [z2, z1]
    show (st1.zip.addKids k1).addKids k2 = _
    rw [s6, Zip.addKids_addKids]
  | @outStop c me st st1 o st2 hl h1 _ hr ha ih1 =>
    intro h _
    obtain ⟨s1, s2, s3, s4, s5, s6, s7, _⟩ := startLine_facts h1
    obtain ⟨a1, a2, a3, a4, a5⟩ := ih1 h ⟨by show st1.cleared = st1.line; omega, by show st1.line < _; omega⟩
    have e0 : st1.tock.line = st.line := s2
    rw [e0] at a1 a2
    refine ⟨a1, a2, a3, trivial, fun hu => ?_⟩
    obtain ⟨k1, z1, q1⟩ := a5 hu
    rw [e0] at q1
    refine ⟨k1, ?_, q1⟩
    show st2.zip = _
    rw [z1, ← s6]; rfl
  | @outNext c me st st1 o st2 o' st' hl h1 _ hr ha hb ih1 ih2 =>
    intro h _
    obtain ⟨s1, s2, s3, s4, s5, s6, s7, _⟩ := startLine_facts h1
    obtain ⟨a1, a2, a3, a4, a5⟩ := ih1 (show (nextLine st2).hit = false from big_hit hb h) ⟨by show st1.cleared = st1.line; omega, by show st1.line < _; omega⟩
    obtain ⟨b1, b2, b3, _, b5⟩ := ih2 h trivial
    have e0 : st1.tock.line = st.line := s2
    have a4 : st2.line = st1.tock.line := a4 hr
    rw [e0] at a1 a2
    have e1 : (nextLine st2).line = st.line + 1 := by show st2.line + 1 = _; omega
    rw [e1] at b1 b2
    refine ⟨by omega, fun h => b2 (by omega), b3, trivial, fun hu => ?_⟩
    obtain ⟨k1, z1, q1⟩ := a5 hu
    obtain ⟨k2, z2, q2⟩ := b5 hu
    rw [e0] at q1
    rw [e1] at q2
    refine ⟨k1 ++ k2, ?_, (q1.mono (by omega) (by omega)).append (q2.mono (by omega) (by omega))⟩
    rw [z2]
    show st2.zip.addKids k2 = _
    rw [z1]
    show (st1.zip.addKids k1).addKids k2 = _
    rw [s6, Zip.addKids_addKids]
  | @colEnd c me len plen st hg =>
    rintro _ ⟨h1, h2⟩
    exact ⟨Int.le_refl _, id, fun _ _ => h1, fun _ => rfl, fun _ => ⟨[], (Zip.addKids_nil _).symm, .nil _ _⟩⟩
  | @colBrk c me len plen st hg hb => rw [hq.brk] at hb; simp at hb
  | @colRep c me len plen st o st1 hg hb _ hr ih1 =>
    intro h hp
    obtain ⟨a1, a2, a3, a4, a5⟩ := ih1 h hp
    exact ⟨a1, a2, a3, by intro h; simp at h, a5⟩
  | @colGo c me len plen st o st1 o' st' hg hb _ hr hbb ih1 ih2 =>
    intro h hp
    obtain ⟨e1, e2, e3, e4, _⟩ := bump_facts o st1
    have hh : st1.hit = false := by rw [← e4]; exact big_hit hbb h
    obtain ⟨a1, a2, a3, a4, a5⟩ := ih1 hh hp
    have e0 : st.tock.line = st.line := rfl
    have hln : st1.line = st.line := not_reparse_line hr a4
    have hlt : st1.line < env.endL := by have := hp.2; omega
    obtain ⟨b1, b2, b3, b4, b5⟩ := ih2 h ⟨by rw [e1, e2]; exact a3 hh hlt, by omega⟩
    rw [e1] at b1 b2
    refine ⟨by omega, fun h => b2 (by omega), b3, fun h => by have b4 := b4 h; omega, fun hu => ?_⟩
    obtain ⟨k1, z1, q1⟩ := a5 hu
    obtain ⟨k2, z2, q2⟩ := b5 hu
    rw [e1] at q2
    rw [e0] at q1
    refine ⟨k1 ++ k2, ?_, (q1.mono (by omega) (by omega)).append (q2.mono (by omega) (by omega))⟩
    rw [z2, e3, z1, Zip.addKids_addKids]; rfl
  | @nil levels low hi me st =>
    rintro _ ⟨h1, h2⟩
    exact ⟨Int.le_refl _, id, fun _ _ => h1, fun _ => rfl, fun _ => ⟨[], (Zip.addKids_nil _).symm, .nil _ _⟩⟩
  | inhNone _ ih => exact ih
  | inhHit _ _ ih =>
    intro h hp
    obtain ⟨a1, a2, a3, a4, a5⟩ := ih h hp
    exact ⟨a1, a2, a3, a4, a5⟩
  | @inhMiss s virt ns levels low hi me st o st1 o' st' _ hr hbb ih1 ih2 =>
    intro h hp
    have hh : st1.hit = false := big_hit hbb h
    obtain ⟨a1, a2, a3, a4, a5⟩ := ih1 hh hp
    have hln : st1.line = st.line := a4 (by rw [hr]; simp)
    have hlt : st1.line < env.endL := by have := hp.2; omega
    obtain ⟨b1, b2, b3, b4, b5⟩ := ih2 h ⟨a3 hh hlt, hlt⟩
    refine ⟨by omega, fun h => b2 (by omega), b3, fun h => by have b4 := b4 h; omega, fun hu => ?_⟩
    obtain ⟨k1, z1, q1⟩ := a5 hu
    obtain ⟨k2, z2, q2⟩ := b5 hu
    refine ⟨k1 ++ k2, ?_, (q1.mono (by omega) (by omega)).append (q2.mono (by omega) (by omega))⟩
    rw [z2, z1, Zip.addKids_addKids]
  | @kwHit id' ns levels low hi me st n r hk =>
    rintro _ ⟨h1, h2⟩
    exact ⟨Int.le_refl _, id, fun _ _ => h1, fun _ => rfl, fun _ => ⟨[], (Zip.addKids_nil _).symm, .nil _ _⟩⟩
  | kwMiss _ _ ih => exact ih
  | @reHit start lowP regs ns levels low hi me st m ha he =>
    rintro _ ⟨h1, h2⟩
    exact ⟨Int.le_refl _, id, fun _ _ => h1, fun _ => rfl, fun _ => ⟨[], (Zip.addKids_nil _).symm, .nil _ _⟩⟩
  | reZero _ _ _ ih => exact ih
  | reMiss _ _ ih => exact ih
  | blNone _ _ ih => exact ih
  | blMiss _ _ _ ih => exact ih
  | @blZero b s ns levels low hi me st m o st1 o' st' hs ha _ hz1 hz2 hbb ih1 ih2 =>
    intro h hp
    have hh : (afterBlock env b (target s levels []).1 st st1 o.me).hit = false := big_hit hbb h
    have hh : st1.hit = false := hh
    obtain ⟨a1, a2, a3, _, a5⟩ := ih1 hh trivial
    have e0 : (beforeBlock env b (target s levels []).1 (target s levels []).2 m st.tock).line = st.line := rfl
    rw [e0] at a1 a2
    have hlt : st1.line < env.endL := by have := hp.2; omega
    obtain ⟨b1, b2, b3, b4, b5⟩ := ih2 h ⟨a3 hh hlt, hlt⟩
    have e1 : (afterBlock env b (target s levels []).1 st st1 o.me).line = st1.line := rfl
    rw [e1] at b1 b2
    refine ⟨by omega, fun h => b2 (by omega), b3, fun h => by have b4 := b4 h; rw [e1] at b4; omega, fun hu => ?_⟩
    obtain ⟨k1, z1, q1⟩ := a5 hu
    obtain ⟨k2, z2, q2⟩ := b5 hu
    rw [e1] at q2
    refine ⟨k2, ?_, q2.mono (by omega) (by omega)⟩
    rw [z2]
    congr 1
    simp only [afterBlock, hu, if_true, hz2, z1, beforeBlock]
    rw [Zip.push_addKids_discard]
    rfl
  | @blHit b s ns levels low hi me st m o st1 hs ha _ hz ih1 =>
    intro h hp
    have hh : st1.hit = false := h
    obtain ⟨a1, a2, a3, _, a5⟩ := ih1 hh trivial
    have e0 : (beforeBlock env b (target s levels []).1 (target s levels []).2 m st.tock).line = st.line := rfl
    rw [e0] at a1 a2
    refine ⟨a1, a2, a3, fun h => absurd rfl h, fun hu => ?_⟩
    obtain ⟨k1, z1, q1⟩ := a5 hu
    rw [e0] at q1
    by_cases hl : st.line = st1.line
    · refine ⟨[], ?_, .nil _ _⟩
      rw [Zip.addKids_nil]
      simp only [afterBlock, hu, if_true, if_pos hl, z1, beforeBlock]
      rw [Zip.push_addKids_discard]
      rfl
    · refine ⟨[.node ⟨st.line + 1, (target s levels []).1, (target s levels []).2, b, m, st.str env⟩ st1.line k1], ?_, ?_⟩
      · simp only [afterBlock, hu, if_true, if_neg hl, z1, beforeBlock]
        rw [Zip.push_addKids_close]
        rfl
      · intro k hk
        simp only [List.mem_singleton] at hk
        subst hk
        show st.line < st.line + 1 ∧ st.line + 1 ≤ st1.line ∧ st1.line ≤ st1.line
        omega

end Verif.TextParser
