import Verif.TextParser.Replay
import Verif.TextParser.History
/-!
# The events of a full parse and of a resumed one, side by side

`split_core`: the events of a full parse of `[0, E)` are those of the parse of `[0, F)` followed by those of the lines from `F` on; a parse
resumed at `F` reports the latter, with the open blocks replayed after the announcement of line `F`. `fresh_evs`: the events of a full
parse depend only on the lines parsed. `parse_opaque`: no block is entered without a region if the grammar has no such block.
-/
namespace Verif.TextParser

theorem parse_lines {env : Env} (hp : Pure env) {p : PState} {from' num : Int} {mode : Mode} {r : Result} (hf : 0 ≤ from') (hn : 0 < num)
    (h : Parses env p from' num mode r) :
    r.ret = from' + num - 1 ∧ ∃ evs, r.evs = .start from' :: evs ++ [.fin r.ret] ∧ Lines from' num.toNat evs := by
  obtain ⟨fuel, h⟩ := h.parse
  obtain ⟨n, evs, a1, a2, _, a3, _, a4⟩ := C32_lines_in_order _ _ _ _ _ _ _ hf h
  have a4 := a4 hp.brk
  subst a4
  refine ⟨by have := a3 (by omega); omega, evs, a1, a2⟩

theorem notPseudo_filter {es : List Ev} (h : NoPseudo es) : es.filter notPseudo = es := List.filter_eq_self.2 h

theorem pseudos_nil (l : Int) (s : Nat) : pseudos l [] s = [] := rfl

theorem entry_nil {p : PState} (h : p.cache = []) : entry p 0 .update = some ⟨[], []⟩ := by
  simp only [entry, h]
  rw [if_pos (by omega)]
  unfold locateRoot
  rw [locateKids.eq_def]

/-- a full parse replays nothing -/
theorem full_noPseudo {env : Env} {p : PState} (h0 : p.cache = []) {num : Int} (hn : 0 < num) {r : Result} (h : Parses env p 0 num .update r) :
    NoPseudo r.evs := by
  obtain ⟨z, s, new, a1, a2, a3⟩ := parse_replay h (by omega) hn
  rw [entry_nil h0] at a1
  cases a1
  rw [a3, pseudos_nil]
  intro e he
  simp only [List.cons_append, List.mem_cons, List.mem_append, List.not_mem_nil, or_false, false_or] at he
  rcases he with rfl | rfl | he | rfl
  · rfl
  · rfl
  · exact a2 e he
  · rfl

theorem split_core {env : Env} (hp : Pure env) {p0 : PState} (h0 : p0.cache = []) {E F : Int} (hF : 0 ≤ F) (hFE : F < E) (hmax : F ≤ 0x7FFFFFF) {r : Result}
    (h : Parses env p0 0 E .update r) (hh : r.hit = false) :
    ∃ fs c rF eF rest, Parses env p0 0 F .update rF ∧ rF.hit = false ∧ locateRoot F rF.after.cache = ⟨fs, c⟩ ∧
      locateRoot F r.after.cache = ⟨fs, c⟩ ∧ rF.evs = .start 0 :: eF ++ [.fin rF.ret] ∧ Lines 0 F.toNat eF ∧
      r.evs = .start 0 :: (eF ++ .clear F :: rest) ++ [.fin r.ret] ∧ Lines 0 E.toNat (eF ++ .clear F :: rest) ∧
      NoPseudo eF ∧ NoPseudo rest ∧ nest [] eF = some (opened fs) ∧ (∀ e ∈ rest, ∃ l, e.line? = some l ∧ F ≤ l) ∧
      ∀ (p : PState) (mode : Mode), mode ≠ .off → p.base = p0.base → locateRoot F p.cache = ⟨fs, c⟩ →
        ∃ r2 s, Parses env p F (E - F) mode r2 ∧ r2.hit = false ∧ r2.ret = E - 1 ∧
          r2.evs = .start F :: (.clear F :: pseudos F fs s ++ rest) ++ [.fin r2.ret] ∧
          Lines F (E - F).toNat (.clear F :: pseudos F fs s ++ rest) ∧ (mode = .update → r2.after.cache = r.after.cache) := by
  obtain ⟨fs, c, rF, A, new, a1, a2, a3, a4, a5, a6, a7⟩ := resume_core hp h0 hF (by omega) h hh
  have hnp := full_noPseudo h0 (by omega) h
  obtain ⟨b1, ev, b2, b3⟩ := parse_lines hp (by omega) (by omega) h
  -- the events of the short parse
  obtain ⟨fuelF, hF1⟩ := a1.parse
  obtain ⟨nF, eF, x1, x2, x3, _, _, x4⟩ := C32_lines_in_order _ _ _ _ _ _ _ (Int.le_refl 0) hF1
  have x4 := x4 hp.brk
  subst x4
  have hA : A = .start 0 :: eF := by
    rw [a6] at x1
    exact List.append_cancel_right x1
  have hopen := C33_open_at_end_is_cached env hp.brk fuelF p0 h0 F hF rF hF1 a2
  rw [a3, x1] at hopen
  have hopen : nest [] eF = some (opened fs) := by
    rw [show Ev.start 0 :: eF ++ [Ev.fin rF.ret] = [Ev.start 0] ++ (eF ++ [.fin rF.ret]) from rfl, nest_append] at hopen
    simp only [nest, nestStep, Option.bind_some] at hopen
    rw [nest_append] at hopen
    cases hq : nest [] eF with
    | none => rw [hq] at hopen; simp at hopen
    | some T => rw [hq] at hopen; simpa [nest, nestStep] using hopen
  have hnew : NoPseudo new := by
    intro e he
    exact hnp e (by rw [a5]; simp [he])
  have heF : NoPseudo eF := by
    intro e he
    exact hnp e (by rw [a5, hA]; simp [he])
  -- what a resumed parse reports
  have key : ∀ (p : PState) (mode : Mode), mode ≠ .off → p.base = p0.base → locateRoot F p.cache = ⟨fs, c⟩ →
      ∃ r2 s rest2, Parses env p F (E - F) mode r2 ∧ r2.hit = false ∧ r2.ret = E - 1 ∧
          r2.evs = .start F :: (.clear F :: pseudos F fs s ++ rest2) ++ [.fin r2.ret] ∧ new = .clear F :: rest2 ∧
          Lines F (E - F).toNat (.clear F :: pseudos F fs s ++ rest2) ∧ (mode = .update → r2.after.cache = r.after.cache) := by
    intro p mode hm hb hloc
    obtain ⟨r2, new2, c1, c2, c3, c4, c5⟩ := a7 p mode hm hmax hb hloc
    obtain ⟨d1, ev2, d2, d3⟩ := parse_lines hp hF (by omega) c1
    obtain ⟨z, s, rest2, g1, g2, g3⟩ := parse_replay c1 hF (by omega)
    have hz : z = ⟨fs, c⟩ := by
      cases mode with
      | off => exact absurd rfl hm
      | read => simp only [entry] at g1; rw [if_pos ⟨hF, hmax⟩, hloc] at g1; cases g1; rfl
      | update => simp only [entry] at g1; rw [if_pos ⟨hF, hmax⟩, hloc] at g1; cases g1; rfl
    subst hz
    have hev : ev2 = .clear F :: pseudos F fs s ++ rest2 := by
      rw [d2] at g3
      have g3 : Ev.start F :: ev2 = Ev.start F :: (.clear F :: pseudos F fs s ++ rest2) := List.append_cancel_right (by simpa using g3)
      exact (List.cons.inj g3).2
    have hn2 : new2 = .clear F :: pseudos F fs s ++ rest2 := by
      rw [c3] at d2
      have d2 : Ev.start F :: new2 = Ev.start F :: ev2 := List.append_cancel_right d2
      rw [(List.cons.inj d2).2, hev]
    have hnew2 : new = .clear F :: rest2 := by
      rw [← notPseudo_filter hnew, ← c4, hn2]
      rw [List.filter_append, List.filter_cons_of_pos (by rfl), pseudos_filter, notPseudo_filter g2]
      rfl
    refine ⟨r2, s, rest2, c1, c2, by omega, by rw [d2, hev], hnew2, by rw [← hev]; exact d3, c5⟩
  obtain ⟨_, _, rest, _, _, _, _, hnr, hrl, _⟩ := key { p0 with cache := r.after.cache } .read (by simp) rfl a4
  have hev : ev = eF ++ .clear F :: rest := by
    rw [a5, hA, hnr] at b2
    have b2 : Ev.start 0 :: eF ++ .clear F :: rest = Ev.start 0 :: ev := List.append_cancel_right b2
    exact (List.cons.inj b2).2.symm
  refine ⟨fs, c, rF, eF, rest, a1, a2, a3, a4, x1, x2, by rw [b2, hev], by rw [← hev]; exact b3, heF, ?_, hopen, ?_, ?_⟩
  · intro e he
    exact hnew e (by rw [hnr]; simp [he])
  · intro e he
    obtain ⟨l, l1, l2, _⟩ := hrl.mem e (by simp [he])
    exact ⟨l, l1, l2⟩
  · intro p mode hm hb hloc
    obtain ⟨r2, s, rest2, g1, g2, g3, g4, g5, g6, g7⟩ := key p mode hm hb hloc
    rw [hnr] at g5
    have g5 := (List.cons.inj g5).2
    subst g5
    exact ⟨r2, s, g1, g2, g3, g4, g6, g7⟩

/-- the events of a full parse depend only on the lines parsed -/
theorem fresh_evs {env : Env} (hp : Pure env) {T T' : Int → Option Text} {p0 p1 : PState} (h0 : p0.cache = []) (h1 : p1.cache = [])
    (hb : p1.base = p0.base) {F : Int} (hF : 0 < F) (hT : ∀ l, l < F → T' l = T l) {r : Result} (h : Parses (env.text T) p0 0 F .update r)
    (hh : r.hit = false) : ∃ r', Parses (env.text T') p1 0 F .update r' ∧ r'.hit = false ∧ r'.evs = r.evs := by
  have H : EnvSim ((env.text T).call 0 F .update) ((env.text T').call 0 F .update) :=
    ⟨rfl, hp.rx, hp.kw, hp.brk, hp.brk, fun l hl => hT l (by have : l < 0 + F := hl; omega), rfl, rfl, rfl, fun _ => rfl⟩
  have hnp := full_noPseudo h0 hF h
  have hret := (parse_lines (hp.text T) (by omega) hF h).1
  obtain ⟨fuel, h⟩ := h.parse
  obtain ⟨z, me, st, hze, hcb, hr⟩ := parse_cb h
  rw [entry_nil h0] at hze
  cases hze
  cases hcb with
  | @nil _ _ o st1 hbg =>
    cases hbg with
    | limit hl => exact absurd hl (by simp)
    | @colorize _ _ _ _ st2 hl hbg =>
      subst hr
      have hh : st2.hit = false := hh
      obtain ⟨me3, t', d1, d2⟩ := chain_sim (P1 := [.start 0]) (P2 := [.start 0]) (base := p0.base) H (.nil) hbg hh [] p1.me (startState p1 0 ⟨[], []⟩) rfl
        (by show 0 + 1 ≤ 0 + 1; omega) ⟨rfl, fun _ => rfl, Or.inl rfl, Nat.zero_le _, rfl, fun _ => rfl, [], [], rfl, rfl, rfl⟩
      rw [← hb] at d1
      have hP := parses_of_cb (entry_nil h1) d1
      have hnp' := full_noPseudo h1 hF hP
      have hret' := (parse_lines (hp.text T') (by omega) hF hP).1
      refine ⟨_, hP, d2.hit, ?_⟩
      obtain ⟨n1, n2, x1, x2, x3⟩ := d2.evs
      have x1 : st2.evs = [.start 0] ++ n1 := x1
      have hnp : NoPseudo (st2.evs ++ [.fin st2.endLine]) := hnp
      have hnp' : NoPseudo (t'.evs ++ [.fin t'.endLine]) := hnp'
      have hret : st2.endLine = 0 + F - 1 := hret
      have hret' : t'.endLine = 0 + F - 1 := hret'
      show t'.evs ++ [.fin t'.endLine] = st2.evs ++ [.fin st2.endLine]
      rw [hret, hret', x1, x2]
      rw [x1] at hnp
      rw [x2] at hnp'
      rw [← notPseudo_filter (es := n1) (fun e he => hnp e (by simp [he])), ← notPseudo_filter (es := n2) (fun e he => hnp' e (by simp [he])), x3]

/-- the regions of all blocks of the grammar (`none`: a block without a region) meet `Q` -/
def BlocksAre (Q : Option Nat → Prop) (env : Env) : Prop := ∀ s b, Node.block b ∈ env.nodes s → Q b.region

/-- no block of the grammar is transparent (without a region) -/
def Opaque (env : Env) : Prop := ∀ s b, Node.block b ∈ env.nodes s → b.region.isSome = true

/-- the region of a block entered meets `Q` -/
def EntOk (Q : Option Nat → Prop) : Ev → Prop
  | .enter _ _ _ r _ => Q r
  | _ => True

variable {Q : Option Nat → Prop}

theorem regEvs_ent (l : Int) (m : Match) (regs : List (Option Nat)) : ∀ e ∈ regEvs l m regs, EntOk Q e := by
  intro e he
  unfold regEvs at he
  simp only [List.mem_flatten, List.mem_map] at he
  obtain ⟨_, ⟨x, _, rfl⟩, he⟩ := he
  unfold regEv at he
  split at he
  · simp at he
  · split at he
    · simp at he
    · simp only [List.mem_singleton] at he; subst he; trivial

theorem regEv_ent (l : Int) (g : Int × Int) (r : Option Nat) : ∀ e ∈ regEv l g r, EntOk Q e := by
  intro e he
  unfold regEv at he
  split at he
  · simp at he
  · split at he
    · simp at he
    · simp only [List.mem_singleton] at he; subst he; trivial

theorem enterEvs_ent (l : Int) (m : Match) {b : Block} (s : Nat) (h : Q b.region) : ∀ e ∈ enterEvs l m b s, EntOk Q e := by
  intro e he
  unfold enterEvs at he
  split at he
  · simp only [List.mem_append, List.mem_singleton] at he
    rcases he with he | he
    · exact regEvs_ent _ _ _ e he
    · subst he; exact h
  · rcases List.mem_cons.1 he with he | he
    · subst he; exact h
    · exact regEvs_ent _ _ _ e he

theorem leaveEvs_ent (l : Int) (m : Match) (b : Block) (s : Nat) : ∀ e ∈ leaveEvs l m b s, EntOk Q e := by
  intro e he
  unfold leaveEvs at he
  split at he
  · rcases List.mem_cons.1 he with he | he
    · subst he; trivial
    · exact regEvs_ent _ _ _ e he
  · simp only [List.mem_append, List.mem_singleton] at he
    rcases he with he | he
    · exact regEvs_ent _ _ _ e he
    · subst he; trivial

theorem startLine_ent {env : Env} {c : Ctx} {st st1 : St} (h : startLine env c st = .ok st1) : Adds (EntOk Q) st st1 := by
  obtain ⟨st2, h2, h3⟩ := andThen_ok h
  cases h3
  have k : Adds (EntOk Q) st st2 := by
    unfold openLine at h2
    split at h2
    · split at h2
      · simp at h2
      · cases h2; exact .of rfl (by intro e he; simp only [List.mem_singleton] at he; subst he; trivial)
    · cases h2; exact .refl rfl
  refine k.trans ?_
  show Adds (EntOk Q) st2 { fill c st2 with endLine := _ }
  unfold fill
  split
  · exact .refl rfl
  · refine .of rfl ?_
    intro e he
    unfold pseudos at he
    simp only [List.mem_map] at he
    obtain ⟨_, _, rfl⟩ := he
    trivial

def Call.Opq (Q : Option Nat → Prop) : Call → Prop
  | .nodes ns _ _ _ _ => ∀ b, Node.block b ∈ ns → Q b.region
  | _ => True

theorem big_ent {env : Env} (ho : BlocksAre Q env) {c : Call} {st : St} {o : Out} {st' : St} (h : Big env c st o st') :
    c.Opq Q → Adds (EntOk Q) st st' := by
  have tl : ∀ {n : Node} {ns : List Node}, (∀ b, Node.block b ∈ n :: ns → Q b.region) → ∀ b, Node.block b ∈ ns → Q b.region :=
    fun h b hb => h b (List.mem_cons_of_mem _ hb)
  have aft : ∀ (b : Block) (s : Nat) (st0 st : St) (me : Match), Adds (EntOk Q) st (afterBlock env b s st0 st me) := by
    intro b s st0 st me
    refine .of rfl ?_
    split
    · exact leaveEvs_ent _ _ _ _
    · intro e he; simp at he
  induction h with
  | limit => intro _; exact .refl rfl
  | colorize _ _ ih => intro _; exact ih trivial
  | outEnd => intro _; exact .refl rfl
  | outRep _ h1 _ _ _ ih1 ih2 => intro _; exact ((startLine_ent h1).trans (ih1 trivial)).trans (ih2 trivial)
  | outStop _ h1 _ _ _ ih1 => intro _; exact ((startLine_ent h1).trans (ih1 trivial)).trans (.refl rfl)
  | outNext _ h1 _ _ _ _ ih1 ih2 => intro _; exact (((startLine_ent h1).trans (ih1 trivial)).trans (.refl rfl)).trans (ih2 trivial)
  | colEnd => intro _; exact .refl rfl
  | colBrk => intro _; exact .refl rfl
  | colRep _ _ _ _ ih => intro _; exact ih (ho _)
  | @colGo c me len plen st o st1 o' st' _ _ _ _ _ ih1 ih2 =>
    intro _
    have a : Adds (EntOk Q) st.tock st1 := ih1 (ho _)
    exact (Adds.trans (b := st1) a (.refl (bump_facts o st1).2.2.2.2.2.2)).trans (ih2 trivial)
  | nil => intro _; exact .refl rfl
  | inhNone _ ih => intro h; exact ih (tl h)
  | inhHit _ _ ih => intro _; exact ih (ho _)
  | inhMiss _ _ _ ih1 ih2 => intro h; exact (ih1 (ho _)).trans (ih2 (tl h))
  | kwHit => intro _; exact .of rfl (regEv_ent _ _ _)
  | kwMiss _ _ ih => intro h; exact ih (tl h)
  | reHit => intro _; exact .of rfl (regEvs_ent _ _ _)
  | reZero _ _ _ ih => intro h; exact (Adds.of rfl (regEvs_ent _ _ _)).trans (ih (tl h))
  | reMiss _ _ ih => intro h; exact ih (tl h)
  | blNone _ _ ih => intro h; exact ih (tl h)
  | blMiss _ _ _ ih => intro h; exact ih (tl h)
  | @blZero b s ns levels low hi me st m o st1 o' st' hs hx hb1 he hl hb ih1 ih2 =>
    intro h
    exact (((Adds.of rfl (enterEvs_ent _ _ _ (h b (by simp)))).trans (ih1 trivial)).trans (aft _ _ _ _ _)).trans (ih2 (tl h))
  | @blHit b s ns levels low hi me st m o st1 hs hx hb1 hne ih1 =>
    intro h
    exact ((Adds.of rfl (enterEvs_ent _ _ _ (h b (by simp)))).trans (ih1 trivial)).trans (aft _ _ _ _ _)

/-- the regions of the blocks entered are those of the grammar -/
theorem parse_opaque {env : Env} (ho : BlocksAre Q env) {p : PState} {num : Int} (hc : p.cache = []) {r : Result}
    (h : Parses env p 0 num .update r) : ∀ e ∈ r.evs, EntOk Q e := by
  obtain ⟨fuel, h⟩ := h.parse
  obtain ⟨z, me, st, hz, hcb, hr'⟩ := parse_cb h
  subst hr'
  rw [entry_nil hc] at hz
  cases hz
  have hO : BlocksAre Q (env.call 0 num .update) := ho
  cases hcb with
  | @nil _ _ o st1 hb =>
    obtain ⟨new, a1, a2⟩ := big_ent hO hb trivial
    intro e he
    have he : e ∈ st1.evs ++ [.fin st1.endLine] := he
    rw [a1] at he
    simp only [List.mem_append, List.mem_singleton] at he
    rcases he with (he | he) | he
    · have he : e ∈ [Ev.start 0] := he
      simp only [List.mem_singleton] at he
      subst he; trivial
    · exact a2 e he
    · subst he; trivial

/-- the schemes left open were entered -/
theorem nest_open {es : List Ev} (h : ∀ e ∈ es, EntOk Q e) (hn : NoPseudo es) : ∀ {S T : List Open}, nest S es = some T →
    (∀ o ∈ S, Q o.1) → ∀ o ∈ T, Q o.1 := by
  induction es with
  | nil => intro S T hT hS; simp only [nest, Option.some.injEq] at hT; subst hT; exact hS
  | cons e es ih =>
    intro S T hT hS
    rw [nest] at hT
    cases hq : nestStep S e with
    | none => rw [hq] at hT; simp at hT
    | some S1 =>
      rw [hq, Option.bind_some] at hT
      refine ih (fun e he => h e (List.mem_cons_of_mem _ he)) (fun e he => hn e (List.mem_cons_of_mem _ he)) hT ?_
      have he := h e (by simp)
      have hnp := hn e (by simp)
      cases e with
      | enter l sx ex r s =>
        simp only [nestStep, Option.some.injEq] at hq
        subst hq
        intro o ho
        rcases List.mem_cons.1 ho with rfl | ho
        · exact he
        · exact hS o ho
      | pseudo l r s => simp [notPseudo] at hnp
      | leave l sx ex r s =>
        simp only [nestStep] at hq
        cases S with
        | nil => simp at hq
        | cons o S =>
          simp only at hq
          split at hq
          · cases hq; exact fun o ho => hS o (List.mem_cons_of_mem _ ho)
          · simp at hq
      | start l => simp only [nestStep, Option.some.injEq] at hq; subst hq; exact hS
      | clear l => simp only [nestStep, Option.some.injEq] at hq; subst hq; exact hS
      | region l sx ex r => simp only [nestStep, Option.some.injEq] at hq; subst hq; exact hS
      | fin l => simp only [nestStep, Option.some.injEq] at hq; subst hq; exact hS

end Verif.TextParser
