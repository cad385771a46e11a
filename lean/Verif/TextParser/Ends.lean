import Verif.TextParser.Proper
import Verif.TextParser.History
/-!
# C60: parsing ends

Specification: `Parses` (Resume.lean) - the call ends with a result. `Fits` (Proper.lean): matches and keywords are within the range
searched. `Grounded`: no endless chain of inherits, substitutions taken into account. `Proper`: the cache was made by this grammar.
-/
namespace Verif.TextParser
open Verif.VTList (VEntries resolve)

/-- what is searched when scheme `a.1` under the substitutions `a.2` inherits: an inherit of the scheme, resolved -/
def Inherits (env : Env) (b a : Nat × List VEntries) : Prop :=
  ∃ k virt, Node.inherit (some k) virt ∈ env.nodes a.1 ∧ b = target k a.2 virt

/-- no scheme inherits without end, whatever substitutions of the grammar are active -/
def Grounded (env : Env) : Prop := ∀ s levels, FromG env levels → Acc (Inherits env) (s, levels)

/-- the entries of the cache are blocks of the grammar -/
def Proper (env : Env) (p : PState) : Prop := ∀ i, InTrees i p.cache → InfoOk env i

/-! ## Proof -/

/-- the matching start of a block, with what is known of its content -/
theorem block_pre {env : Env} (hf : Fits env) {b : Block} {s : Nat} {ns : List Node} {levels : List VEntries} {low hi : Int} {me m : Match} {st : St}
    (hp : Pre env (.nodes (.block b :: ns) levels low hi me) st)
    (hx : env.rx st.tick (startQ env b.start st (if b.low then low else hi)) = (true, m)) :
    Pre env (.colorize (blockCtx env b s levels st m) me) (beforeBlock env b (target s levels []).1 (target s levels []).2 m st.tock) ∧
      st.gx ≤ m.e ∧ m.e ≤ lenAt env st.line := by
  obtain ⟨hns, hlv, hh, h1, h2, h3, h4⟩ := hp
  obtain ⟨s', hs'⟩ := hns _ (List.mem_cons_self ..)
  have hq := startQ_asked hh (by omega) h3 h4 (re := b.start) ⟨s', .inr ⟨b, hs', rfl⟩⟩ b.low
  obtain ⟨k1, k2, k3, k4⟩ := hf.rx _ _ _ hq hx
  have k4 : m.s = st.gx := k4 ⟨s', b, hs', rfl⟩ rfl
  have k3' : m.e ≤ lenAt env st.line := by rw [startQ_len] at k3; split at k3 <;> omega
  have hpos := hh.pos
  refine ⟨⟨⟨?_, target_fromG hlv (by simp)⟩, fun _ => ⟨by show 0 ≤ m.e; omega, k3'⟩⟩, by omega, k3'⟩
  intro re t m' h'
  simp only [blockCtx, Option.some.injEq, Prod.mk.injEq] at h'
  obtain ⟨rfl, rfl, rfl⟩ := h'
  exact ⟨b, s', _, _, hs', rfl, hx, rfl, rfl, rfl, hq.1⟩

/-- lines left, columns left, levels left -/
abbrev Left3 := Nat × Nat × Nat

def lt3 (a b : Left3) : Prop := a.1 < b.1 ∨ (a.1 = b.1 ∧ (a.2.1 < b.2.1 ∨ (a.2.1 = b.2.1 ∧ a.2.2 < b.2.2)))

theorem lt3_wf : WellFounded lt3 := by
  have h := (Prod.lex Nat.lt_wfRel (Prod.lex Nat.lt_wfRel Nat.lt_wfRel)).wf
  refine Subrelation.wf ?_ h
  rintro ⟨a1, a2, a3⟩ ⟨b1, b2, b3⟩ hab
  simp only [lt3] at hab
  rcases hab with h | ⟨rfl, h | ⟨rfl, h⟩⟩
  · exact .left _ _ h
  · exact .right _ (.left _ _ h)
  · exact .right _ (.right _ h)

def colsLeft (env : Env) (st : St) : Nat := (lenAt env st.line - st.gx + 1).toNat

def left3 (env : Env) (st : St) : Left3 := ((env.endL - st.line).toNat, colsLeft env st, env.limit + 1 - st.level)

/-- the lines from `F` to the end of the range exist -/
def HasLines (env : Env) (F : Int) : Prop := ∀ l, F ≤ l → l < env.endL → (env.line l).isSome = true

def Ends (env : Env) (c : Call) (st : St) : Prop := ∃ o st', Big env c st o st'

theorem startLine_exists {env : Env} {F : Int} (hL : HasLines env F) (c : Ctx) {st : St} (hF : F ≤ st.line) (hl : st.line < env.endL) :
    ∃ st1, startLine env c st = .ok st1 := by
  have := hL _ hF hl
  unfold startLine openLine
  split
  · cases h : env.line st.line with
    | none => rw [h] at this; simp at this
    | some t => exact ⟨_, rfl⟩
  · exact ⟨_, rfl⟩

section
variable {env : Env} (hf : Fits env) (hg : Grounded env) {F : Int} (hL : HasLines env F) {m : Left3}
  (IH : ∀ c me st, Pre env (.outer c me) st → F ≤ st.line → lt3 (left3 env st) m → Ends env (.outer c me) st)
include hf IH

theorem nodes_ends (a : Nat × List VEntries) (ha : Acc (Inherits env) a) : ∀ ns, (∀ n ∈ ns, n ∈ env.nodes a.1) → ∀ low hi me st,
    Pre env (.nodes ns a.2 low hi me) st → F ≤ st.line → (env.endL - st.line).toNat = m.1 → colsLeft env st ≤ m.2.1 →
    env.limit + 1 - st.level = m.2.2 → Ends env (.nodes ns a.2 low hi me) st := by
  induction ha with
  | intro a _ iha =>
  intro ns
  induction ns with
  | nil => intro _ low hi me st _ _ _ _ _; exact ⟨_, _, .nil⟩
  | cons n ns ihn =>
    intro hns low hi me st hp hF e1 e2 e3
    have hns' : ∀ n ∈ ns, n ∈ env.nodes a.1 := fun n hn => hns n (List.mem_cons_of_mem _ hn)
    have hn := hns n (List.mem_cons_self ..)
    cases n with
    | inherit sch virt =>
      cases sch with
      | none =>
        obtain ⟨o, st', h⟩ := ihn hns' low hi me st ⟨hp.1.tail, hp.2⟩ hF e1 e2 e3
        exact ⟨o, st', .inhNone h⟩
      | some k =>
        have hp' : Pre env (.nodes (env.nodes (target k a.2 virt).1) (target k a.2 virt).2 low hi me) st :=
          ⟨.all _ _, target_fromG hp.2.1 (fun _ => ⟨_, _, hn⟩), hp.2.2⟩
        obtain ⟨o, st1, h1⟩ := iha (target k a.2 virt) ⟨k, virt, hn, rfl⟩ _ (fun _ h => h) low hi me st hp' hF e1 e2 e3
        by_cases hr : o.res = .nothing
        · obtain ⟨z, q1, _⟩ := big_post hf h1 hp'
          obtain ⟨b1, b2, b3⟩ := q1 hr
          obtain ⟨hns2, hlv, hh, g1, g2, g3, g4⟩ := hp
          obtain ⟨o', st', h2⟩ := ihn hns' low hi me st1 ⟨hns2.tail, hlv, hh.move b1 b2 b3, by rw [b2]; exact g1, g2, g3, by rw [b1]; exact g4⟩
            (by omega) (by rw [b1]; exact e1) (by unfold colsLeft; rw [b1, b2]; exact e2) (by rw [big_level h1]; exact e3)
          exact ⟨o', st', .inhMiss h1 hr h2⟩
        · exact ⟨_, _, .inhHit h1 hr⟩
    | keywords id =>
      cases hk : env.kw st.tick id (st.str env) st.gx low with
      | some r => exact ⟨_, _, .kwHit hk⟩
      | none =>
        obtain ⟨o, st', h⟩ := ihn hns' low hi me st.tock ⟨hp.1.tail, hp.2.1, hp.2.2.1.tock, hp.2.2.2⟩ hF e1 e2 e3
        exact ⟨o, st', .kwMiss hk h⟩
    | re start lowP regs =>
      cases hx : env.rx st.tick (startQ env start st (if lowP then low else hi)) with
      | mk b mm =>
        cases b with
        | false =>
          obtain ⟨o, st', h⟩ := ihn hns' low hi me st.tock ⟨hp.1.tail, hp.2.1, hp.2.2.1.tock, hp.2.2.2⟩ hF e1 e2 e3
          exact ⟨o, st', .reMiss hx h⟩
        | true =>
          by_cases he : mm.e = mm.s
          · obtain ⟨o, st', h⟩ := ihn hns' low hi me (st.tock.emit (regEvs st.line mm regs))
              ⟨hp.1.tail, hp.2.1, hp.2.2.1.tock.move rfl rfl rfl, hp.2.2.2⟩ hF e1 e2 e3
            exact ⟨o, st', .reZero hx he h⟩
          · exact ⟨_, _, .reHit hx he⟩
    | block b =>
      cases hs : b.scheme with
      | none =>
        obtain ⟨o, st', h⟩ := ihn hns' low hi me st ⟨hp.1.tail, hp.2⟩ hF e1 e2 e3
        exact ⟨o, st', .blNone hs h⟩
      | some s =>
        cases hx : env.rx st.tick (startQ env b.start st (if b.low then low else hi)) with
        | mk bb mm =>
          cases bb with
          | false =>
            obtain ⟨o, st', h⟩ := ihn hns' low hi me st.tock ⟨hp.1.tail, hp.2.1, hp.2.2.1.tock, hp.2.2.2⟩ hF e1 e2 e3
            exact ⟨o, st', .blMiss hs hx h⟩
          | true =>
            obtain ⟨k1, k2, k3⟩ := block_pre (s := s) hf hp hx
            have hc : Ends env (.colorize (blockCtx env b s a.2 st mm) me) (beforeBlock env b (target s a.2 []).1 (target s a.2 []).2 mm st.tock) := by
              by_cases hl : (beforeBlock env b (target s a.2 []).1 (target s a.2 []).2 mm st.tock).level > env.limit
              · exact ⟨_, _, .limit hl⟩
              · have hl' : ¬ st.level > env.limit := hl
                obtain ⟨o, st1, h⟩ := IH (blockCtx env b s a.2 st mm) me
                  { beforeBlock env b (target s a.2 []).1 (target s a.2 []).2 mm st.tock with level := st.level + 1 } k1 hF (by
                  refine .inr ⟨e1, ?_⟩
                  have q : (lenAt env st.line - mm.e + 1).toNat ≤ (lenAt env st.line - st.gx + 1).toNat := by omega
                  have q2 : (lenAt env st.line - st.gx + 1).toNat ≤ m.2.1 := e2
                  rcases Nat.lt_or_eq_of_le (Nat.le_trans q q2) with h | h
                  · exact .inl h
                  · refine .inr ⟨h, ?_⟩
                    show env.limit + 1 - (st.level + 1) < m.2.2
                    omega)
                exact ⟨_, _, .colorize hl h⟩
            obtain ⟨o, st1, h1⟩ := hc
            by_cases hz : mm.s = o.me.e ∧ st.line = st1.line
            · obtain ⟨hns2, hlv, hh, g1, g2, g3, g4⟩ := hp
              obtain ⟨s', hs'⟩ := hns2 _ (List.mem_cons_self ..)
              have hq := startQ_asked hh (by omega) g3 g4 (re := b.start) ⟨s', .inr ⟨b, hs', rfl⟩⟩ b.low
              obtain ⟨_, j2, _, j4⟩ := hf.rx _ _ _ hq hx
              have j4 : mm.s = st.gx := j4 ⟨s', b, hs', rfl⟩ rfl
              obtain ⟨_, post⟩ := block_post hlv hh g1 ⟨j4, j2⟩ ⟨s', hs'⟩ hx hq.1 (big_post hf h1 k1)
              have w1 : (afterBlock env b (target s a.2 []).1 st st1 o.me).line = st.line := hz.2.symm
              have w2 : (afterBlock env b (target s a.2 []).1 st st1 o.me).gx = st.gx := by show o.me.e = _; omega
              have w3 : (afterBlock env b (target s a.2 []).1 st st1 o.me).cleared = st.cleared := by
                rcases post with q | q
                · exact q.2.1
                · omega
              have w4 : (afterBlock env b (target s a.2 []).1 st st1 o.me).level = st.level := (by have := big_level h1; exact this)
              obtain ⟨o', st', h2⟩ := ihn hns' low hi me (afterBlock env b (target s a.2 []).1 st st1 o.me)
                ⟨hns2.tail, hlv, hh.move w1 w2 w3, by rw [w2]; exact g1, g2, g3, by rw [w1]; exact g4⟩ (by omega) (by rw [w1]; exact e1)
                (by unfold colsLeft; rw [w1, w2]; exact e2) (by rw [w4]; exact e3)
              exact ⟨o', st', .blZero hs hx h1 hz.1 hz.2 h2⟩
            · exact ⟨_, _, .blHit hs hx h1 hz⟩

include hg

theorem cols_ends (c : Ctx) (me : Match) (n : Nat) : ∀ len plen st, colsLeft env st ≤ n → Pre env (.cols c me len plen) st → F ≤ st.line →
    (env.endL - st.line).toNat = m.1 → colsLeft env st ≤ m.2.1 → env.limit + 1 - st.level = m.2.2 → Ends env (.cols c me len plen) st := by
  induction n with
  | zero =>
    intro len plen st hn hp _ _ _ _
    refine ⟨_, _, .colEnd ?_⟩
    have := hp.2.1.mat
    unfold colsLeft at hn
    omega
  | succ n ih =>
    intro len plen st hn hp hF e1 e2 e3
    by_cases hgx : st.gx ≤ me.s
    · cases hb : env.brk st.tick with
      | true => exact ⟨_, _, .colBrk hgx hb⟩
      | false =>
        obtain ⟨hp1, hh, hp2, hp3, hp4⟩ := hp
        have hi := hiLen_in hf.maxBlock hp2
        have hpn : Pre env (.nodes (env.nodes c.scheme) c.levels me.s (hiLen env me.s len) me) st.tock :=
          ⟨.all _ _, hp1.2, hh.tock, hgx, rfl, hi.1, by show _ ≤ lenAt env st.line; omega⟩
        obtain ⟨o, st1, h1⟩ := nodes_ends hf IH (c.scheme, c.levels) (hg _ _ hp1.2) _ (fun _ h => h) _ _ me st.tock hpn hF e1 e2 e3
        by_cases hr : reparse me o st st1
        · exact ⟨_, _, .colRep hgx hb h1 hr⟩
        · obtain ⟨z, a1, a2⟩ := big_post hf h1 hpn
          obtain ⟨f1, f2, f3, _⟩ := bump_facts o st1
          have key : st1.line = st.line ∧ st1.cleared = st.cleared ∧ st.gx < (bump o st1).gx := by
            by_cases hn : o.res = .nothing
            · obtain ⟨b1, b2, b3⟩ := a1 hn
              have b2 : st1.gx = st.gx := b2
              refine ⟨b1, b3, ?_⟩
              unfold bump
              rw [if_pos hn]
              show st.gx < st1.gx + 1
              omega
            · have hbump : bump o st1 = st1 := by unfold bump; rw [if_neg hn]
              rw [hbump]
              rcases a2 hn with ⟨b1, b2, b3, b4⟩ | ⟨b0, b1, b2⟩
              · exact ⟨b1, b4, b2⟩
              · exfalso
                have b1 : st.line < st1.line := b1
                exact hr (.inl ⟨b0, .inl (by omega)⟩)
          obtain ⟨k1, k2, k3⟩ := key
          have hpos := hh.pos
          have hmat := hh.mat
          have hlv : (bump o st1).level = st.level := by
            have e1 : (bump o st1).level = st1.level := by unfold bump; split <;> rfl
            rw [e1]; have := big_level h1; exact this
          have hcl : colsLeft env (bump o st1) < colsLeft env st := by unfold colsLeft; rw [f1, k1]; omega
          obtain ⟨o', st', h2⟩ := ih (if st1.line = st.line then plen else len) plen (bump o st1) (by omega)
            ⟨hp1, ⟨by rw [f2, f1, k1, k2]; exact hh.cleared, by rw [f1, k1]; exact hh.line, by omega, by rw [f1, k1]; exact hh.mat⟩, by
              rw [if_pos k1]; omega, by rw [if_pos k1, f1, k1, hp4]; omega, by rw [f1, k1]; exact hp4⟩
            (by rw [f1, k1]; exact hF) (by rw [f1, k1]; exact e1) (by omega) (by rw [hlv]; exact e3)
          exact ⟨o', st', .colGo hgx hb h1 hr h2⟩
    · exact ⟨_, _, .colEnd hgx⟩

end

theorem outer_ends {env : Env} (hf : Fits env) (hg : Grounded env) {F : Int} (hL : HasLines env F) (m : Left3) : ∀ c me st,
    Pre env (.outer c me) st → F ≤ st.line → left3 env st = m → Ends env (.outer c me) st := by
  induction m using lt3_wf.induction with
  | _ m ih =>
  intro c me st hp hF hm
  have IH : ∀ c me st, Pre env (.outer c me) st → F ≤ st.line → lt3 (left3 env st) m → Ends env (.outer c me) st :=
    fun c me st h1 h2 h3 => ih _ h3 c me st h1 h2 rfl
  by_cases hl : st.line < env.endL
  · obtain ⟨st1, h1⟩ := startLine_exists hL c hF hl
    obtain ⟨g1, g2, g3, g4, _, g6, _⟩ := startLine_facts h1
    obtain ⟨k1, k2⟩ := startLine_here hf hp.1 me hl (hp.2 hl).1 (hp.2 hl).2 h1
    have hm1 : (env.endL - st.line).toNat = m.1 := by rw [← hm]; rfl
    have hm2 : colsLeft env st = m.2.1 := by rw [← hm]; rfl
    have hm3 : env.limit + 1 - st.level = m.2.2 := by rw [← hm]; rfl
    have hc1 : colsLeft env st1.tock = colsLeft env st := by
      show (lenAt env st1.line - st1.gx + 1).toNat = _
      rw [g1, g2]; rfl
    obtain ⟨o, st2, h2⟩ := cols_ends hf hg IH c (endSearch env c me st1).2 (colsLeft env st1.tock) _ _ st1.tock (Nat.le_refl _) k1
      (by show F ≤ st1.line; omega) (by show (env.endL - st1.line).toNat = _; rw [g2]; exact hm1) (by omega)
      (by show env.limit + 1 - st1.level = _; rw [g4]; exact hm3)
    obtain ⟨z1, a1, a2, a3⟩ := big_post hf h2 k1
    have a1 : st1.line ≤ st2.line := a1
    have hlv : st2.level = st1.level := (by have := big_level h2; exact this)
    cases hr : o.rep with
    | true =>
      have b1 := (a2 hr).1
      have b2 : st2.line = st1.line → st1.gx < st2.gx := (a2 hr).2
      by_cases hl2 : st2.line < env.endL
      · obtain ⟨o', st', h3⟩ := IH c (endSearch env c me st1).2 st2 ⟨hp.1, b1⟩ (by omega) (by
          by_cases hse : st2.line = st1.line
          · refine .inr ⟨?_, .inl ?_⟩
            · show (env.endL - st2.line).toNat = _
              rw [hse, g2]; exact hm1
            · show colsLeft env st2 < _
              have b3 := b2 hse
              have b4 := b1 hl2
              rw [← hm2]
              unfold colsLeft
              rw [hse, g2] at b4 ⊢
              omega
          · refine .inl ?_
            show (env.endL - st2.line).toNat < m.1
            omega)
        exact ⟨o', st', .outRep hl h1 h2 hr h3⟩
      · exact ⟨_, _, .outRep hl h1 h2 hr (.outEnd hl2)⟩
    | false =>
      cases ha : (endSearch env c me st1).1 with
      | true => exact ⟨_, _, .outStop hl h1 h2 hr ha⟩
      | false =>
        obtain ⟨o', st', h3⟩ := IH c (endSearch env c me st1).2 (nextLine st2)
          ⟨hp.1, fun _ => ⟨Int.le_refl 0, by show (0 : Int) ≤ lenAt env _; unfold lenAt; omega⟩⟩ (by show F ≤ st2.line + 1; omega) (.inl (by
          show (env.endL - (st2.line + 1)).toNat < m.1
          omega))
        exact ⟨o', st', .outNext hl h1 h2 hr ha h3⟩
  · exact ⟨_, _, .outEnd hl⟩

theorem colorize_ends {env : Env} (hf : Fits env) (hg : Grounded env) {F : Int} (hL : HasLines env F) (c : Ctx) (me : Match) (st : St)
    (hp : Pre env (.colorize c me) st) (hF : F ≤ st.line) : Ends env (.colorize c me) st := by
  by_cases hl : st.level > env.limit
  · exact ⟨_, _, .limit hl⟩
  · obtain ⟨o, st', h⟩ := outer_ends hf hg hL _ c me { st with level := st.level + 1 } hp hF rfl
    exact ⟨_, _, .colorize hl h⟩

/-! ## parse -/

/-- the entries of a zipper come from the cache -/
def FramesIn (ts : List Tree) (fs : List Frame) : Prop := ∀ i, InZip i ⟨fs, []⟩ → InTrees i ts

theorem framesIn_nil (ts : List Tree) : FramesIn ts [] := by
  rintro i (⟨t, ht, _⟩ | ⟨f, hf, _⟩)
  · simp at ht
  · simp at hf

theorem InTrees.mono {i : Info} {a b : List Tree} (h : InTrees i a) (hs : ∀ t ∈ a, t ∈ b) : InTrees i b := by
  obtain ⟨t, ht, hi⟩ := h
  exact ⟨t, hs t ht, hi⟩

mutual
theorem locate_in (ln : Int) : ∀ t : Tree, FramesIn [t] (locate ln t)
  | .node i e kids => by
    have hk := locateKids_in ln kids kids [] (fun _ h => h) (by simp)
    rw [locate.eq_def]
    dsimp only
    have up : ∀ j, InTrees j kids → InTrees j [Tree.node i e kids] := by
      rintro j ⟨t, ht, hj⟩
      exact ⟨_, List.mem_singleton.2 rfl, .kid ht hj⟩
    have last : ∀ j (before : List Tree), (∀ t ∈ before, t ∈ kids) → (j = i ∨ InTrees j before) → InTrees j [Tree.node i e kids] := by
      rintro j before hb (rfl | h)
      · exact ⟨_, List.mem_singleton.2 rfl, .here⟩
      · exact up j (h.mono hb)
    split
    · rename_i path before h
      rw [h] at hk
      rintro j (⟨t, ht, _⟩ | ⟨f, hf, hj⟩)
      · simp at ht
      · rcases List.mem_append.1 hf with hf | hf
        · exact up j (hk.2 path rfl j (.inr ⟨f, hf, hj⟩))
        · simp only [List.mem_singleton] at hf
          subst hf
          exact last j before hk.1 hj
    · rename_i before h
      rw [h] at hk
      rintro j (⟨t, ht, _⟩ | ⟨f, hf, hj⟩)
      · simp at ht
      · simp only [List.mem_singleton] at hf
        subst hf
        exact last j before hk.1 hj
theorem locateKids_in (ln : Int) (all : List Tree) : ∀ (ts before : List Tree), (∀ t ∈ ts, t ∈ all) → (∀ t ∈ before, t ∈ all) →
    (∀ t ∈ (locateKids ln before ts).2, t ∈ all) ∧ ∀ path, (locateKids ln before ts).1 = some path → FramesIn all path
  | [], before, _, hb => by
    rw [locateKids.eq_def]
    exact ⟨hb, fun path h => by simp at h⟩
  | t :: ts, before, ht, hb => by
    have h1 : t ∈ all := ht t (List.mem_cons_self ..)
    have h2 : ∀ t ∈ ts, t ∈ all := fun u hu => ht u (List.mem_cons_of_mem _ hu)
    rw [locateKids.eq_def]
    dsimp only
    split
    · refine ⟨hb, fun path h => ?_⟩
      cases h
      intro j hj
      exact (locate_in ln t j hj).mono (by simpa using h1)
    · split
      · exact locateKids_in ln all ts (before ++ [t]) h2 (by
          intro u hu
          rcases List.mem_append.1 hu with hu | hu
          · exact hb u hu
          · simp only [List.mem_singleton] at hu; subst hu; exact h1)
      · exact locateRest_in ln all ts before [t] h2 hb (by simpa using h1)
theorem locateRest_in (ln : Int) (all : List Tree) : ∀ (ts before skipped : List Tree), (∀ t ∈ ts, t ∈ all) → (∀ t ∈ before, t ∈ all) →
    (∀ t ∈ skipped, t ∈ all) →
    (∀ t ∈ (locateRest ln before skipped ts).2, t ∈ all) ∧ ∀ path, (locateRest ln before skipped ts).1 = some path → FramesIn all path
  | [], before, skipped, _, hb, _ => by
    rw [locateRest.eq_def]
    exact ⟨hb, fun path h => by simp at h⟩
  | t :: ts, before, skipped, ht, hb, hs => by
    have h1 : t ∈ all := ht t (List.mem_cons_self ..)
    have h2 : ∀ t ∈ ts, t ∈ all := fun u hu => ht u (List.mem_cons_of_mem _ hu)
    have hbs : ∀ u ∈ before ++ skipped, u ∈ all := by
      intro u hu
      rcases List.mem_append.1 hu with hu | hu
      · exact hb u hu
      · exact hs u hu
    rw [locateRest.eq_def]
    dsimp only
    split
    · refine ⟨hbs, fun path h => ?_⟩
      cases h
      intro j hj
      exact (locate_in ln t j hj).mono (by simpa using h1)
    · split
      · exact locateKids_in ln all ts (before ++ skipped ++ [t]) h2 (by
          intro u hu
          rcases List.mem_append.1 hu with hu | hu
          · exact hbs u hu
          · simp only [List.mem_singleton] at hu; subst hu; exact h1)
      · exact locateRest_in ln all ts before (skipped ++ [t]) h2 hb (by
          intro u hu
          rcases List.mem_append.1 hu with hu | hu
          · exact hs u hu
          · simp only [List.mem_singleton] at hu; subst hu; exact h1)
end

theorem entry_in {p : PState} {from' : Int} {mode : Mode} {z : Zip} (h : entry p from' mode = some z) : ∀ i, InZip i z → InTrees i p.cache := by
  have off : z = ⟨[], p.cache⟩ → ∀ i, InZip i z → InTrees i p.cache := by
    rintro rfl i (h | ⟨f, hf, _⟩)
    · exact h
    · simp at hf
  have on : z = locateRoot from' p.cache → ∀ i, InZip i z → InTrees i p.cache := by
    rintro rfl i hi
    have hk := locateKids_in from' p.cache p.cache [] (fun _ h => h) (by simp)
    unfold locateRoot at hi
    split at hi
    · rename_i path before h
      rw [h] at hk
      rcases hi with hi | hi
      · exact hi.mono hk.1
      · exact hk.2 path rfl i (.inr hi)
    · rename_i before h
      rw [h] at hk
      rcases hi with hi | ⟨f, hf, _⟩
      · exact hi.mono hk.1
      · simp at hf
  cases mode with
  | off => simp only [entry, Option.some.injEq] at h; exact off h.symm
  | read =>
    simp only [entry] at h
    split at h
    · simp only [Option.some.injEq] at h; exact on h.symm
    · simp at h
  | update =>
    simp only [entry] at h
    split at h
    · simp only [Option.some.injEq] at h; exact on h.symm
    · simp at h

theorem afterFrame_zip {env : Env} {i j : Info} {st : St} {me : Match} (h : InZip j (afterFrame env i st me).zip) : InZip j st.zip := by
  unfold afterFrame at h
  dsimp only at h
  split at h
  · exact inZip_close h
  · exact inZip_discard h

theorem ctxOf_ok {env : Env} {i : Info} (h : InfoOk env i) : CtxOk env (ctxOf i) := by
  refine ⟨?_, h.2⟩
  intro re t m hs
  simp only [ctxOf, Option.some.injEq, Prod.mk.injEq] at hs
  obtain ⟨rfl, rfl, rfl⟩ := hs
  exact h.1

theorem cb_ends {env : Env} (hf : Fits env) (hg : Grounded env) {F : Int} (hL : HasLines env F) (base : Nat) (fs : List Frame) : ∀ (me : Match) (st : St),
    (∀ f ∈ fs, InfoOk env f.info) → (∀ i, InZip i st.zip → InfoOk env i) → F ≤ st.line →
    (st.line < env.endL → 0 ≤ st.gx ∧ st.gx ≤ lenAt env st.line) →
    ∃ me' st', CB env base fs me st me' st' ∧ ∀ i, InZip i st'.zip → InfoOk env i := by
  induction fs with
  | nil =>
    intro me st _ hz hF hgx
    have hp : Pre env (.colorize ⟨none, false, base, []⟩ me) { st with level := 0 } :=
      ⟨⟨by intro _ _ _ h; simp at h, by intro v hv; simp at hv⟩, hgx⟩
    obtain ⟨o, st1, h⟩ := colorize_ends hf hg hL _ me _ hp hF
    obtain ⟨z, _⟩ := big_post hf h hp
    refine ⟨_, _, .nil h, fun i hi => ?_⟩
    rcases z i hi with h | h
    · exact hz i h
    · exact h
  | cons f fs ih =>
    intro me st hfs hz hF hgx
    have hp : Pre env (.colorize (ctxOf f.info) me) { st with level := 0 } := ⟨ctxOf_ok (hfs f (List.mem_cons_self ..)), hgx⟩
    obtain ⟨o, st1, h⟩ := colorize_ends hf hg hL _ me _ hp hF
    obtain ⟨z, a⟩ := big_post hf h hp
    have hE : Ended env { st with level := 0 } o st1 := by
      cases h with
      | limit hl => exact absurd hl (by simp)
      | colorize hl hb => exact (big_post hf hb hp).2
    obtain ⟨a1, a2⟩ := hE
    have a1 : st.line ≤ st1.line := a1
    obtain ⟨me', st', h2, h3⟩ := ih o.me (afterFrame env f.info st1 o.me) (fun g hg => hfs g (List.mem_cons_of_mem _ hg)) (fun i hi => by
      rcases z i (afterFrame_zip hi) with h | h
      · exact hz i h
      · exact h) (by show F ≤ st1.line; omega) (fun hl => by
        obtain ⟨b1, b2, b3, b4, _⟩ := a2 hl
        exact ⟨by show 0 ≤ o.me.e; omega, b4⟩)
    exact ⟨me', st', .cons h h2, h3⟩

theorem call_fits {env : Env} (hf : Fits env) (a b : Int) (m : Mode) : Fits (env.call a b m) := ⟨hf.rx, hf.kw, hf.maxBlock⟩

/-- C60, one call: a call of `parse` over lines that exist ends, and leaves a cache made by the grammar. -/
theorem C60_parse_ends (env : Env) (hf : Fits env) (hg : Grounded env) (p : PState) (hp : Proper env p) (from' num : Int) (mode : Mode)
    (hfrom : mode = .off ∨ (0 ≤ from' ∧ from' ≤ 0x7FFFFFF)) (hlines : ∀ l, from' ≤ l → l < from' + num → ∃ t, env.line l = some t) :
    ∃ r, Parses env p from' num mode r ∧ Proper env r.after := by
  have he : ∃ z, entry p from' mode = some z := by
    cases mode with
    | off => exact ⟨_, rfl⟩
    | read => simp only [entry]; rw [if_pos (by simpa using hfrom)]; exact ⟨_, rfl⟩
    | update => simp only [entry]; rw [if_pos (by simpa using hfrom)]; exact ⟨_, rfl⟩
  obtain ⟨z, hz⟩ := he
  have hin := entry_in hz
  have hall : ∀ i, InZip i z → InfoOk env i := fun i hi => hp i (hin i hi)
  obtain ⟨me', st', h1, h2⟩ := cb_ends (env := env.call from' num mode) (call_fits hf _ _ _) hg (F := from') (by
      intro l h1 h2
      obtain ⟨t, ht⟩ := hlines l h1 h2
      show (env.line l).isSome = true
      rw [ht]; rfl) p.base z.frames p.me (startState p from' z) (fun f hf' => hall _ (.inr ⟨f, hf', .inl rfl⟩)) hall (Int.le_refl _)
      (fun _ => ⟨Int.le_refl 0, by show (0 : Int) ≤ lenAt _ _; unfold lenAt; omega⟩)
  refine ⟨_, parses_of_cb hz h1, ?_⟩
  intro i hi
  have hi : InTrees i (if mode = .update then st'.zip.root else p.cache) := hi
  split at hi
  · exact h2 i (.inl hi)
  · exact hp i hi

/-- a call of `parse` when the text is `text` -/
structure Job where
  text  : Int → Option Text
  from' : Int
  num   : Int
  mode  : Mode

/-- the line to begin with is one the cache covers, and all lines exist -/
def Job.Ok (j : Job) : Prop :=
  (j.mode = .off ∨ (0 ≤ j.from' ∧ j.from' ≤ 0x7FFFFFF)) ∧ ∀ l, j.from' ≤ l → l < j.from' + j.num → ∃ t, j.text l = some t

/-- a sequence of calls, each continuing with what the one before left, that all end -/
inductive Done (env : Env) : PState → List Job → List Result → Prop
  | nil {p : PState} : Done env p [] []
  | cons {p : PState} {j : Job} {js : List Job} {r : Result} {rs : List Result} :
      Parses (env.text j.text) p j.from' j.num j.mode r → Done env r.after js rs → Done env p (j :: js) (r :: rs)

/-- C60: whatever the texts, the edits between the calls and the ranges, every call ends: no cache that a sequence of calls over any
texts leaves, however stale, makes a later call run without end. -/
theorem C60_every_call_ends (env : Env) (hf : Fits env) (hg : Grounded env) (base : Nat) (js : List Job) (hj : ∀ j ∈ js, j.Ok) :
    ∃ rs, Done env (fresh base) js rs := by
  have key : ∀ (js : List Job), (∀ j ∈ js, j.Ok) → ∀ p, Proper env p → ∃ rs, Done env p js rs := by
    intro js
    induction js with
    | nil => intro _ p _; exact ⟨_, .nil⟩
    | cons j js ih =>
      intro hj p hp
      obtain ⟨h1, h2⟩ := hj j (List.mem_cons_self ..)
      obtain ⟨r, a1, a2⟩ := C60_parse_ends (env.text j.text) ⟨hf.rx, hf.kw, hf.maxBlock⟩ hg p hp j.from' j.num j.mode h1 h2
      obtain ⟨rs, b⟩ := ih (fun k hk => hj k (List.mem_cons_of_mem _ hk)) r.after a2
      exact ⟨_, .cons a1 b⟩
  refine key js hj _ ?_
  rintro i ⟨t, ht, _⟩
  simp [fresh] at ht

end Verif.TextParser
