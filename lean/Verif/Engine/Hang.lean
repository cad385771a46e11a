import Verif.Engine.Demo
/-!
# C60: expressions with which the parser loops for ever

One line `ab`, one expression `/(a\m)?/`, a grammar of this one node. At column 0 the expression marks the beginning behind `a`: an empty
match, skipped. `startChange` stays set (cregexp.cpp never resets it between calls), so the empty match at column 1 has no beginning (-1) and
is not taken for empty (TextParserImpl.cpp:320): the parser stays at column 1 for ever.
-/
namespace Verif.Engine.Demo
open Verif.RegExp (Expr Out parse uses)
open Verif.RegExp.Demo (cx str ascii)
open Verif.TextParser (Query Match Env Text PState Result Parses fresh Node Big Call St Ctx Mode)

/-- `/(a\m)?/` -/
def mark : Expr := comp cx "/(a\\m)?/"

def langM : Lang := { lang with prog := fun _ => mark }

def ab (pos : Int) : Query := ⟨1, str "ab", pos, 2, -1, none⟩
def argsOf (q : Query) : RegExp.Args := ⟨q.text, q.pos, q.len, q.schemeStart, none, none⟩

/-- answers of the object: new for the first, after that call for the second; any for other queries -/
noncomputable def rxM (_ : Nat) (q : Query) : Bool × Match :=
  open Classical in
  if q = ab 0 then (true, ⟨1, 1, [(0, 1)]⟩) else if q = ab 1 then (true, ⟨-1, 1, [(-1, -1)]⟩)
  else if h : ∃ a, Says langM q a then h.choose else (false, ⟨0, 0, []⟩)

noncomputable def envM : Env :=
  ⟨fun _ => [.re 1 false [some 5]], rxM, kwOf lang, fun _ => false, fun _ => some (str "ab"), 1000, 100, false, 0⟩

def objAfter (l : List (Nat × RegExp.Args × RegExp.Matches)) : RegExp.Obj := match uses ascii mark l (newObj false) with | some o => o | none => newObj false

def shownM (o : RegExp.Obj) (q : Query) : Option (RegExp.End × Match) := (parse ascii mark 60 o (argsOf q) blank).map fun out => (out.res, matchOf mark out.m)

theorem first_call : shownM (newObj false) (ab 0) = some (.ret true, ⟨1, 1, [(0, 1)]⟩) := by decide +kernel

def once : List (Nat × RegExp.Args × RegExp.Matches) := [(60, argsOf (ab 0), blank)]

theorem once_ends : (uses ascii mark once (newObj false)).isSome = true := by decide +kernel
theorem second_call : shownM (objAfter once) (ab 1) = some (.ret true, ⟨-1, 1, [(-1, -1)]⟩) := by decide +kernel

theorem says_first : Says langM (ab 0) (true, ⟨1, 1, [(0, 1)]⟩) := by
  have h := first_call
  unfold shownM at h
  cases e : parse ascii mark 60 (newObj false) (argsOf (ab 0)) blank with
  | none => rw [e] at h; simp at h
  | some out =>
    rw [e] at h
    simp only [Option.map_some, Option.some.injEq, Prod.mk.injEq] at h
    exact ⟨[], newObj false, 60, none, blank, out, rfl, trivial, e, h.1, fun _ => h.2.symm⟩

theorem says_second : Says langM (ab 1) (true, ⟨-1, 1, [(-1, -1)]⟩) := by
  have h := second_call
  have h0 := once_ends
  unfold objAfter at h
  cases e0 : uses ascii mark once (newObj false) with
  | none => rw [e0] at h0; simp at h0
  | some o =>
    rw [e0] at h
    unfold shownM at h
    dsimp only at h
    cases e : parse ascii mark 60 o (argsOf (ab 1)) blank with
    | none => rw [e] at h; simp at h
    | some out =>
      rw [e] at h
      simp only [Option.map_some, Option.some.injEq, Prod.mk.injEq] at h
      exact ⟨once, o, 60, none, blank, out, e0, trivial, e, h.1, fun _ => h.2.symm⟩

/-- every call of the expression ends -/
theorem says_some (q : Query) (hq : TextParser.Asked envM q) : ∃ a, Says langM q a := by
  obtain ⟨⟨w1, w2, w3⟩, ⟨hb, _⟩ | ⟨t, m, _, b, s, _, _, h, _⟩⟩ := hq
  · obtain ⟨k, out, hk⟩ := RegExp.C51_matching_ends_partial ascii mark (newObj q.back.isSome) (argsOf q) blank (by decide +kernel) w2
    have hk := hk k (Nat.le_refl _)
    obtain ⟨g, _⟩ := RegExp.C28_inside_the_text ascii mark k _ _ _ out w1 (by show q.pos ≤ (q.text.length : Int); omega) w3 (by show RegExp.TraceOk (argsOf q).back; trivial) (by decide +kernel) hk
    cases ho : out.res with
    | oob => exact absurd ho g
    | ret v => exact ⟨(v, matchOf mark out.m), [], _, k, none, blank, out, rfl, by simp [TraceOf, hb], hk, ho, fun _ => rfl⟩
  · simp [envM] at h

theorem engineM : Engine langM envM := by
  intro t q hq
  show Says langM q (rxM t q)
  unfold rxM
  split
  · rename_i h; subst h; exact says_first
  · split
    · rename_i h; subst h; exact says_second
    · rw [dif_pos (says_some q hq)]; exact (says_some q hq).choose_spec

/-! The parser stays at column 1. -/

theorem at0 (t : Nat) : rxM t (ab 0) = (true, ⟨1, 1, [(0, 1)]⟩) := by simp [rxM]
theorem at1 (t : Nat) : rxM t (ab 1) = (true, ⟨-1, 1, [(-1, -1)]⟩) := by
  have h : ab 1 ≠ ab 0 := by decide
  simp [rxM, h]

/-- what the argument needs of the environment -/
structure LikeM (env : Env) : Prop where
  nodes : env.nodes = envM.nodes
  rx : env.rx = rxM
  brk : env.brk = fun _ => false
  line : env.line = envM.line
  maxBlock : env.maxBlock = 1000

theorem LikeM.query {env : Env} (h : LikeM env) {st : St} {len : Int} (h1 : st.schemeStart = -1) (h2 : len = 2) : TextParser.startQ env 1 st len = ab st.gx := by
  have hs : st.str env = str "ab" := by unfold St.str; rw [h.line]; rfl
  unfold TextParser.startQ ab
  rw [hs, h1, h2]

theorem node_step {env : Env} (h : LikeM env) {levels : List VTList.VEntries} {low : Int} {me : Match} {st : St} {o : TextParser.Out} {st1 : St}
    (hb : Big env (.nodes [.re 1 false [some 5]] levels low 2 me) st o st1) (hs : st.schemeStart = -1) (hg : st.gx = 0 ∨ st.gx = 1) :
    (st.gx = 0 → o.res = .nothing ∧ st1.gx = 0) ∧ (st.gx = 1 → o.res = .re ∧ st1.gx = 1) ∧ st1.schemeStart = -1 ∧ st1.line = st.line := by
  have h0 := at0 st.tick
  have h1 := at1 st.tick
  cases hb with
  | reHit hx hne =>
    rw [h.rx, h.query hs (by simp)] at hx
    rcases hg with hg | hg
    · rw [hg, h0] at hx; cases hx; exact absurd rfl hne
    · rw [hg, h1] at hx
      cases hx
      exact ⟨fun hz => absurd (hg.symm.trans hz) (by decide), fun _ => ⟨rfl, rfl⟩, hs, rfl⟩
  | reZero hx he hb2 =>
    rw [h.rx, h.query hs (by simp)] at hx
    rcases hg with hg | hg
    · cases hb2 with
      | nil => exact ⟨fun _ => ⟨rfl, hg⟩, fun hz => absurd (hg.symm.trans hz) (by decide), hs, rfl⟩
    · rw [hg, h1] at hx; cases hx; simp at he
  | reMiss hx _ =>
    rw [h.rx, h.query hs (by simp)] at hx
    rcases hg with hg | hg
    · rw [hg, h0] at hx; cases hx
    · rw [hg, h1] at hx; cases hx

theorem stuck {env : Env} (hl : LikeM env) {c : Call} {st : St} {o : TextParser.Out} {st' : St} (h : Big env c st o st') :
    ∀ me x, c = .cols x me 2 2 → me.s = 2 → st.gx = 0 ∨ st.gx = 1 → st.schemeStart = -1 → False := by
  have hh : TextParser.hiLen env 2 2 = 2 := by simp [TextParser.hiLen, hl.maxBlock]
  have hnd : ∀ s, env.nodes s = [.re 1 false [some 5]] := by intro s; rw [hl.nodes]; rfl
  induction h with
  | colEnd h =>
    intro me x hc hm hg _
    cases hc
    omega
  | colBrk _ h => rw [hl.brk] at h; simp at h
  | colRep h1 h2 h3 h4 _ =>
    intro me x hc hm hg hs
    cases hc
    rw [hm, hnd, hh] at h3
    obtain ⟨g0, g1, _, g3⟩ := node_step hl h3 hs hg
    rcases hg with hg | hg
    · obtain ⟨a, b⟩ := g0 hg
      unfold TextParser.reparse at h4
      rw [a] at h4
      simp at h4
    · obtain ⟨a, b⟩ := g1 hg
      unfold TextParser.reparse at h4
      rw [a, b, hm] at h4
      simp at h4
  | @colGo c me' len plen st o st1 o' st' h1 h2 h3 h4 _ _ ih =>
    intro me x hc hm hg hs
    cases hc
    rw [hm, hnd, hh] at h3
    obtain ⟨g0, g1, g2, g3⟩ := node_step hl h3 hs hg
    have g3 : st1.line = st.line := g3
    refine ih me' c (by rw [if_pos g3]) hm ?_ ?_
    · right
      unfold TextParser.bump
      rcases hg with hg | hg
      · obtain ⟨a, b⟩ := g0 hg
        rw [if_pos a]; show st1.gx + 1 = 1; omega
      · obtain ⟨a, b⟩ := g1 hg
        rw [if_neg (by rw [a]; simp)]; exact b
    · unfold TextParser.bump
      split <;> exact g2
  | _ => intro me x hc; cases hc

/-- **C60** fails for an expression in which a mark `\m` is not passed on every way: all the answers are those of the expression's object
after uses by this parse, every call of the expression ends - but no parse of the line `ab` does. -/
theorem C60_violated_mark_on_one_way (mode : Mode) (r : Result) :
    RegExp.setRE cx (str "/(a\\m)?/") = some (.ok mark) ∧ Engine langM envM ∧ ¬ Parses envM (fresh 0) 0 1 mode r := by
  refine ⟨?_, engineM, ?_⟩
  · have h : (RegExp.setRE cx (str "/(a\\m)?/")).any (fun e => e.isOk) = true := by decide +kernel
    unfold mark comp
    cases e : RegExp.setRE cx (str "/(a\\m)?/") with
    | none => rw [e] at h; simp at h
    | some v =>
      cases v with
      | error _ => rw [e] at h; simp [Except.isOk, Except.toBool] at h
      | ok _ => rfl
  · intro h
    obtain ⟨fuel, h⟩ := h.parse
    obtain ⟨z, me, st, hz, hcb, _⟩ := TextParser.parse_cb h
    have hz' : z = ⟨[], []⟩ := by
      have hl : TextParser.locateRoot 0 ([] : List TextParser.Tree) = ⟨[], []⟩ := by unfold TextParser.locateRoot; rw [TextParser.locateKids.eq_def]
      cases mode <;> simp [TextParser.entry, fresh] at hz
      · exact hz.symm
      · rw [hl] at hz; exact hz.symm
      · rw [hl] at hz; exact hz.symm
    subst hz'
    have like : LikeM (Env.call envM 0 1 mode) := ⟨rfl, rfl, rfl, rfl, rfl⟩
    have start : ∀ {c : Ctx} {st st1 : St} (me : Match), c.stop = none → c.low = false → st.gx = 0 → st.schemeStart = -1 → ∀ {o st2},
        TextParser.startLine (Env.call envM 0 1 mode) c st = .ok st1 →
        Big (Env.call envM 0 1 mode) (.cols c (TextParser.endSearch (Env.call envM 0 1 mode) c me st1).2
          (if c.low then (TextParser.endSearch (Env.call envM 0 1 mode) c me st1).2.s else ((st1.str (Env.call envM 0 1 mode)).length : Int))
          ((st1.str (Env.call envM 0 1 mode)).length : Int)) st1.tock o st2 → False := by
      intro c st st1 me hs hlow hg hss o st2 hst hbg
      obtain ⟨g1, g2⟩ := TextParser.startLine_facts hst
      have hstr : st1.str (Env.call envM 0 1 mode) = str "ab" := rfl
      have hlen : (str "ab").length = 2 := rfl
      have h2 : (TextParser.endSearch (Env.call envM 0 1 mode) c me st1).2.s = 2 := by
        unfold TextParser.endSearch
        rw [hs, hstr, hlen]
        dsimp only
        rw [if_pos (by show st1.gx + (1000 : Int) > ((2 : Nat) : Int); omega)]
        rfl
      rw [hlow, hstr, hlen] at hbg
      refine stuck like hbg _ _ rfl h2 (.inl ?_) ?_
      · show st1.gx = 0; omega
      · show st1.schemeStart = -1
        rw [g2.2.2.2.2.2.2.1]; exact hss
    cases hcb with
    | nil hb1 =>
      cases hb1 with
      | limit hl => exact absurd hl (by simp)
      | colorize hl hb2 =>
        cases hb2 with
        | outEnd h => exact h (by show (0 : Int) < 0 + 1; omega)
        | outRep _ h1 h2 _ _ => exact start _ rfl rfl rfl rfl h1 h2
        | outStop _ h1 h2 _ _ => exact start _ rfl rfl rfl rfl h1 h2
        | outNext _ h1 h2 _ _ _ => exact start _ rfl rfl rfl rfl h1 h2

end Verif.Engine.Demo
