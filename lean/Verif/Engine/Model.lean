import Verif.TextParser.Agree
import Verif.RegExp.Near
import Verif.RegExp.Outside
import Verif.RegExp.Ends
import Verif.Keywords.Props
/-!
# The text parser with the library's own expressions

Puts the models together: the queries of the text parser (Verif.TextParser) are answered by compiled expressions (Verif.RegExp) and
keyword lists (Verif.Keywords). The expression objects are shared: they belong to the grammar, not to the parser
(SchemeNode.h: `CRegExp start`, `end`), and keep state between calls. What an object was used for before is arbitrary: other documents, other
parsers, other positions.

The calls modelled: TextParserImpl.cpp 307 (`searchRE`), 335 (`searchBL`), 545 (`colorize`), 390-392 (`setBackTrace`), 197-271 (`searchKW`);
the objects' `positionMoves`: HrcLibraryImpl.cpp 586, 644, 653.
-/
namespace Verif.Engine
open Verif.RegExp (Chars Expr Obj Matches Args Out parse uses)
open Verif.TextParser (Query Match Env Text)

/-- what the queries refer to: the properties of characters, the compiled expressions, for an end expression the start expression of
its block, the keyword lists with their word boundaries -/
structure Lang where
  chars  : Chars
  prog   : Nat → Expr
  opener : Nat → Nat
  kenv   : Nat → Keywords.Env
  klist  : Nat → Keywords.KWList

/-- an object after `setPositionMoves`: false for start expressions (HrcLibraryImpl.cpp:586, 644), true for end expressions (653) -/
def newObj (ends : Bool) : Obj := { Obj.new with moves := ends }

/-- what the parser reads of a filled `SMatches`: the bounds, the other numbered groups, the named groups (TextParserImpl.cpp 155-160,
311-316: loops up to `cMatch`, `cnMatch`) -/
def matchOf (x : Expr) (m : Matches) : Match :=
  ⟨m.s 0, m.e 0, ((List.range (x.cMatch - 1)).map fun i => (m.s (i + 1), m.e (i + 1))) ++ (List.range x.cnMatch).map fun i => (m.ns i, m.ne i)⟩

/-- `setBackTrace` (TextParserImpl.cpp:390-392, cregexp.cpp): a copy of the structure that `start->parse` filled; the groups beyond the
counts of the start expression hold anything -/
def TraceOf (lang : Lang) (q : Query) (bt : Option (Text × Matches)) : Prop :=
  match q.back, bt with
  | none, none => True
  | some (t, m), some (t', M) => t' = t ∧ matchOf (lang.prog (lang.opener q.re)) M = m
  | _, _ => False

/-- `a` is an answer of the expression's object to the query, after some history of calls: `parse(str, gx, len, &match, schemeStart)`. A failed
search leaves something in `match`, too; the parser keeps it after a search for an end (`matchend` is a member). -/
def Says (lang : Lang) (q : Query) (a : Bool × Match) : Prop :=
  ∃ history o fuel bt mt out, uses lang.chars (lang.prog q.re) history (newObj q.back.isSome) = some o ∧ TraceOf lang q bt ∧
    parse lang.chars (lang.prog q.re) fuel o ⟨q.text, q.pos, q.len, q.schemeStart, none, bt⟩ mt = some out ∧ out.res = .ret a.1 ∧
    (a.1 = true ∨ q.back.isSome = true → a.2 = matchOf (lang.prog q.re) out.m)

/-- every answer the parser gets is one of the expression's object, after some history of calls -/
def Engine (lang : Lang) (env : Env) : Prop := ∀ t q, TextParser.Asked env q → Says lang q (env.rx t q)

/-- `searchKW` (TextParserImpl.cpp:197-271) as the parser sees it -/
def kwOf (lang : Lang) (_t id : Nat) (s : Text) (x low : Int) : Option (Int × Option Nat) :=
  match Keywords.search (lang.kenv id) (lang.klist id) s x.toNat low.toNat with
  | .matched i n => some (n, ((lang.klist id).kws[i]?).bind Keywords.KW.region)
  | _ => none

/-- an expression whose calls do not depend on earlier ones: marks passed on every way or absent, no marks in look-behinds. (The loader skips
nodes with a faulty expression, HrcLibraryImpl.cpp 575-579, 645-649, 655-659.) -/
structure Plain (x : Expr) : Prop where
  tidy : RegExp.tidy x = true
  fwd : RegExp.fwd x.body = true
  groups : 0 < x.cMatch
  ok : x.ok = true

/-- what is required of the grammar: plain expressions; no `\m` in the start of a block; end expressions refer to groups that the start
has; keyword lists as the loader builds them, without empty keywords -/
structure Fit (lang : Lang) (env : Env) : Prop where
  re : ∀ s start low regs, TextParser.Node.re start low regs ∈ env.nodes s → Plain (lang.prog start)
  start : ∀ s b, TextParser.Node.block b ∈ env.nodes s → Plain (lang.prog b.start) ∧ RegExp.lacks .start (lang.prog b.start).body = true
  stop : ∀ s b, TextParser.Node.block b ∈ env.nodes s → Plain (lang.prog b.stop) ∧ lang.opener b.stop = b.start ∧
    RegExp.tracesIn (lang.prog b.start).cMatch (lang.prog b.start).cnMatch (lang.prog b.stop).body = true
  kw : env.kw = kwOf lang
  words : ∀ id, ∃ matchCase lower upper title sorted, lang.klist id = Keywords.build matchCase lower upper title sorted ∧
    ∀ k ∈ sorted, k.word ≠ [] ∧ k.shorter = none
  maxBlock : 0 ≤ env.maxBlock

/-! ## The back trace as the end expression reads it -/

/-- the groups of a match in a structure in which nothing else is set -/
def matchesOf (x : Expr) (m : Match) : Matches where
  s i := if i = 0 then m.s else if i < x.cMatch then (m.more.getD (i - 1) (-1, -1)).1 else -1
  e i := if i = 0 then m.e else if i < x.cMatch then (m.more.getD (i - 1) (-1, -1)).2 else -1
  ns i := if i < x.cnMatch then (m.more.getD (x.cMatch - 1 + i) (-1, -1)).1 else -1
  ne i := if i < x.cnMatch then (m.more.getD (x.cMatch - 1 + i) (-1, -1)).2 else -1

def blank : Matches := ⟨fun _ => -1, fun _ => -1, fun _ => -1, fun _ => -1⟩

def backOf (lang : Lang) (q : Query) : Option (Text × Matches) :=
  q.back.map fun p => (p.1, matchesOf (lang.prog (lang.opener q.re)) p.2)

/-- the query put to a new object -/
def call (lang : Lang) (q : Query) (fuel : Nat) : Option Out :=
  parse lang.chars (lang.prog q.re) fuel (newObj q.back.isSome) ⟨q.text, q.pos, q.len, q.schemeStart, none, backOf lang q⟩ blank

theorem more_num {x : Expr} {M : Matches} {i : Nat} (h0 : i ≠ 0) (h : i < x.cMatch) : (matchOf x M).more.getD (i - 1) (-1, -1) = (M.s i, M.e i) := by
  have h1 : i - 1 < x.cMatch - 1 := by omega
  have h2 : i - 1 + 1 = i := by omega
  show (((List.range (x.cMatch - 1)).map fun i => (M.s (i + 1), M.e (i + 1))) ++ (List.range x.cnMatch).map fun i => (M.ns i, M.ne i)).getD (i - 1) (-1, -1) = _
  rw [List.getD_eq_getElem?_getD, List.getElem?_append_left (by simpa using h1)]
  simp [h1, h2]

theorem more_name {x : Expr} {M : Matches} {i : Nat} (h : i < x.cnMatch) : (matchOf x M).more.getD (x.cMatch - 1 + i) (-1, -1) = (M.ns i, M.ne i) := by
  show (((List.range (x.cMatch - 1)).map fun i => (M.s (i + 1), M.e (i + 1))) ++ (List.range x.cnMatch).map fun i => (M.ns i, M.ne i)).getD (x.cMatch - 1 + i) (-1, -1) = _
  rw [List.getD_eq_getElem?_getD, List.getElem?_append_right (by simp)]
  simp [h]

theorem back_same {lang : Lang} {q : Query} {bt : Option (Text × Matches)} (h : TraceOf lang q bt) :
    RegExp.SameBack (lang.prog (lang.opener q.re)).cMatch (lang.prog (lang.opener q.re)).cnMatch bt (backOf lang q) := by
  unfold TraceOf at h
  unfold backOf
  cases hq : q.back with
  | none =>
    rw [hq] at h
    cases bt with
    | none => trivial
    | some p => exact h.elim
  | some p =>
    obtain ⟨t, m⟩ := p
    rw [hq] at h
    cases bt with
    | none => exact h.elim
    | some p' =>
      obtain ⟨t', M⟩ := p'
      obtain ⟨rfl, rfl⟩ := h
      refine ⟨rfl, fun i hi => ?_, fun i hi => ?_⟩
      · by_cases h0 : i = 0
        · subst h0; exact ⟨rfl, rfl⟩
        · simp only [matchesOf, if_neg h0, if_pos hi, more_num h0 hi]; exact ⟨trivial, trivial⟩
      · simp only [matchesOf, if_pos hi, more_name hi]; exact ⟨trivial, trivial⟩

/-- an expression a query may be put to: plain, and an end expression refers to groups that the start has -/
structure Ready (lang : Lang) (q : Query) : Prop where
  plain : Plain (lang.prog q.re)
  traces : q.back.isSome = true → RegExp.tracesIn (lang.prog (lang.opener q.re)).cMatch (lang.prog (lang.opener q.re)).cnMatch (lang.prog q.re).body = true

theorem call_more {lang : Lang} {q : Query} {f f' : Nat} (hf : f ≤ f') {out : Out} (h : call lang q f = some out) : call lang q f' = some out :=
  RegExp.parse_le hf h

theorem matchOf_congr {x : Expr} {m m' : Matches} (hc : 0 < x.cMatch) (h1 : ∀ i, i < x.cMatch → m.s i = m'.s i ∧ m.e i = m'.e i)
    (h2 : ∀ i, i < x.cnMatch → m.ns i = m'.ns i ∧ m.ne i = m'.ne i) : matchOf x m = matchOf x m' := by
  unfold matchOf
  rw [(h1 0 hc).1, (h1 0 hc).2]
  congr 2
  · refine List.map_congr_left fun i hi => ?_
    have hi : i < x.cMatch - 1 := List.mem_range.1 hi
    rw [(h1 (i + 1) (by omega)).1, (h1 (i + 1) (by omega)).2]
  · refine List.map_congr_left fun i hi => ?_
    have hi : i < x.cnMatch := List.mem_range.1 hi
    rw [(h2 i hi).1, (h2 i hi).2]

/-- for a searching call (`positionMoves`) that is not refused, the groups are the same after failure, too -/
theorem parse_sim_all (chars : Chars) (x : Expr) (hok : x.ok = true) (fuel : Nat) (o o' : Obj) (a : Args) (mt mt' : Matches) (h1 : o.startChange = o'.startChange)
    (h2 : o.endChange = o'.endChange) (h3 : o.moves = o'.moves) (h4 : a.moves.getD o'.moves = true) :
    RegExp.SameCall x (parse chars x fuel o a mt) (parse chars x fuel o' a mt') := by
  unfold parse
  dsimp only
  rw [h3]
  have hm : RegExp.AgreeM (RegExp.envOf chars x a) ⟨o.vars, RegExp.clearMatches x mt, o.startChange, o.endChange⟩
      ⟨o'.vars, RegExp.clearMatches x mt', o'.startChange, o'.endChange⟩ := by
    refine ⟨⟨fun i hi => ?_, fun i hi => ?_, fun i hi => ?_, fun i hi => ?_⟩, h1, h2⟩ <;>
    · simp only [RegExp.envOf] at hi
      simp [RegExp.clearMatches, hi]
  have hok' : ¬ x.ok = false := by rw [hok]; decide
  simp only [if_neg hok', if_pos h4]
  exact RegExp.tries_sim _ fuel _ _ _ _ _ _ hm

/-- so for tidy expressions after any history -/
theorem tidy_all (chars : Chars) (x : Expr) (hx : RegExp.tidy x = true) (hok : x.ok = true)
    (history : List (Nat × Args × Matches)) (o0 o : Obj) (ho : uses chars x history o0 = some o) (fuel : Nat) (a : Args) (mt mt' : Matches)
    (h4 : a.moves.getD o0.moves = true) : RegExp.SameCall x (parse chars x fuel o a mt) (parse chars x fuel o0 a mt') := by
  obtain ⟨h1, h2, h3⟩ := RegExp.uses_flags hx history ho
  have hz : RegExp.noZero x.body = true := by
    simp only [RegExp.tidy, Bool.and_eq_true] at hx
    exact hx.1.1
  have t := RegExp.parse_flags chars x hz fuel o ⟨o.vars, o0.startChange, o0.endChange, o.moves⟩ a mt (h1.imp Eq.symm id) (h2.imp Eq.symm id) rfl rfl
  have t' := parse_sim_all chars x hok fuel ⟨o.vars, o0.startChange, o0.endChange, o.moves⟩ o0 a mt mt' rfl rfl h3 h4
  cases h5 : parse chars x fuel o a mt with
  | none =>
    rw [h5] at t
    cases h6 : parse chars x fuel ⟨o.vars, o0.startChange, o0.endChange, o.moves⟩ a mt with
    | none => rw [h6] at t'; exact t'
    | some _ => rw [h6] at t; exact t.elim
  | some u =>
    rw [h5] at t
    cases h6 : parse chars x fuel ⟨o.vars, o0.startChange, o0.endChange, o.moves⟩ a mt with
    | none => rw [h6] at t; exact t.elim
    | some u' =>
      rw [h6] at t t'
      obtain ⟨t1, t2⟩ := t
      cases h7 : parse chars x fuel o0 a mt' with
      | none => rw [h7] at t'; exact t'.elim
      | some u'' =>
        rw [h7] at t'
        obtain ⟨a1, a2, a3, a4, a5⟩ := t'
        rw [t2] at a2 a3 a4 a5
        exact ⟨t1.symm.trans a1, a2, a3, a4, a5⟩

/-- an answer is that of a new object -/
theorem says_call {lang : Lang} {q : Query} (hr : Ready lang q) {a : Bool × Match} (h : Says lang q a) :
    ∃ fuel out, call lang q fuel = some out ∧ out.res = .ret a.1 ∧ (a.1 = true ∨ q.back.isSome = true → a.2 = matchOf (lang.prog q.re) out.m) := by
  obtain ⟨history, o, fuel, bt, mt, out, hu, ht, hp, hres, hm⟩ := h
  have hb := back_same ht
  have e1 : parse lang.chars (lang.prog q.re) fuel o ⟨q.text, q.pos, q.len, q.schemeStart, none, backOf lang q⟩ mt = some out := by
    rw [← hp]
    cases hq : q.back with
    | none =>
      have : bt = none := by
        unfold TraceOf at ht
        rw [hq] at ht
        cases bt with
        | none => rfl
        | some p => exact ht.elim
      subst this
      simp [backOf, hq]
    | some p => exact RegExp.parse_same lang.chars _ fuel o _ _ mt (hr.traces (by rw [hq]; rfl)) rfl rfl rfl rfl (.inl rfl) hb
  have t := RegExp.C30_tidy_calls_do_not_depend_on_earlier_calls_partial lang.chars _ hr.plain.tidy history _ o hu fuel
    ⟨q.text, q.pos, q.len, q.schemeStart, none, backOf lang q⟩ mt blank
  rw [e1] at t
  have t : RegExp.SameResult (lang.prog q.re) (some out) (call lang q fuel) := t
  cases hc : call lang q fuel with
  | none => rw [hc] at t; exact absurd t id
  | some out' =>
    rw [hc] at t
    obtain ⟨t1, t2⟩ := t
    refine ⟨fuel, out', hc, t1.symm.trans hres, fun ha => ?_⟩
    rw [hm ha]
    rcases ha with ha | ha
    · obtain ⟨t3, t4⟩ := t2 (by rw [hres, ha])
      exact matchOf_congr hr.plain.groups t3 t4
    · have t := tidy_all lang.chars _ hr.plain.tidy hr.plain.ok history _ o hu fuel
        ⟨q.text, q.pos, q.len, q.schemeStart, none, backOf lang q⟩ mt blank (by show (newObj q.back.isSome).moves = true; rw [ha]; rfl)
      rw [e1] at t
      have t : RegExp.SameCall (lang.prog q.re) (some out) (call lang q fuel) := t
      rw [hc] at t
      exact matchOf_congr hr.plain.groups (fun i hi => ⟨t.s i hi, t.e i hi⟩) (fun i hi => ⟨t.ns i hi, t.ne i hi⟩)

/-- two answers to one query are the same -/
theorem says_unique {lang : Lang} {q : Query} (hr : Ready lang q) {a a' : Bool × Match} (h : Says lang q a) (h' : Says lang q a') :
    a'.1 = a.1 ∧ (a.1 = true ∨ q.back.isSome = true → a'.2 = a.2) := by
  obtain ⟨f, out, c1, c2, c3⟩ := says_call hr h
  obtain ⟨f', out', d1, d2, d3⟩ := says_call hr h'
  have e1 := call_more (Nat.le_max_left f f') c1
  have e2 := call_more (Nat.le_max_right f f') d1
  rw [e1] at e2
  cases e2
  have e : a'.1 = a.1 := by
    have := d2.symm.trans c2
    simpa using this
  exact ⟨e, fun ha => by rw [c3 ha, d3 (ha.imp (e.trans ·) id)]⟩

/-! ## Agreement of engines -/

theorem ready_start {lang : Lang} {env : Env} (hf : Fit lang env) {q : Query} (hb : q.back = none) (hs : TextParser.Starts env q.re) : Ready lang q := by
  refine ⟨?_, fun h => by rw [hb] at h; simp at h⟩
  obtain ⟨s, ⟨low, regs, h⟩ | ⟨b, h, hbs⟩⟩ := hs
  · exact hf.re _ _ _ _ h
  · rw [← hbs]; exact (hf.start _ _ h).1

theorem ready_asked {lang : Lang} {env : Env} (hf : Fit lang env) {q : Query} (h : TextParser.Asked env q) : Ready lang q := by
  obtain ⟨_, ⟨hb, hs⟩ | ⟨t, m, hb, b, s, k, q', hn, hst, _⟩⟩ := h
  · exact ready_start hf hb hs
  · obtain ⟨h1, h2, h3⟩ := hf.stop _ _ hn
    rw [hst] at h1 h2 h3
    exact ⟨h1, fun _ => by rw [h2]; exact h3⟩

theorem traced_of {lang : Lang} {env env' : Env} (hf : Fit lang env) (he : Engine lang env) (he' : Engine lang env') (hn : env'.nodes = env.nodes) {re : Nat}
    {t : Text} {m : Match} (h : TextParser.Traced env re t m) : TextParser.Traced env' re t m := by
  obtain ⟨b, s, k, q, h1, h2, h3, h4, h5, h6, h7⟩ := h
  have ha : TextParser.Starts env q.re := ⟨s, .inr ⟨b, h1, h4.symm⟩⟩
  have ha' : TextParser.Starts env' q.re := ⟨s, .inr ⟨b, by rw [hn]; exact h1, h4.symm⟩⟩
  obtain ⟨u1, u2⟩ := says_unique (ready_start hf h6 ha) (he k q ⟨h7, .inl ⟨h6, ha⟩⟩) (he' k q ⟨h7, .inl ⟨h6, ha'⟩⟩)
  rw [h3] at u1 u2
  exact ⟨b, s, k, q, by rw [hn]; exact h1, h2, Prod.ext u1 (u2 (.inl rfl)), h4, h5, h6, h7⟩

theorem asked_of {lang : Lang} {env env' : Env} (hf : Fit lang env) (he : Engine lang env) (he' : Engine lang env') (hn : env'.nodes = env.nodes) {q : Query}
    (h : TextParser.Asked env q) : TextParser.Asked env' q := by
  obtain ⟨hw, ⟨hb, s, hs⟩ | ⟨t, m, hb, ht⟩⟩ := h
  · exact ⟨hw, .inl ⟨hb, s, by rw [hn]; exact hs⟩⟩
  · exact ⟨hw, .inr ⟨t, m, hb, traced_of hf he he' hn ht⟩⟩

theorem engines_agree {lang : Lang} {env : Env} {rx : Nat → Query → Bool × Match} (hf : Fit lang env) (he : Engine lang env)
    (he' : Engine lang (env.with rx)) : TextParser.Agrees env rx := by
  intro t q hq
  obtain ⟨u1, u2⟩ := says_unique (ready_asked hf hq) (he t q hq) (he' t q (asked_of hf he he' rfl hq))
  refine ⟨u1, fun h => u2 (.inl h), fun h => congrArg Match.more (u2 (.inr ?_))⟩
  cases hb : q.back with
  | none => exact absurd hb h
  | some _ => rfl

/-! ## The engine fits -/

theorem traceOk_of' {lang : Lang} {env : Env} (hf : Fit lang env)
    (he : ∀ t q, TextParser.Within q → q.back = none → TextParser.Starts env q.re → Says lang q (env.rx t q)) {q : Query} (h : TextParser.Asked env q) :
    RegExp.TraceOk (backOf lang q) := by
  obtain ⟨_, ⟨hb, _⟩ | ⟨t, m, hb, b, s, k, q', h1, h2, h3, h4, h5, h6, h7⟩⟩ := h
  · simp [backOf, hb, RegExp.TraceOk]
  · obtain ⟨_, ho, _⟩ := hf.stop _ _ h1
    rw [h2] at ho
    have hst : TextParser.Starts env q'.re := ⟨s, .inr ⟨b, h1, h4.symm⟩⟩
    have hr := ready_start hf h6 hst
    obtain ⟨f, out, c1, c2, c3⟩ := says_call hr (he k q' h7 h6 hst)
    rw [h3] at c2 c3
    have c3 := c3 (.inl rfl)
    dsimp only at c3
    have hbk : backOf lang q' = none := by simp [backOf, h6]
    obtain ⟨w1, w2, w3⟩ := h7
    obtain ⟨_, g⟩ := RegExp.C28_inside_the_text lang.chars _ f _ _ _ out w1 (by show q'.pos ≤ (q'.text.length : Int); omega) w3 (by rw [hbk]; trivial) hr.plain.groups c1
    obtain ⟨g1, g2, g3, g4, g5, g6⟩ := g c2
    have g6 := g6 rfl rfl
    have hmax : max q'.pos q'.len ≤ (q'.text.length : Int) := by omega
    simp only [backOf, hb, Option.map_some, RegExp.TraceOk, ho]
    rw [h4] at g1 g2 c3
    subst c3
    rw [← h5]
    intro i
    refine ⟨?_, ?_⟩
    · by_cases h0 : i = 0
      · subst h0
        right
        simp only [matchesOf, if_true]
        exact ⟨g6, by show out.m.e 0 ≤ _; have g4 : out.m.e 0 ≤ max q'.pos q'.len := g4; omega⟩
      · by_cases hi : i < (lang.prog b.start).cMatch
        · simp only [matchesOf, if_neg h0, if_pos hi, more_num h0 hi]
          have := g1 i (by omega) hi
          unfold RegExp.Inside at this
          dsimp only at this ⊢
          omega
        · left; simp [matchesOf, h0, hi]
    · by_cases hi : i < (lang.prog b.start).cnMatch
      · simp only [matchesOf, if_pos hi, more_name hi]
        have := g2 i hi
        unfold RegExp.Inside at this
        dsimp only at this ⊢
        omega
      · left; simp [matchesOf, hi]

theorem traceOk_of {lang : Lang} {env : Env} (hf : Fit lang env) (he : Engine lang env) {q : Query} (h : TextParser.Asked env q) :
    RegExp.TraceOk (backOf lang q) :=
  traceOk_of' hf (fun t _ h1 h2 h3 => he t _ ⟨h1, .inl ⟨h2, h3⟩⟩) h

theorem engine_fits {lang : Lang} {env : Env} (hf : Fit lang env) (he : Engine lang env) : TextParser.Fits env := by
  refine ⟨fun t q m hq hm => ?_, fun t id s x low n r h0 h1 h2 hk => ?_, hf.maxBlock⟩
  · have hr := ready_asked hf hq
    obtain ⟨f, out, c1, c2, c3⟩ := says_call hr (he t q hq)
    rw [hm] at c2 c3
    have c3 := c3 (.inl rfl)
    dsimp only at c3
    obtain ⟨w1, w2, w3⟩ := hq.1
    have hpl : q.pos ≤ (q.text.length : Int) := by omega
    obtain ⟨g1, g2, g3⟩ := RegExp.parse_forward lang.chars _ hr.plain.fwd hr.plain.groups f _ _ _ out w1 hpl w3 (traceOk_of hf he hq) ⟨rfl, rfl⟩ c1 c2
    have g3 : out.m.e 0 ≤ max q.pos q.len := g3
    subst c3
    refine ⟨g1, g2, by show out.m.e 0 ≤ _; omega, fun ho hb => ?_⟩
    obtain ⟨s, b, h1, h2⟩ := ho
    have hl := (hf.start _ _ h1).2
    rw [h2] at hl
    exact RegExp.parse_begins lang.chars _ hr.plain.fwd hl hr.plain.groups f _ _ _ out w1 hpl w3 (traceOk_of hf he hq) ⟨rfl, rfl⟩
      (by simp [newObj, hb]) c1 c2
  · rw [hf.kw] at hk
    obtain ⟨mc, lo, up, ti, sorted, e, hw⟩ := hf.words id
    unfold kwOf at hk
    rw [e] at hk
    rcases Keywords.C08_reported_keyword_is_in_text (lang.kenv id) mc lo up ti sorted (fun k h => (hw k h).2) s x.toNat low.toNat (by omega) (by omega)
      with h | ⟨i, k, h, hi, ha⟩
    · rw [h] at hk; cases hk
    · rw [h] at hk
      have hk : some ((k.word.length : Int), _) = some (n, r) := hk
      simp only [Option.some.injEq, Prod.mk.injEq] at hk
      have hne := (hw k (List.mem_of_getElem? hi)).1
      have hlen : 0 < k.word.length := List.length_pos_iff.2 hne
      have := ha.1.1
      omega

end Verif.Engine
