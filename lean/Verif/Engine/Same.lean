import Verif.Engine.Model
/-!
# C59: colouring does not depend on what the shared expressions were used for before
-/
namespace Verif.Engine
open Verif.RegExp (Chars Expr Obj Matches Args Out parse uses)
open Verif.TextParser (Query Match Env Text PState Result Job Parses Proper fresh)

/-- calls of the parser one after another, each continuing with the cache the one before left. During each call the expressions answer as
their objects do after whatever they were used for: each call has its own `rx`, and the answer to each query of it may have a history of its
own. -/
inductive Runs (lang : Lang) (env : Env) : PState → List Job → List Result → Prop
  | nil {p : PState} : Runs lang env p [] []
  | cons {p : PState} {j : Job} {js : List Job} {rx : Nat → Query → Bool × Match} {r : Result} {rs : List Result} : Engine lang (env.with rx) →
      Parses ((env.with rx).text j.text) p j.from' j.num j.mode r → Runs lang env r.after js rs → Runs lang env p (j :: js) (r :: rs)

theorem fit_with {lang : Lang} {env : Env} (h : Fit lang env) (rx : Nat → Query → Bool × Match) : Fit lang (env.with rx) :=
  ⟨h.re, h.start, h.stop, h.kw, h.words, h.maxBlock⟩

/-- entries proper for some engine, hence for all -/
def ProperE (lang : Lang) (env : Env) (p : PState) : Prop := ∀ rx, Engine lang (env.with rx) → Proper (env.with rx) p

theorem properE_fresh (lang : Lang) (env : Env) (base : Nat) : ProperE lang env (fresh base) := by
  rintro rx _ i ⟨t, ht, _⟩
  simp [fresh] at ht

theorem properE_of {lang : Lang} {env : Env} (hf : Fit lang env) {rx : Nat → Query → Bool × Match} (he : Engine lang (env.with rx)) {p : PState}
    (h : Proper (env.with rx) p) : ProperE lang env p := by
  intro rx' he' i hi
  obtain ⟨h1, h2⟩ := h i hi
  exact ⟨traced_of (fit_with hf rx) he he' rfl h1, h2⟩

theorem fits_text {env : Env} (h : TextParser.Fits env) (T : Int → Option Text) : TextParser.Fits (env.text T) := ⟨h.rx, h.kw, h.maxBlock⟩

theorem runs_same {lang : Lang} {env : Env} (hf : Fit lang env) (js : List Job) : ∀ {p : PState}, ProperE lang env p →
    ∀ {rs rs' : List Result}, Runs lang env p js rs → Runs lang env p js rs' → rs' = rs := by
  induction js with
  | nil =>
    intro p _ rs rs' h h'
    cases h; cases h'; rfl
  | cons j js ih =>
    intro p hp rs rs' h h'
    cases h with
    | @cons _ _ _ rx r rs h0 h1 h2 =>
      cases h' with
      | @cons _ _ _ rx' r' rs' d0 d1 d2 =>
        have hfx := fit_with hf rx
        have hft := fits_text (engine_fits hfx h0) j.text
        have ha : TextParser.Agrees ((env.with rx).text j.text) rx' := fun t q hq => engines_agree (rx := rx') hfx h0 d0 t q hq
        have b1 := TextParser.parses_agree hft ha (hp rx h0) h1
        have e : r = r' := Parses.det b1 d1
        subst e
        have hp1 : Proper (env.with rx) r.after := TextParser.parses_proper hft (hp rx h0) h1
        rw [ih (properE_of hf h0 hp1) h2 d2]

/-- **C59** Two runs of the same sequence of parses - the same texts, ranges and modes, in which earlier calls leave their cache to later ones -
report the same and leave the same, whatever the compiled expressions, which all parsers of a grammar share, were used for before and between
the queries. For grammars whose expressions are plain. -/
theorem C59_colouring_does_not_depend_on_earlier_uses_partial (lang : Lang) (env : Env) (hf : Fit lang env) (base : Nat) (js : List Job) (rs rs' : List Result)
    (h : Runs lang env (fresh base) js rs) (h' : Runs lang env (fresh base) js rs') : rs' = rs :=
  runs_same hf js (properE_fresh lang env base) h h'

/-! ## There are engines -/

/-- every repeated part takes a character at least -/
structure Ending (lang : Lang) (env : Env) : Prop where
  re : ∀ s start low regs, TextParser.Node.re start low regs ∈ env.nodes s → RegExp.repsTake (lang.prog start).body = true
  start : ∀ s b, TextParser.Node.block b ∈ env.nodes s → RegExp.repsTake (lang.prog b.start).body = true
  stop : ∀ s b, TextParser.Node.block b ∈ env.nodes s → RegExp.repsTake (lang.prog b.stop).body = true

/-- the call is one inside the text, of a plain expression -/
def Fine (lang : Lang) (q : Query) : Prop := TextParser.Within q ∧ RegExp.TraceOk (backOf lang q) ∧ Plain (lang.prog q.re)

open Classical in
/-- what a new object answers -/
noncomputable def answer (lang : Lang) (q : Query) : Bool × Match :=
  if h : Fine lang q ∧ ∃ out f, call lang q f = some out then
    (decide (h.2.choose.res = .ret true), matchOf (lang.prog q.re) h.2.choose.m)
  else (false, ⟨0, 0, []⟩)

theorem call_det {lang : Lang} {q : Query} {f f' : Nat} {out out' : Out} (h : call lang q f = some out) (h' : call lang q f' = some out') : out = out' := by
  have e1 := call_more (Nat.le_max_left f f') h
  have e2 := call_more (Nat.le_max_right f f') h'
  rw [e1] at e2
  simpa using e2

theorem answer_of {lang : Lang} {q : Query} (hq : Fine lang q) {f : Nat} {out : Out} (h : call lang q f = some out) :
    answer lang q = (decide (out.res = .ret true), matchOf (lang.prog q.re) out.m) := by
  have hx : Fine lang q ∧ ∃ out f, call lang q f = some out := ⟨hq, out, f, h⟩
  have e : hx.2.choose = out := by
    obtain ⟨f', h1⟩ := hx.2.choose_spec
    exact call_det h1 h
  unfold answer
  rw [dif_pos hx, e]

theorem matchOf_matchesOf {x : Expr} (hc : 0 < x.cMatch) (M : Matches) : matchOf x (matchesOf x (matchOf x M)) = matchOf x M := by
  refine matchOf_congr hc (fun i hi => ?_) (fun i hi => ?_)
  · by_cases h0 : i = 0
    · subst h0; exact ⟨rfl, rfl⟩
    · simp only [matchesOf, if_neg h0, if_pos hi, more_num h0 hi]; exact ⟨trivial, trivial⟩
  · simp only [matchesOf, if_pos hi, more_name hi]; exact ⟨trivial, trivial⟩

/-- a match some new object answered -/
theorem answer_true {lang : Lang} {q : Query} {m : Match} (h : answer lang q = (true, m)) :
    Fine lang q ∧ ∃ f out, call lang q f = some out ∧ out.res = .ret true ∧ m = matchOf (lang.prog q.re) out.m := by
  unfold answer at h
  split at h
  · rename_i hx
    obtain ⟨f, h1⟩ := hx.2.choose_spec
    simp only [Prod.mk.injEq, decide_eq_true_eq] at h
    exact ⟨hx.1, f, _, h1, h.1, h.2.symm⟩
  · simp at h

/-- if the call ends, `answer` is an answer -/
theorem answer_says {lang : Lang} {q : Query} (hr : Ready lang q) (hw : TextParser.Within q) (ht : RegExp.TraceOk (backOf lang q))
    (hb : TraceOf lang q (backOf lang q)) (he : RegExp.repsTake (lang.prog q.re).body = true) : Says lang q (answer lang q) := by
  obtain ⟨k, out, hk⟩ := RegExp.C51_matching_ends_partial lang.chars (lang.prog q.re) (newObj q.back.isSome)
    ⟨q.text, q.pos, q.len, q.schemeStart, none, backOf lang q⟩ blank he hw.2.1
  have hk := hk k (Nat.le_refl _)
  have hc : call lang q k = some out := hk
  rw [answer_of ⟨hw, ht, hr.plain⟩ hc]
  obtain ⟨w1, w2, w3⟩ := hw
  obtain ⟨g, _⟩ := RegExp.C28_inside_the_text lang.chars _ k _ _ _ out w1 (by show q.pos ≤ (q.text.length : Int); omega) w3 ht hr.plain.groups hk
  refine ⟨[], _, k, backOf lang q, blank, out, rfl, hb, hk, ?_, fun _ => rfl⟩
  cases ho : out.res with
  | oob => exact absurd ho g
  | ret v => cases v <;> simp

theorem traceOf_start {lang : Lang} {q : Query} (hb : q.back = none) : TraceOf lang q (backOf lang q) := by
  simp [TraceOf, backOf, hb]

theorem start_ends {lang : Lang} {env : Env} (he : Ending lang env) {re : Nat} (h : TextParser.Starts env re) : RegExp.repsTake (lang.prog re).body = true := by
  obtain ⟨s, ⟨low, regs, h⟩ | ⟨b, h, hbs⟩⟩ := h
  · exact he.re _ _ _ _ h
  · rw [← hbs]; exact he.start _ _ h

/-- a query the grammar has the expression for -/
def Named (env : Env) (q : Query) : Prop :=
  q.back = none ∧ TextParser.Starts env q.re ∨ q.back.isSome = true ∧ ∃ s b, TextParser.Node.block b ∈ env.nodes s ∧ b.stop = q.re

/-- answers of new objects, or what is as good, are an engine -/
theorem answer_engine_of {lang : Lang} {env : Env} (hf : Fit lang env) (he : Ending lang env) (rx : Nat → Query → Bool × Match)
    (hrx : ∀ t q, Named env q → Fine lang q → Ready lang q → Says lang q (answer lang q) → Says lang q (rx t q)) (hm : ∀ t q m, rx t q = (true, m) → ∃ M, m = matchOf (lang.prog q.re) M) :
    Engine lang (env.with rx) := by
  have hs : ∀ t q, TextParser.Within q → q.back = none → TextParser.Starts (env.with rx) q.re → Says lang q ((env.with rx).rx t q) := by
    intro t q hw hb hs
    have hr := ready_start (fit_with hf rx) hb hs
    have ht : RegExp.TraceOk (backOf lang q) := by simp [backOf, hb, RegExp.TraceOk]
    exact hrx t q (.inl ⟨hb, hs⟩) ⟨hw, ht, hr.plain⟩ hr (answer_says hr hw ht (traceOf_start hb) (start_ends he hs))
  intro t q hq
  have hr := ready_asked (fit_with hf rx) hq
  have hq' := hq
  obtain ⟨hw, ⟨hb, hst⟩ | ⟨t', m, hb, b, s, k, q', h1, h2, h3, h4, h5, h6, h7⟩⟩ := hq
  · exact hs t q hw hb hst
  · have ht := traceOk_of' (fit_with hf rx) hs hq'
    refine hrx t q (.inr ⟨by rw [hb]; rfl, s, b, h1, h2⟩) ⟨hw, ht, hr.plain⟩ hr (answer_says hr hw ht ?_ ?_)
    · obtain ⟨_, ho, _⟩ := hf.stop _ _ h1
      rw [h2] at ho
      obtain ⟨M, hM⟩ := hm k q' m h3
      rw [h4, ← ho] at hM
      subst hM
      have hg : 0 < (lang.prog (lang.opener q.re)).cMatch := by rw [ho]; exact (hf.start _ _ h1).1.groups
      unfold TraceOf backOf
      rw [hb]
      exact ⟨rfl, matchOf_matchesOf hg M⟩
    · rw [← h2]; exact he.stop _ _ h1

/-- if every repeated part takes a character, there are answers to all the parser's queries -/
theorem engine_exists {lang : Lang} {env : Env} (hf : Fit lang env) (he : Ending lang env) : ∃ rx, Engine lang (env.with rx) :=
  ⟨fun _ q => answer lang q, answer_engine_of hf he _ (fun _ _ _ _ _ h => h) (fun _ _ _ h => by
    obtain ⟨_, f, out, _, _, hm⟩ := answer_true h
    exact ⟨_, hm⟩)⟩

/-! ## C60 with the library's own expressions -/

/-- what the last call left -/
def lastOf (p : PState) : List Result → PState
  | [] => p
  | r :: rs => lastOf r.after rs

theorem runs_proper {lang : Lang} {env : Env} (hf : Fit lang env) {p : PState} {js : List Job} {rs : List Result} (h : Runs lang env p js rs) :
    ProperE lang env p → ProperE lang env (lastOf p rs) := by
  induction h with
  | nil => exact id
  | @cons p j js rx r rs h0 h1 _ ih =>
    intro hp
    have hft := fits_text (engine_fits (fit_with hf rx) h0) j.text
    have hp1 : Proper (env.with rx) r.after := TextParser.parses_proper hft (hp rx h0) h1
    exact ih (properE_of hf h0 hp1)

/-- **C60** for the library's own expressions and keyword lists: after any sequence of calls over any texts, whatever the cache they left, and
whatever the expressions were used for before and between, the next call of the parser ends. -/
theorem C60_next_call_ends_with_the_matcher (lang : Lang) (env : Env) (hf : Fit lang env) (hg : TextParser.Grounded env) (base : Nat) (js : List Job)
    (rs : List Result) (h : Runs lang env (fresh base) js rs) (j : Job) (hj : j.Ok) (rx : Nat → Query → Bool × Match) (he : Engine lang (env.with rx)) :
    ∃ r, Parses ((env.with rx).text j.text) (lastOf (fresh base) rs) j.from' j.num j.mode r := by
  have hp := runs_proper hf h (properE_fresh lang env base) rx he
  obtain ⟨r, h, _⟩ := TextParser.C60_parse_ends ((env.with rx).text j.text) (fits_text (engine_fits (fit_with hf rx) he) j.text) hg _ hp j.from' j.num j.mode hj.1 hj.2
  exact ⟨r, h⟩

/-- **C60**: if the expressions' calls end, too, all calls of a sequence end -/
theorem C60_every_call_ends_with_the_matcher (lang : Lang) (env : Env) (hf : Fit lang env) (he : Ending lang env) (hg : TextParser.Grounded env) (base : Nat)
    (js : List Job) (hj : ∀ j ∈ js, j.Ok) : ∃ rs, Runs lang env (fresh base) js rs := by
  obtain ⟨rx, hx⟩ := engine_exists hf he
  obtain ⟨rs, h⟩ := TextParser.C60_every_call_ends (env.with rx) (engine_fits (fit_with hf rx) hx) hg base js hj
  have key : ∀ {p : PState} {js : List Job} {rs : List Result}, TextParser.Done (env.with rx) p js rs → Runs lang env p js rs := by
    intro p js rs h
    induction h with
    | nil => exact .nil
    | cons h1 _ ih => exact .cons hx h1 ih
  exact ⟨rs, key h⟩

end Verif.Engine
