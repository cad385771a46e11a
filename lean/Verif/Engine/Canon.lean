import Verif.Engine.Same
import Verif.TextParser.History
import Verif.TextParser.Replay
import Verif.TextParser.Inside
/-!
# Answers that do not depend on the history and the scheme start

If no expression has a `~`, the answers of any engine are those of one fixed function of expression, text, position, limit and back trace.
-/
namespace Verif.RegExp

mutual
theorem traces_list : ∀ l : List Node, ∃ k, ∀ m n, k ≤ m → k ≤ n → tracesIn m n l = true
  | [] => ⟨0, fun _ _ _ _ => rfl⟩
  | a :: r => by
    obtain ⟨k1, h1⟩ := traces_node a
    obtain ⟨k2, h2⟩ := traces_list r
    refine ⟨max k1 k2, fun m n hm hn => ?_⟩
    rw [tracesIn, h1 m n (by omega) (by omega), h2 m n (by omega) (by omega)]; rfl
theorem traces_node : ∀ a : Node, ∃ k, ∀ m n, k ≤ m → k ≤ n → tracesInN m n a = true
  | .bkTrace k | .bkTraceN k | .bkTraceNName k => ⟨k + 1, fun m n hm _ => by rw [tracesInN]; simp; omega⟩
  | .bkTraceName k => ⟨k + 1, fun m n _ hn => by rw [tracesInN]; simp; omega⟩
  | .brackets _ b | .named _ b | .ahead b | .nahead b | .behind _ b | .nbehind _ b | .or b | .rangeN _ b | .rangeNM _ _ b | .ngRangeN _ b
  | .ngRangeNM _ _ b => by
    obtain ⟨k, h⟩ := traces_list b
    exact ⟨k, fun m n hm hn => by rw [tracesInN]; exact h m n hm hn⟩
  | .empty | .msym _ | .symb _ | .word _ | .enum _ | .nenum _ | .bkBrack _ | .bkBrackName _ => ⟨0, fun _ _ _ _ => rfl⟩
end

theorem sameBack_refl (m n : Nat) (b : Option (Text × Matches)) : SameBack m n b b := by
  cases b with
  | none => trivial
  | some p => exact ⟨rfl, fun _ _ => ⟨rfl, rfl⟩, fun _ _ => ⟨rfl, rfl⟩⟩

/-- without `~` the scheme start is not read -/
theorem parse_start (chars : Chars) (x : Expr) (fuel : Nat) (o : Obj) (a : Args) (mt : Matches) (ss : Int) (h : noTilde x.body = true) :
    parse chars x fuel o { a with schemeStart := ss } mt = parse chars x fuel o a mt := by
  obtain ⟨k, hk⟩ := traces_list x.body
  exact parse_same chars x fuel o a { a with schemeStart := ss } mt (hk k k (Nat.le_refl _) (Nat.le_refl _)) rfl rfl rfl rfl (.inr h) (sameBack_refl _ _ _)

end Verif.RegExp

namespace Verif.Engine
open Verif.RegExp (Chars Expr Obj Matches Args Out parse uses)
open Verif.TextParser (Query Match Env Text PState Result Job Parses Proper fresh Pure RangesOk)

/-- no expression of the grammar has a `~`; nobody calls `breakParse` -/
structure Still (lang : Lang) (env : Env) : Prop where
  re : ∀ s start low regs, TextParser.Node.re start low regs ∈ env.nodes s → RegExp.noTilde (lang.prog start).body = true
  start : ∀ s b, TextParser.Node.block b ∈ env.nodes s → RegExp.noTilde (lang.prog b.start).body = true
  stop : ∀ s b, TextParser.Node.block b ∈ env.nodes s → RegExp.noTilde (lang.prog b.stop).body = true
  brk : ∀ t, env.brk t = false

/-- what a new object answers, for a scheme start of 0 -/
noncomputable def canon (lang : Lang) (_ : Nat) (q : Query) : Bool × Match := answer lang { q with schemeStart := 0 }

theorem call_start {lang : Lang} {q : Query} (h : RegExp.noTilde (lang.prog q.re).body = true) (ss : Int) (f : Nat) :
    call lang { q with schemeStart := ss } f = call lang q f :=
  RegExp.parse_start lang.chars _ f _ ⟨q.text, q.pos, q.len, q.schemeStart, none, backOf lang q⟩ blank ss h

theorem fine_start {lang : Lang} {q : Query} (h : Fine lang q) (ss : Int) : Fine lang { q with schemeStart := ss } := h

/-- if the object answers, `canon` is an answer -/
theorem says_canon {lang : Lang} {q : Query} (hr : Ready lang q) (hq : Fine lang q) (ht : RegExp.noTilde (lang.prog q.re).body = true)
    (ho : q.back.isSome = true → 0 < (lang.prog (lang.opener q.re)).cMatch) {a : Bool × Match} (h : Says lang q a) (t : Nat) : Says lang q (canon lang t q) := by
  obtain ⟨f, out, c1, c2, _⟩ := says_call hr h
  have e : canon lang t q = (decide (out.res = .ret true), matchOf (lang.prog q.re) out.m) :=
    answer_of (q := { q with schemeStart := 0 }) (fine_start hq 0) (by rw [call_start ht]; exact c1)
  obtain ⟨_, _, _, bt, _, _, _, hb, _⟩ := h
  rw [e]
  refine ⟨[], _, f, backOf lang q, blank, out, rfl, ?_, c1, ?_, fun _ => rfl⟩
  · unfold TraceOf at hb ⊢
    unfold backOf
    cases hqb : q.back with
    | none => trivial
    | some p =>
      rw [hqb] at hb
      cases bt with
      | none => exact hb.elim
      | some p' =>
        obtain ⟨h1, h2⟩ := hb
        refine ⟨rfl, ?_⟩
        rw [← h2]
        exact matchOf_matchesOf (ho (by rw [hqb]; rfl)) _
  · rw [c2]; cases a.1 <;> simp

/-- where there is an engine, `canon` is one -/
theorem engine_canon {lang : Lang} {env : Env} (hf : Fit lang env) (hs : Still lang env) {rx : Nat → Query → Bool × Match} (he : Engine lang (env.with rx)) :
    Engine lang (env.with (canon lang)) := by
  have hfx := fit_with hf rx
  have hst : ∀ t (q : Query), TextParser.Within q → q.back = none → TextParser.Starts env q.re → Says lang q (canon lang t q) := by
    intro t q hw hb hq
    have hr := ready_start hf hb hq
    have hqa : TextParser.Asked (env.with rx) q := ⟨hw, .inl ⟨hb, hq⟩⟩
    refine says_canon hr ⟨hw, traceOk_of hfx he hqa, hr.plain⟩ ?_ (fun h => by rw [hb] at h; simp at h) (he t q hqa) t
    obtain ⟨s, ⟨low, regs, h⟩ | ⟨b, h, hbs⟩⟩ := hq
    · exact hs.re _ _ _ _ h
    · rw [← hbs]; exact hs.start _ _ h
  intro t q hq
  obtain ⟨hw, ⟨hb, hq⟩ | ⟨t', m, hb, b, s, k, q', h1, h2, h3, h4, h5, h6, h7⟩⟩ := hq
  · exact hst t q hw hb hq
  · have hq' : TextParser.Starts env q'.re := ⟨s, .inr ⟨b, h1, h4.symm⟩⟩
    obtain ⟨u1, u2⟩ := says_unique (ready_start hf h6 hq') (hst k q' h7 h6 hq') (he k q' ⟨h7, .inl ⟨h6, hq'⟩⟩)
    have h3 : canon lang k q' = (true, m) := h3
    rw [h3] at u1 u2
    have h3' : (env.with rx).rx k q' = (true, m) := Prod.ext u1 (u2 (.inl rfl))
    have hqa : TextParser.Asked (env.with rx) q := ⟨hw, .inr ⟨t', m, hb, b, s, k, q', h1, h2, h3', h4, h5, h6, h7⟩⟩
    have hr := ready_asked hfx hqa
    refine says_canon hr ⟨hw, traceOk_of hfx he hqa, hr.plain⟩ (by rw [← h2]; exact hs.stop _ _ h1) (fun _ => ?_) (he t q hqa) t
    obtain ⟨_, ho, _⟩ := hf.stop _ _ h1
    rw [h2] at ho
    rw [ho]; exact (hf.start _ _ h1).1.groups

theorem canon_pure {lang : Lang} {env : Env} (hf : Fit lang env) (hs : Still lang env) : Pure (env.with (canon lang)) where
  rx := fun _ _ _ _ => rfl
  kw := fun _ _ => by show env.kw _ = env.kw _; rw [hf.kw]; rfl
  brk := hs.brk

theorem canon_ranges {lang : Lang} {env : Env} (hf : Fit lang env) : RangesOk (env.with (canon lang)) where
  rx := by
    intro t q h
    have e : answer lang { q with schemeStart := 0 } = (true, (canon lang t q).2) := Prod.ext h rfl
    obtain ⟨⟨⟨w1, w2, w3⟩, w4, w5⟩, f, out, c1, c2, hm⟩ := answer_true e
    show (canon lang t q).2.Ok
    rw [hm]
    have w2 : q.pos ≤ q.len := w2
    have w3 : q.len ≤ (q.text.length : Int) := w3
    obtain ⟨_, g⟩ := RegExp.C28_inside_the_text lang.chars _ f _ _ _ out w1 (by show q.pos ≤ (q.text.length : Int); omega) w3 w4 w5.groups c1
    obtain ⟨g1, g2, g3, _, _, g6⟩ := g c2
    refine ⟨⟨g6 rfl rfl, g3⟩, ?_⟩
    intro p hp
    rcases List.mem_append.1 hp with hp | hp
    · obtain ⟨i, hi, rfl⟩ := List.mem_map.1 hp
      have hi := List.mem_range.1 hi
      have := g1 (i + 1) (by omega) (by show i + 1 < (lang.prog q.re).cMatch; have : i < (lang.prog q.re).cMatch - 1 := hi; omega)
      unfold RegExp.Inside at this
      dsimp only
      omega
    · obtain ⟨i, hi, rfl⟩ := List.mem_map.1 hp
      have := g2 i (List.mem_range.1 hi)
      unfold RegExp.Inside at this
      dsimp only
      omega
  kw := by
    intro t id s x low n r h
    have h : env.kw t id s x low = some (n, r) := h
    rw [hf.kw] at h
    unfold kwOf at h
    split at h
    · simp only [Option.some.injEq, Prod.mk.injEq] at h; omega
    · cases h
  maxBlock := hf.maxBlock

/-- what the expressions and keyword lists of the library report lies in the text -/
theorem canon_in {lang : Lang} {env : Env} (hf : Fit lang env) : TextParser.RangesIn (env.with (canon lang)) where
  rx := by
    intro t q h0 h1 h2 h
    have e : answer lang { q with schemeStart := 0 } = (true, (canon lang t q).2) := Prod.ext h rfl
    obtain ⟨⟨⟨w1, w2, w3⟩, w4, w5⟩, f, out, c1, c2, hm⟩ := answer_true e
    show (canon lang t q).2.Upto _
    rw [hm]
    have w2 : q.pos ≤ q.len := w2
    have w3 : q.len ≤ (q.text.length : Int) := w3
    obtain ⟨_, g⟩ := RegExp.C28_inside_the_text lang.chars _ f _ _ _ out w1 (by show q.pos ≤ (q.text.length : Int); omega) w3 w4 w5.groups c1
    obtain ⟨g1, g2, g3, g4, _, g6⟩ := g c2
    have g4 : out.m.e 0 ≤ max q.pos q.len := g4
    intro p hp
    rcases List.mem_cons.1 hp with rfl | hp
    · show out.m.s 0 ≤ _ ∧ out.m.e 0 ≤ _
      omega
    rcases List.mem_append.1 hp with hp | hp
    · obtain ⟨i, hi, rfl⟩ := List.mem_map.1 hp
      have hi := List.mem_range.1 hi
      have := g1 (i + 1) (by omega) (by show i + 1 < (lang.prog q.re).cMatch; have : i < (lang.prog q.re).cMatch - 1 := hi; omega)
      unfold RegExp.Inside at this
      dsimp only at this ⊢
      omega
    · obtain ⟨i, hi, rfl⟩ := List.mem_map.1 hp
      have := g2 i (List.mem_range.1 hi)
      unfold RegExp.Inside at this
      dsimp only at this ⊢
      omega
  kw := by
    intro t id s x low n r h0 h1 h2 h
    have h : env.kw t id s x low = some (n, r) := h
    rw [hf.kw] at h
    unfold kwOf at h
    obtain ⟨mc, lo, up, ti, sorted, hk, hw⟩ := hf.words id
    rw [hk] at h
    by_cases hle : x.toNat ≤ low.toNat
    · rcases Keywords.C08_reported_keyword_is_in_text (lang.kenv id) mc lo up ti sorted (fun k hk => (hw k hk).2) s x.toNat low.toNat hle (by omega) with h3 | ⟨i, k, h3, _, h5, _⟩
      · rw [h3] at h; cases h
      · rw [h3] at h
        simp only [Option.some.injEq, Prod.mk.injEq] at h
        have := h5.1
        omega
    · rw [show Keywords.search (lang.kenv id) (Keywords.build mc lo up ti sorted) s x.toNat low.toNat = .nothing from by
        unfold Keywords.search; rw [if_pos (Or.inr (by omega))]] at h
      cases h

/-! ## Parses -/

/-- a parse with an engine is a parse with `canon` -/
theorem parses_canon {lang : Lang} {env : Env} (hf : Fit lang env) (hs : Still lang env) {rx : Nat → Query → Bool × Match} (he : Engine lang (env.with rx))
    {p : PState} (hp : ProperE lang env p) {T : Int → Option Text} {from' num : Int} {mode : TextParser.Mode} {r : Result} :
    Parses ((env.with rx).text T) p from' num mode r ↔ Parses ((env.with (canon lang)).text T) p from' num mode r := by
  have hc := engine_canon hf hs he
  have go : ∀ {r1 r2 : Nat → Query → Bool × Match}, Engine lang (env.with r1) → Engine lang (env.with r2) →
      Parses ((env.with r1).text T) p from' num mode r → Parses ((env.with r2).text T) p from' num mode r := by
    intro r1 r2 h1 h2 h
    have hfx := fit_with hf r1
    have hft := fits_text (engine_fits hfx h1) T
    have ha : TextParser.Agrees ((env.with r1).text T) r2 := fun t q hq => engines_agree (rx := r2) hfx h1 h2 t q hq
    exact TextParser.parses_agree hft ha (hp r1 h1) h
  exact ⟨go he hc, go hc he⟩

theorem parses_properE {lang : Lang} {env : Env} (hf : Fit lang env) {rx : Nat → Query → Bool × Match} (he : Engine lang (env.with rx))
    {p : PState} (hp : ProperE lang env p) {T : Int → Option Text} {from' num : Int} {mode : TextParser.Mode} {r : Result}
    (h : Parses ((env.with rx).text T) p from' num mode r) : ProperE lang env r.after := by
  have hft := fits_text (engine_fits (fit_with hf rx) he) T
  have hp1 : Proper (env.with rx) r.after := TextParser.parses_proper hft (hp rx he) h
  exact properE_of hf he hp1

theorem properE_empty {lang : Lang} {env : Env} {p : PState} (h : p.cache = []) : ProperE lang env p := by
  rintro rx _ i ⟨t, ht, _⟩
  rw [h] at ht
  simp at ht

/-! ## C34 with the library's own expressions -/

/-- a session as in C34 in which every parse has its own engine -/
inductive ReachE (lang : Lang) (env : Env) (base : Nat) : TextParser.Sess → Prop
  | init {T : Int → Option Text} {p : PState} : p.cache = [] → p.base = base → ReachE lang env base ⟨T, p, 0⟩
  | step {rx : Nat → Query → Bool × Match} {s s' : TextParser.Sess} : ReachE lang env base s → Engine lang (env.with rx) →
      TextParser.Step (env.with rx) base s s' → ReachE lang env base s'

theorem reach_canon {lang : Lang} {env : Env} (hf : Fit lang env) (hs : Still lang env) {base : Nat} {s : TextParser.Sess} (h : ReachE lang env base s) :
    TextParser.Reach (env.with (canon lang)) base s ∧ ProperE lang env s.p := by
  induction h with
  | init h1 h2 => exact ⟨.init h1 h2, properE_empty h1⟩
  | @step rx s s' _ he hstep ih =>
    obtain ⟨ih, hp⟩ := ih
    cases hstep with
    | edit h1 h2 => exact ⟨.step ih (.edit h1 h2), hp⟩
    | read h1 => exact ⟨.step ih (.read ((parses_canon hf hs he hp).1 h1)), parses_properE hf he hp h1⟩
    | update h1 h2 h3 h4 h5 h6 h7 =>
      exact ⟨.step ih (.update h1 h2 h3 h4 ((parses_canon hf hs he (properE_fresh lang env base)).1 h5) h6 ((parses_canon hf hs he hp).1 h7)),
        parses_properE hf he hp h7⟩

/-- **C34** with the library's own expressions and keyword lists, shared and used by others as may be: after any history of edits, reading and
updating parses, a parse that begins where the cache is up to date ends and reports for its lines the events that parsing the present text
from the beginning with an empty cache (with other histories of the expressions) reports for them; an updating one leaves the same cache. -/
theorem C34_any_history_with_the_matcher_partial (lang : Lang) (env : Env) (hf : Fit lang env) (hs : Still lang env) (base : Nat) (s : TextParser.Sess)
    (h : ReachE lang env base s) (rx rx0 : Nat → Query → Bool × Match) (he : Engine lang (env.with rx)) (he0 : Engine lang (env.with rx0)) (F E : Int)
    (hF : 0 ≤ F) (hg : F ≤ s.good) (hFE : F ≤ E) (mode : TextParser.Mode) (hm : mode ≠ .off) (r0 : Result)
    (h0 : Parses ((env.with rx0).text s.text) (fresh base) 0 E .update r0) (hh : r0.hit = false) :
    ∃ r, Parses ((env.with rx).text s.text) s.p F (E - F) mode r ∧ TextParser.between F E r.evs = TextParser.between F E r0.evs ∧
      (mode = .update → r.after.cache = r0.after.cache) := by
  obtain ⟨hr, hp⟩ := reach_canon hf hs h
  obtain ⟨r, h1, h2, h3⟩ := TextParser.C34_any_history _ (canon_pure hf hs) base s hr F E hF hg hFE mode hm r0
    ((parses_canon hf hs he0 (properE_fresh lang env base)).1 h0) hh
  exact ⟨r, (parses_canon hf hs he hp).2 h1, h2, h3⟩

end Verif.Engine
