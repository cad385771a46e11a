import Verif.Engine.Canon
import Verif.Whole.Props
/-!
# C58 with the library's own expressions

The whole of editor, parser, line store, expressions and keyword lists: nothing about the collaborators is assumed. During each operation the
expressions answer as their objects do after whatever they were used for.
-/
namespace Verif.Engine
open Verif.TextParser (Query Match Env Text PState Result Parses Proper fresh)
open Verif.Whole (Ed EOp Legal Hist Styles Calm Tame Paints Shows PageUpOf parseOf toMode AllShow)
open Verif.LineRegions (LR Store)

variable {RD : Type}

/-- a history of legal operations of an editor; each has its own engine -/
inductive HistE (lang : Lang) (env : Env) (e0 : Ed RD) : Ed RD → Prop
  | nil : HistE lang env e0 e0
  | snoc {rx : Nat → Query → Bool × Match} {e e' : Ed RD} (op : EOp RD) : HistE lang env e0 e → Engine lang (env.with rx) → Legal (env.with rx) e op →
      e.step (env.with rx) op = some e' → HistE lang env e0 e'

/-! ## Proof -/

/-- the parser answers the same in both environments -/
def SameParser (env env' : Env) (p : PState) : Prop := ∀ T from' num mode r, Parses (env.text T) p from' num mode r ↔ Parses (env'.text T) p from' num mode r

theorem parseOf_same {env env' : Env} {p : PState} (h : SameParser env env' p) (T : Int → Option Text) (from' num : Int) (mode : TextParser.Mode) :
    parseOf (env.text T) p from' num mode = parseOf (env'.text T) p from' num mode := by
  unfold parseOf
  by_cases hx : ∃ r, Parses (env.text T) p from' num mode r
  · have hx' : ∃ r, Parses (env'.text T) p from' num mode r := by obtain ⟨r, hr⟩ := hx; exact ⟨r, (h _ _ _ _ _).1 hr⟩
    rw [dif_pos hx, dif_pos hx']
    exact congrArg some (((h _ _ _ _ _).1 hx.choose_spec).det hx'.choose_spec)
  · have hx' : ¬ ∃ r, Parses (env'.text T) p from' num mode r := by rintro ⟨r, hr⟩; exact hx ⟨r, (h _ _ _ _ _).2 hr⟩
    rw [dif_neg hx, dif_neg hx']

theorem parse_same_ed {env env' : Env} {e : Ed RD} (h : SameParser env env' e.parser) (from' to' : Int) (mode : Editor.Mode) :
    e.parse env from' to' mode = e.parse env' from' to' mode := by
  unfold Ed.parse; rw [parseOf_same h]

theorem run_same {env env' : Env} {e : Ed RD} (h : SameParser env env' e.parser) (from' to' : Int) (mode : Editor.Mode) :
    e.run env from' to' mode = e.run env' from' to' mode := by
  unfold Ed.run; dsimp only; rw [parse_same_ed h]

theorem fixSize_parser {e e1 : Ed RD} {b : Bool} (h : e.fixSize = some (e1, b)) : e1.parser = e.parser := by
  unfold Ed.fixSize at h
  split at h
  · obtain ⟨st, _, h⟩ := Option.map_eq_some_iff.1 h; cases h; rfl
  · cases h; rfl

theorem fixStart_parser (e : Ed RD) (l : Int) : (e.fixStart l).parser = e.parser := by
  unfold Ed.fixStart; split <;> rfl

theorem fixWindow_parser {e e1 : Ed RD} {first : Int} {layout : Bool} {pos : Int} {rebuild : Bool} {pl : Editor.Plan}
    (h : e.fixWindow first layout pos rebuild = some (e1, pl)) : e1.parser = e.parser := by
  unfold Ed.fixWindow at h
  split at h
  · split at h
    · cases h
    · obtain ⟨st, _, h⟩ := Option.map_eq_some_iff.1 h; cases h; rfl
  · cases h; rfl

theorem validate_same {env env' : Env} {e : Ed RD} (h : SameParser env env' e.parser) (lno : Int) (rebuild : Bool) :
    e.validate env lno rebuild = e.validate env' lno rebuild := by
  unfold Ed.validate
  dsimp only
  cases h1 : e.fixSize with
  | none => rfl
  | some p =>
    obtain ⟨e1, layout⟩ := p
    dsimp only [Option.bind_some]
    cases h2 : (e1.fixStart (Editor.target e.lineCount lno)).fixWindow e.store.first layout (e.wStart + e.wSize) rebuild with
    | none => rfl
    | some p =>
      obtain ⟨e3, plan⟩ := p
      dsimp only [Option.bind_some]
      have : e3.parser = e.parser := by rw [fixWindow_parser h2, fixStart_parser, fixSize_parser h1]
      exact run_same (by rw [this]; exact h) _ _ _

theorem query_same {env env' : Env} {e : Ed RD} (h : SameParser env env' e.parser) (lno : Int) : e.getLineRegions env lno = e.getLineRegions env' lno := by
  unfold Ed.getLineRegions; rw [validate_same h]

theorem step_same {env env' : Env} {e : Ed RD} (h : SameParser env env' e.parser) (op : EOp RD) : e.step env op = e.step env' op := by
  cases op with
  | idle t => show e.idleJob env t = e.idleJob env' t; unfold Ed.idleJob; rw [validate_same h]
  | query l => show (e.getLineRegions env l).map _ = _; rw [query_same h]; rfl
  | edit _ _ _ => rfl
  | visible _ _ => rfl
  | setType _ => rfl
  | setStyles _ => rfl
  | backParse _ => rfl

/-- what a step does to the parser: nothing, a parse, or a reset -/
theorem run_parser {env : Env} {e e' : Ed RD} {from' to' : Int} {mode : Editor.Mode} (h : e.run env from' to' mode = some e') :
    e'.parser = e.parser ∨ ∃ a b m r, Parses (env.text e.text) e.parser a b m r ∧ e'.parser = r.after := by
  unfold Ed.run at h
  dsimp only at h
  generalize (if to' > e.lineCount then e.lineCount else to') = to1 at h
  split at h
  · obtain ⟨⟨e1, stop⟩, h1, h2⟩ := Option.map_eq_some_iff.1 h
    unfold Ed.parse at h1
    obtain ⟨r, h3, h4⟩ := Option.bind_eq_some_iff.1 h1
    obtain ⟨st, _, h5⟩ := Option.map_eq_some_iff.1 h4
    cases h5
    right
    unfold parseOf at h3
    split at h3
    · rename_i hx
      cases h3
      refine ⟨_, _, _, _, hx.choose_spec, ?_⟩
      cases mode <;> cases h2 <;> rfl
    · cases h3
  · cases h; exact .inl rfl

theorem fixSize_text {e e1 : Ed RD} {b : Bool} (h : e.fixSize = some (e1, b)) : e1.text = e.text := by
  unfold Ed.fixSize at h
  split at h
  · obtain ⟨st, _, h⟩ := Option.map_eq_some_iff.1 h; cases h; rfl
  · cases h; rfl

theorem fixStart_text (e : Ed RD) (l : Int) : (e.fixStart l).text = e.text := by
  unfold Ed.fixStart; split <;> rfl

theorem fixWindow_text {e e1 : Ed RD} {first : Int} {layout : Bool} {pos : Int} {rebuild : Bool} {pl : Editor.Plan}
    (h : e.fixWindow first layout pos rebuild = some (e1, pl)) : e1.text = e.text := by
  unfold Ed.fixWindow at h
  split at h
  · split at h
    · cases h
    · obtain ⟨st, _, h⟩ := Option.map_eq_some_iff.1 h; cases h; rfl
  · cases h; rfl

theorem validate_parser {env : Env} {e e' : Ed RD} {lno : Int} {rebuild : Bool} (h : e.validate env lno rebuild = some e') :
    e'.parser = e.parser ∨ ∃ a b m r, Parses (env.text e.text) e.parser a b m r ∧ e'.parser = r.after := by
  unfold Ed.validate at h
  dsimp only at h
  obtain ⟨⟨e1, layout⟩, h1, h⟩ := Option.bind_eq_some_iff.1 h
  obtain ⟨⟨e3, plan⟩, h2, h⟩ := Option.bind_eq_some_iff.1 h
  have hp : e3.parser = e.parser := by rw [fixWindow_parser h2, fixStart_parser, fixSize_parser h1]
  have ht : e3.text = e.text := by rw [fixWindow_text h2, fixStart_text, fixSize_text h1]
  have := run_parser h
  rw [hp, ht] at this
  exact this

theorem query_parser {env : Env} {e e' : Ed RD} {lno : Int} {l : List (LR RD)} (h : e.getLineRegions env lno = some (e', l)) :
    e'.parser = e.parser ∨ ∃ a b m r, Parses (env.text e.text) e.parser a b m r ∧ e'.parser = r.after := by
  unfold Ed.getLineRegions at h
  split at h
  · cases h; exact .inl rfl
  · obtain ⟨e1, h1, h2⟩ := Option.map_eq_some_iff.1 h
    cases h2
    exact validate_parser h1

theorem step_parser {env : Env} {e e' : Ed RD} {op : EOp RD} (h : e.step env op = some e') :
    e'.parser = e.parser ∨ e'.parser.cache = [] ∨ ∃ a b m r, Parses (env.text e.text) e.parser a b m r ∧ e'.parser = r.after := by
  cases op with
  | idle t =>
    have h : e.idleJob env t = some e' := h
    unfold Ed.idleJob at h
    split at h
    · exact (validate_parser h).imp id .inr
    · cases h; exact .inl rfl
  | query l =>
    obtain ⟨⟨e1, r⟩, h1, h2⟩ := Option.map_eq_some_iff.1 h
    cases h2
    exact (query_parser h1).imp id .inr
  | edit _ _ _ => cases h; exact .inl rfl
  | visible _ _ => cases h; exact .inl rfl
  | setType _ => cases h; exact .inr (.inl rfl)
  | setStyles _ => cases h; exact .inl rfl
  | backParse _ => cases h; exact .inl rfl

section
variable {lang : Lang} {env : Env} (hf : Fit lang env) (hs : Still lang env)
include hf hs

theorem same_canon {rx : Nat → Query → Bool × Match} (he : Engine lang (env.with rx)) {p : PState} (hp : ProperE lang env p) :
    SameParser (env.with rx) (env.with (canon lang)) p := fun _ _ _ _ _ => parses_canon hf hs he hp

theorem tame_canon {rx : Nat → Query → Bool × Match} (he : Engine lang (env.with rx)) {base : Nat} {text : Int → Option Text} {count : Int} :
    Tame (env.with rx) base text count ↔ Tame (env.with (canon lang)) base text count := by
  have hp := same_canon hf hs he (properE_fresh lang env base)
  constructor
  · rintro ⟨h1, h2, r, h3, h4⟩; exact ⟨h1, h2, r, (hp _ _ _ _ _).1 h3, h4⟩
  · rintro ⟨h1, h2, r, h3, h4⟩; exact ⟨h1, h2, r, (hp _ _ _ _ _).2 h3, h4⟩

theorem legal_canon {rx : Nat → Query → Bool × Match} (he : Engine lang (env.with rx)) {e : Ed RD} {op : EOp RD} :
    Legal (env.with rx) e op ↔ Legal (env.with (canon lang)) e op := by
  cases op with
  | edit _ _ _ => unfold Legal; dsimp only; rw [tame_canon hf hs he]
  | setType _ => exact tame_canon hf hs he
  | idle t => exact Iff.rfl
  | query l => exact Iff.rfl
  | visible _ _ => exact Iff.rfl
  | setStyles _ => exact Iff.rfl
  | backParse _ => exact Iff.rfl

omit hs in
theorem properE_parses {rx : Nat → Query → Bool × Match} (he : Engine lang (env.with rx)) {e e' : Ed RD} (hp : ProperE lang env e.parser)
    (h : e'.parser = e.parser ∨ e'.parser.cache = [] ∨ ∃ a b m r, Parses ((env.with rx).text e.text) e.parser a b m r ∧ e'.parser = r.after) :
    ProperE lang env e'.parser := by
  rcases h with h | h | ⟨a, b, m, r, h1, h2⟩
  · rw [h]; exact hp
  · exact properE_empty h
  · rw [h2]; exact parses_properE hf he hp h1

theorem hist_canon {e0 e : Ed RD} (h : HistE lang env e0 e) (h0 : ProperE lang env e0.parser) : Hist (env.with (canon lang)) e0 e ∧ ProperE lang env e.parser := by
  induction h with
  | nil => exact ⟨.nil, h0⟩
  | @snoc rx e e' op _ he hl hstep ih =>
    obtain ⟨ih, hp⟩ := ih
    exact ⟨.snoc op ih ((legal_canon hf hs he).1 hl) (by rw [← step_same (same_canon hf hs he hp)]; exact hstep), properE_parses hf he hp (step_parser hstep)⟩

theorem paints_canon {rx : Nat → Query → Bool × Match} (he : Engine lang (env.with rx)) {base : Nat} {st : Styles RD} {text : Int → Option Text} {E : Int} {L : Nat}
    {p : LineRegions.Spec.Picture RD} (h : Paints (env.with (canon lang)) base st text E L p) : Paints (env.with rx) base st text E L p := by
  obtain ⟨r, s, h1, h2⟩ := h
  exact ⟨r, s, (same_canon hf hs he (properE_fresh lang env base) _ _ _ _ _).2 h1, h2⟩
end

/-! ## Theorems -/

/-- **C58** with the library's own expressions: every legal operation of an editor with a legal history succeeds, whatever the expressions are used
for besides. -/
theorem C58_legal_operations_succeed_with_the_matcher (lang : Lang) (env : Env) (hf : Fit lang env) (hs : Still lang env) (base : Nat) (st : Styles RD)
    (hc : Calm st) (text : Int → Option Text) (e : Ed RD) (h : HistE lang env (Ed.init base st text) e) (op : EOp RD)
    (rx : Nat → Query → Bool × Match) (he : Engine lang (env.with rx)) (hop : Legal (env.with rx) e op) : ∃ e', e.step (env.with rx) op = some e' := by
  obtain ⟨hh, hp⟩ := hist_canon hf hs h (properE_fresh lang env base)
  obtain ⟨e', h1⟩ := Whole.C58_legal_operations_succeed _ (canon_pure hf hs) (canon_ranges hf) base st hc text e hh op ((legal_canon hf hs he).1 hop)
  exact ⟨e', by rw [step_same (same_canon hf hs he hp)]; exact h1⟩

/-- **C58** with the library's own expressions (partial: the restrictions of C22 and of C59): after any legal history, the answer for a visible
line shows the picture of that line in the current text, coloured from scratch with the current type and styles - by an engine with any other
history. If every block has a region, the regions are those of the picture, too (`g`). -/
theorem C58_query_shows_text_with_the_matcher_partial (lang : Lang) (env : Env) (hf : Fit lang env) (hs : Still lang env) (base : Nat) (st : Styles RD)
    (hc : Calm st) (text : Int → Option Text) (e : Ed RD) (h : HistE lang env (Ed.init base st text) e) (lno : Int) (h0 : 0 ≤ lno)
    (hlc : lno < e.lineCount) (hvis : lno < e.wStart + e.wSize) (hpg : lno ≤ e.wStart ∨ lno < e.invalid ∨ ¬ PageUpOf e lno)
    (hbp : e.backParse ≤ 0 ∨ lno - e.invalid ≤ e.backParse) (g : Bool) (hg : g = true → TextParser.Opaque env)
    (rx : Nat → Query → Bool × Match) (he : Engine lang (env.with rx)) :
    ∃ e' l p, e.getLineRegions (env.with rx) lno = some (e', l) ∧
      (∀ rx', Engine lang (env.with rx') → Paints (env.with rx') e.parser.base e.regs e.text e.lineCount lno.toNat p) ∧ Shows g l p := by
  obtain ⟨hh, hp⟩ := hist_canon hf hs h (properE_fresh lang env base)
  have key : ∃ e' l p, e.getLineRegions (env.with (canon lang)) lno = some (e', l) ∧
      Paints (env.with (canon lang)) e.parser.base e.regs e.text e.lineCount lno.toNat p ∧ Shows g l p := by
    cases g with
    | false => exact Whole.C58_query_shows_text_partial _ (canon_pure hf hs) (canon_ranges hf) base st hc text e hh lno h0 hlc hvis hpg hbp
    | true => exact Whole.C58_query_shows_regions_partial _ (canon_pure hf hs) (canon_ranges hf) (hg rfl) base st hc text e hh lno h0 hlc hvis hpg hbp
  obtain ⟨e', l, p, h1, h2, h3⟩ := key
  exact ⟨e', l, p, by rw [query_same (same_canon hf hs he hp)]; exact h1, fun rx' he' => paints_canon hf hs he' h2, h3⟩

/-- the answers to queries one after another, each with its own engine -/
inductive AnswersE (lang : Lang) (env : Env) : Ed RD → List Int → List (List (LR RD)) → Prop
  | nil {e : Ed RD} : AnswersE lang env e [] []
  | cons {rx : Nat → Query → Bool × Match} {e e' : Ed RD} {l : Int} {ls : List Int} {r : List (LR RD)} {rs : List (List (LR RD))} :
      Engine lang (env.with rx) → e.getLineRegions (env.with rx) l = some (e', r) → AnswersE lang env e' ls rs → AnswersE lang env e (l :: ls) (r :: rs)

theorem answers_canon {lang : Lang} {env : Env} (hf : Fit lang env) (hs : Still lang env) {e : Ed RD} {ls : List Int} {rs : List (List (LR RD))}
    (h : AnswersE lang env e ls rs) : ProperE lang env e.parser → e.answers (env.with (canon lang)) ls = some rs := by
  induction h with
  | nil => intro _; rfl
  | @cons rx e e' l ls r rs he h1 _ ih =>
    intro hp
    have ih := ih (properE_parses hf he hp ((query_parser h1).imp id .inr))
    rw [query_same (same_canon hf hs he hp)] at h1
    rw [Ed.answers, h1, Option.bind_some, ih]
    rfl

theorem canon_answers {lang : Lang} {env : Env} (hf : Fit lang env) (hs : Still lang env) {rx : Nat → Query → Bool × Match} (he : Engine lang (env.with rx))
    (ls : List Int) : ∀ (e : Ed RD) (rs : List (List (LR RD))), ProperE lang env e.parser → e.answers (env.with (canon lang)) ls = some rs → AnswersE lang env e ls rs := by
  induction ls with
  | nil => intro e rs _ h; cases h; exact .nil
  | cons l ls ih =>
    intro e rs hp h
    rw [Ed.answers] at h
    obtain ⟨⟨e', r⟩, h1, h2⟩ := Option.bind_eq_some_iff.1 h
    obtain ⟨rs', h3, h4⟩ := Option.map_eq_some_iff.1 h2
    cases h4
    rw [← query_same (same_canon hf hs he hp)] at h1
    exact .cons he h1 (ih e' rs' (properE_parses hf he hp ((query_parser h1).imp id .inr)) h3)

/-- **C58** with the library's own expressions (partial): painting a screen. After any legal history, the first visible line and then any visible
lines in any order and number can be asked for, and every answer shows the picture of its line in the current text, coloured from scratch. -/
theorem C58_screen_shows_text_with_the_matcher_partial (lang : Lang) (env : Env) (hf : Fit lang env) (hs : Still lang env) (base : Nat) (st : Styles RD)
    (hc : Calm st) (text : Int → Option Text) (e : Ed RD) (h : HistE lang env (Ed.init base st text) e) (hbp : e.backParse ≤ 0)
    (hlc : e.wStart < e.lineCount) (ls : List Int) (hl : ∀ l ∈ ls, e.wStart ≤ l ∧ l < e.wStart + e.wSize ∧ l < e.lineCount)
    (g : Bool) (hg : g = true → TextParser.Opaque env) (rx : Nat → Query → Bool × Match) (he : Engine lang (env.with rx)) :
    (∃ rs, AnswersE lang env e (e.wStart :: ls) rs) ∧
      ∀ rs, AnswersE lang env e (e.wStart :: ls) rs → AllShow (env.with rx) g e (e.wStart :: ls) rs := by
  obtain ⟨hh, hp⟩ := hist_canon hf hs h (properE_fresh lang env base)
  obtain ⟨rs, h1, h2⟩ := Whole.C58_screen_shows_text_partial _ (canon_pure hf hs) (canon_ranges hf) base st hc text e hh hbp hlc ls hl g hg
  refine ⟨⟨rs, canon_answers hf hs he _ e rs hp h1⟩, fun rs' h' => ?_⟩
  have := answers_canon hf hs h' hp
  rw [h1] at this
  cases this
  clear h1 h' hl
  generalize e.wStart :: ls = l at h2
  induction h2 with
  | nil => exact .nil
  | cons a b c _ ih => exact .cons (paints_canon hf hs he a) b (fun _ => c (canon_in hf)) ih

end Verif.Engine
