import Verif.Tool.Lines
import Verif.Engine.Down
import Verif.Styles.Props
/-!
# C71: colouring a file
-/
namespace Verif.Tool
open Verif.Strings (Str)
open Verif.Viewer (Out Reg Def lit InOrder render stopOf chars ColLe textOf)
open Verif.LineRegions (LR Compact Payload)
open Verif.LineRegions.Spec
open Verif.Whole (Styles Calm AllShow AllIn allLines Shows Paints Tame Ed)
open Verif.Engine (Lang Fit Still Engine AnswersE langOf WorksWith SteadyLib StillLib)
open Verif.TextParser (Env Query Match)
open Verif.RegExp (Chars)
open Verif.Hrc (World Lib Name Act acts)

variable {RD D : Type}

/-! ## The three formats -/

/-- the writer of a format writes a line as the marks of its columns say -/
def Writes (o : Opts) (reg : LR RD → Reg) (key : Payload RD → Option D) (op cl : D → List Out) : Prop :=
  ∀ (line : Str) (f : Nat → Option D) (l : List (LR RD)), Compact l → (∀ x : Nat, ∃ t ∈ l, t.showsAt x) → (∀ t ∈ l, ColLe (line.length : Int) t) →
    (∀ t ∈ l, ∀ x : Nat, t.showsAt x → f x = key t.pay) → ∃ out, writeLine o line (l.map reg) = .ok out ∧ Wraps op cl (columns line f) out

theorem writes_rgb (o : Opts) (ho : o.format = .rgb) (hl : o.links = none) (names : Nat → Str × List Str) (sname : Nat → Str) :
    Writes o (regOf Def.styled names sname) (·.rdef) Viewer.writeStart Viewer.writeEnd := by
  intro line f l hc hcov hin hk
  have hs : Seen (regOf Def.styled names sname) (fun t : LR Styles.Styled => t.pay.rdef) (fun r => !(r.special || r.rdef.isNone))
      (Viewer.htmlOpen none line) (Viewer.htmlClose none line) Viewer.writeStart Viewer.writeEnd := by
    refine ⟨fun _ => rfl, fun _ => rfl, ?_, ?_, ?_⟩
    · intro t; simp only [regOf]; cases t.special <;> cases t.pay.rdef <;> rfl
    · intro t d h; simp [Viewer.htmlOpen, regOf, h, Viewer.linkOf]
    · intro t d h; simp [Viewer.htmlClose, regOf, h, Viewer.linkOf]
  obtain ⟨a, b⟩ := wraps_line hs line f l hc hcov hin hk
  obtain ⟨out, x1, _, x3⟩ := Viewer.C06_htmlRGBWrite none line _ a (by
    intro r hr s hrs
    obtain ⟨t, _, rfl⟩ := List.mem_map.1 hr
    simp only [regOf] at hrs
    cases h : t.pay.rdef <;> rw [h] at hrs <;> simp at hrs)
  refine ⟨out, ?_, by rw [x3]; exact b⟩
  simp only [writeLine, ho, hl, x1, ofWriter]

theorem writes_markup (o : Opts) (ho : o.format = .markup) (names : Nat → Str × List Str) (sname : Nat → Str) :
    Writes o (regOf Def.texted names sname) (·.rdef) textOpen textClose := by
  intro line f l hc hcov hin hk
  have hs : Seen (regOf Def.texted names sname) (fun t : LR Styles.Text => t.pay.rdef) (fun r => !(r.special || r.rdef.isNone))
      Viewer.markupOpen Viewer.markupClose textOpen textClose := by
    refine ⟨fun _ => rfl, fun _ => rfl, ?_, ?_, ?_⟩
    · intro t; simp only [regOf]; cases t.special <;> cases t.pay.rdef <;> rfl
    · intro t d h; simp [Viewer.markupOpen, regOf, h, textOpen]
    · intro t d h; simp [Viewer.markupClose, regOf, h, textClose]
  obtain ⟨a, b⟩ := wraps_line hs line f l hc hcov hin hk
  obtain ⟨out, x1, _, x3⟩ := Viewer.C06_markupWrite line _ a (by
    intro r hr s hrs
    obtain ⟨t, _, rfl⟩ := List.mem_map.1 hr
    simp only [regOf] at hrs
    cases h : t.pay.rdef <;> rw [h] at hrs <;> simp at hrs)
  refine ⟨out, ?_, by rw [x3]; exact b⟩
  simp only [writeLine, ho, x1, ofWriter]

theorem writes_tokens (o : Opts) (ho : o.format = .tokens) (kind : RD → Def) (names : Nat → Str × List Str) (sname : Nat → Str) :
    Writes o (regOf kind names sname) (·.region) (fun r => nameOpen (names r)) (fun r => nameClose (names r)) := by
  intro line f l hc hcov hin hk
  have hs : Seen (regOf kind names sname) (fun t : LR RD => t.pay.region) (fun r => !(r.special || r.region.isNone))
      Viewer.tokenBefore (fun _ => [.markup (lit "</span>")]) (fun r => nameOpen (names r)) (fun r => nameClose (names r)) := by
    refine ⟨fun _ => rfl, fun _ => rfl, ?_, ?_, ?_⟩
    · intro t; simp only [regOf]; cases t.special <;> cases t.pay.region <;> rfl
    · intro t d h; simp [Viewer.tokenBefore, regOf, h, nameOpen]
    · intro t d h; rfl
  obtain ⟨a, b⟩ := wraps_line hs line f l hc hcov hin hk
  obtain ⟨out, x1, _, x3⟩ := Viewer.C06_tokenWrite line _ a
  refine ⟨out, ?_, by rw [x3]; exact b⟩
  simp only [writeLine, ho, x1, ofWriter]

/-! ## The page -/

theorem sourceOf_nat (lines : List Str) (i : Nat) : sourceOf lines i = lines[i]? := by
  unfold sourceOf
  rw [if_neg (by omega)]
  simp

theorem page_ok {o : Opts} {reg : LR RD → Reg} {key : Payload RD → Option D} {op cl : D → List Out} (hw : Writes o reg key op cl) {env : Env} {g : Bool}
    (hkey : ∀ a b : Payload RD, a.rdef = b.rdef → (g = true → a.region = b.region) → key a = key b) {e : Ed RD} {lines : List Str}
    (htext : e.text = sourceOf lines) (hcount : e.lineCount = lines.length) {mark : Nat → Nat → Option D}
    (hm : Coloured env e.parser.base e.regs lines key mark) (k : Nat) :
    ∀ (i : Nat) (rs : List (List (LR RD))), i + k = lines.length → AllShow env g e ((List.range' i k).map Int.ofNat) rs →
      AllIn e ((List.range' i k).map Int.ofNat) rs →
      ∃ out, writeLines o lines.length i (lines.drop i) (rs.map (·.map reg)) = .ok out ∧ Page op cl o.numbers lines.length mark i (lines.drop i) out := by
  induction k with
  | zero =>
    intro i rs hi h _
    rw [List.drop_of_length_le (by omega)]
    refine ⟨[], ?_, .nil⟩
    cases rs <;> rfl
  | succ k ih =>
    intro i rs hi h hin
    rw [List.range'_succ, List.map_cons] at h hin
    obtain ⟨q, hq1, hq2⟩ := hm i (by omega)
    cases h with
    | @cons _ _ r rs p h1 h2 h3 h4 =>
      cases hin with
      | cons i1 i2 =>
        obtain ⟨out, w1, w2⟩ := ih (i + 1) rs (by omega) h4 i2
        have hp : p = q := by
          rw [htext, hcount] at h1
          exact Paints.det h1 hq1
        subst hp
        have hlt : i < lines.length := by omega
        rw [List.drop_eq_getElem_cons hlt]
        have hlen : Whole.width e.text (Int.ofNat i) = (lines[i]).length := by
          show ((e.text (i : Int)).getD []).length = _
          rw [htext, sourceOf_nat, List.getElem?_eq_getElem hlt]; rfl
        rw [hlen] at i1
        obtain ⟨body, b1, b2⟩ := hw lines[i] (mark i) r h2.compact h2.covered i1 (by
          intro t ht x hx
          obtain ⟨y, y1, y2, y3⟩ := h2.style x t ht hx
          rw [hq2 x, y1, Option.bind_some]
          exact hkey y t.pay y2.symm (fun hg => (y3 hg).symm))
        refine ⟨_, ?_, .cons (number_ok o lines.length i).1 (number_ok o lines.length i).2 b2 w2⟩
        rw [List.map_cons, writeLines, b1, w1]

theorem coloured_exists {env : Env} {g : Bool} {e : Ed RD} {lines : List Str} (htext : e.text = sourceOf lines) (hcount : e.lineCount = lines.length)
    {rs : List (List (LR RD))} (h : AllShow env g e (allLines lines.length) rs) (key : Payload RD → Option D) :
    ∃ mark, Coloured env e.parser.base e.regs lines key mark := by
  have h1 : ∀ i, i < lines.length → ∃ p, Paints env e.parser.base e.regs (sourceOf lines) lines.length i p := by
    have : ∀ (ls : List Int) (rs : List (List (LR RD))), AllShow env g e ls rs → ∀ l ∈ ls, ∃ p, Paints env e.parser.base e.regs e.text e.lineCount l.toNat p := by
      intro ls rs h
      induction h with
      | nil => simp
      | cons a _ _ _ ih =>
        intro l hl
        rcases List.mem_cons.1 hl with rfl | hl
        · exact ⟨_, a⟩
        · exact ih l hl
    intro i hi
    have := this _ _ h (Int.ofNat i) (List.mem_map.2 ⟨i, List.mem_range.2 hi, rfl⟩)
    rw [htext, hcount] at this
    exact this
  classical
  refine ⟨fun i x => if h : i < lines.length then ((h1 i h).choose.shown x).bind key else none, ?_⟩
  intro i hi
  exact ⟨(h1 i hi).choose, (h1 i hi).choose_spec, fun x => by simp only [hi, dif_pos]⟩

theorem genOutput_ok {o : Opts} {reg : LR RD → Reg} {key : Payload RD → Option D} {op cl : D → List Out} (hw : Writes o reg key op cl) {env : Env} {g : Bool}
    (hkey : ∀ a b : Payload RD, a.rdef = b.rdef → (g = true → a.region = b.region) → key a = key b) {e : Ed RD} {lines : List Str}
    (htext : e.text = sourceOf lines) (hcount : e.lineCount = lines.length) {rs : List (List (LR RD))}
    (h : AllShow env g e (allLines lines.length) rs) (hin : AllIn e (allLines lines.length) rs) {rd : Option Def} {hd ft : List Out}
    (h1 : header o rd = .ok hd) (h2 : footer o rd = .ok ft) (name : Str) :
    ∃ mark page, Coloured env e.parser.base e.regs lines key mark ∧ Page op cl o.numbers lines.length mark 0 lines page ∧
      genOutput o (some name) rd lines (rs.map (·.map reg)) = .ok (hd ++
        (if o.copyright then [.markup (lit "Created with colorer library. Type '"), .markup name, .markup (lit "'\n\n")] else []) ++ page ++ ft) := by
  obtain ⟨mark, hm⟩ := coloured_exists htext hcount h key
  have e1 : allLines lines.length = (List.range' 0 lines.length).map Int.ofNat := by unfold allLines; rw [List.range_eq_range']
  rw [e1] at h hin
  obtain ⟨page, x1, x2⟩ := page_ok hw hkey htext hcount hm lines.length 0 rs (by omega) h hin
  refine ⟨mark, page, hm, by simpa using x2, ?_⟩
  rw [List.drop_zero] at x1
  have hcr : credits o (some name) = .ok (if o.copyright then [.markup (lit "Created with colorer library. Type '"), .markup name, .markup (lit "'\n\n")] else []) := by
    unfold credits
    split <;> rfl
  unfold genOutput
  rw [h1, h2, x1, hcr]

/-! ## Concrete styles -/

theorem calm_styled (look : Nat → Option Styles.Styled) (special : Nat → Bool) : Calm (styledStyles look special) := by
  refine ⟨?_, fun h => by simp [styledStyles] at h⟩
  intro b
  show b.assignParent b = b
  cases b
  simp [Styles.Styled.assignParent]

theorem calm_text (look : Nat → Option Styles.Text) (special : Nat → Bool) : Calm (textStyles look special) := by
  refine ⟨?_, fun h => by simp [textStyles] at h⟩
  intro b
  show b.assignParent b = b
  cases b
  simp [Styles.Text.assignParent]

theorem calm_none (special : Nat → Bool) : Calm (noStyles special) := by
  refine ⟨?_, fun _ => rfl⟩
  intro b
  show b.assignParent b = b
  cases b
  simp [Styles.Styled.assignParent]

theorem Page.text {op cl : D → List Out} (h1 : ∀ d, textOf (op d) = []) (h2 : ∀ d, textOf (cl d) = []) {b : Bool} {n : Nat} {mark : Nat → Nat → Option D}
    {i : Nat} {lines : List Str} {out : List Out} (h : Page op cl b n mark i lines out) : textOf out = lines.flatten := by
  induction h with
  | nil => rfl
  | cons a _ c _ ih =>
    rw [Viewer.textOf_append, Viewer.textOf_append, a, c.text h1 h2, List.flatten_cons]
    have hr : ∀ (s : Str) (r : List Out), textOf (.markup s :: r) = textOf r := fun _ _ => rfl
    rw [hr, ih, List.nil_append]
    congr 1
    simp [columns, Function.comp_def]

/-! ## C71 -/

/-- a grammar loaded from any sources in any order, and the expressions and tables the parser uses are those of the library -/
structure LoadedGrammar (W : World) (fuel : Nat) (protos : List Name) (as : List Act) (L : Lib) (chars : Chars) (env : Env) : Prop where
  names  : ∀ t ∈ protos, 58 ∉ t
  enough : protos.length < fuel
  loaded : acts W fuel (Lib.init protos) as = some L
  steady : SteadyLib L
  still  : StillLib L
  works  : WorksWith chars L env
  quiet  : ∀ t, env.brk t = false

/-- what the tool does with the editor before it writes (392-397): a new editor with the styles `st` is told the number of lines and gets its type -/
noncomputable def setUp (env : Env) (base : Nat) (st : Styles RD) (lines : List Str) : Option (Ed RD) :=
  ((Ed.init base st (sourceOf lines)).step env (.edit 0 (sourceOf lines) lines.length)).bind fun e => e.step env (.setType base)

theorem answers_ok {W : World} {fuel : Nat} {protos : List Name} {as : List Act} {L : Lib} {chars : Chars} {env : Env}
    (hG : LoadedGrammar W fuel protos as L chars env) (base : Nat) (st : Styles RD) (hc : Calm st) (lines : List Str) (g : Bool)
    (hg : g = true → TextParser.Opaque env) (rx : Nat → Query → Bool × Match) (hx : Engine (langOf chars L) (env.with rx))
    (ht : Tame (env.with rx) base (sourceOf lines) lines.length) :
    ∃ e, setUp (env.with rx) base st lines = some e ∧ e.text = sourceOf lines ∧ e.regs = st ∧ e.parser.base = base ∧ e.lineCount = lines.length ∧
      (∃ rs, AnswersE (langOf chars L) env e (allLines lines.length) rs) ∧
      ∀ rs, AnswersE (langOf chars L) env e (allLines lines.length) rs →
        AllShow (env.with rx) g e (allLines lines.length) rs ∧ AllIn e (allLines lines.length) rs :=
  Engine.C58_printing_a_text_with_the_matcher_partial _ env
    (Engine.C63_loaded_grammar_fits protos hG.names hG.enough as L hG.loaded hG.steady chars env hG.works) (Engine.still_of hG.still hG.works hG.quiet) base st hc
    (sourceOf lines) lines.length g hg rx hx ht

/-- C71, one line with links (partial: for any list of regions in order, not through the editor): between the characters of the line, which all come out, each region
stands between its link — if there is one for its text and scheme — and its span. -/
theorem C71_a_line_with_links_partial (o : Opts) (ho : o.format = .rgb) (line : Str) (regs : List Reg)
    (h : Viewer.InOrder line (fun r => !(r.special || r.rdef.isNone)) 0 regs) (hk : ∀ r ∈ regs, ∀ s, r.rdef ≠ some (.texted s)) :
    ∃ out, writeLine o line regs = .ok out ∧ textOf out = line ∧
      out = Viewer.render line (fun r => !(r.special || r.rdef.isNone)) (Viewer.htmlOpen o.links line) (Viewer.htmlClose o.links line) 0 regs := by
  obtain ⟨out, x1, x2, x3⟩ := Viewer.C06_htmlRGBWrite o.links line regs h hk
  exact ⟨out, by simp only [writeLine, ho, x1, ofWriter], x2, x3⟩

/-- **C71** (partial: the grammar is `LoadedGrammar`, the text can be parsed within the recursion limit, no links): coloured HTML. The tool can ask the
editor for all lines; whatever the answers are, the output is the head of the page, the credits if wanted, the page and its foot: every line with its number
if wanted, every character in a span with exactly the style its column has when the whole text is coloured from scratch, and no character missing. -/
theorem C71_coloured_file_partial {W : World} {fuel : Nat} {protos : List Name} {as : List Act} {L : Lib} {chars : Chars} {env : Env}
    (hG : LoadedGrammar W fuel protos as L chars env) (base : Nat) (look : Nat → Option Styles.Styled) (special : Nat → Bool) (lines : List Str)
    (rx : Nat → Query → Bool × Match) (hx : Engine (langOf chars L) (env.with rx)) (ht : Tame (env.with rx) base (sourceOf lines) lines.length)
    (o : Opts) (ho : o.format = .rgb) (hl : o.links = none) (rd : Option Styles.Styled) (name : Str) (names : Nat → Str × List Str) (sname : Nat → Str) :
    ∃ e, setUp (env.with rx) base (styledStyles look special) lines = some e ∧ (∃ rs, AnswersE (langOf chars L) env e (allLines lines.length) rs) ∧
      ∀ rs, AnswersE (langOf chars L) env e (allLines lines.length) rs → ∃ mark head page foot,
        Coloured (env.with rx) base (styledStyles look special) lines (·.rdef) mark ∧
        Page Viewer.writeStart Viewer.writeEnd o.numbers lines.length mark 0 lines page ∧ textOf page = lines.flatten ∧
        header o (rd.map .styled) = .ok head ∧ footer o (rd.map .styled) = .ok foot ∧
        genOutput o (some name) (rd.map .styled) lines (rs.map (·.map (regOf .styled names sname))) = .ok (head ++
          (if o.copyright then [.markup (lit "Created with colorer library. Type '"), .markup name, .markup (lit "'\n\n")] else []) ++ page ++ foot) := by
  obtain ⟨e, x1, x2, x3, x4, x5, x6, x7⟩ := answers_ok hG base _ (calm_styled look special) lines false (fun h => by cases h) rx hx ht
  refine ⟨e, x1, x6, fun rs hrs => ?_⟩
  obtain ⟨y1, y2⟩ := x7 rs hrs
  have hh : ∃ head, header o (rd.map .styled) = .ok head := by
    unfold header
    rw [ho]
    split
    · exact ⟨_, rfl⟩
    · cases rd <;> exact ⟨_, rfl⟩
  have hf : ∃ foot, footer o (rd.map .styled) = .ok foot := by
    unfold footer
    rw [ho]
    split
    · exact ⟨_, rfl⟩
    · cases rd <;> exact ⟨_, rfl⟩
  obtain ⟨head, hh⟩ := hh
  obtain ⟨foot, hf⟩ := hf
  obtain ⟨mark, page, z1, z2, z3⟩ := genOutput_ok (writes_rgb o ho hl names sname) (fun a b hab _ => hab) x2 x5 y1 y2 hh hf name
  rw [x4, x3] at z1
  exact ⟨mark, head, page, foot, z1, z2, z2.text Viewer.textOf_writeStart Viewer.textOf_writeEnd, hh, hf, z3⟩

/-- **C71**, for a scheme of texts: if the page is wrapped, the style of the page must have both texts (`C71_violated_page_texts`) -/
theorem C71_marked_up_file_partial {W : World} {fuel : Nat} {protos : List Name} {as : List Act} {L : Lib} {chars : Chars} {env : Env}
    (hG : LoadedGrammar W fuel protos as L chars env) (base : Nat) (look : Nat → Option Styles.Text) (special : Nat → Bool) (lines : List Str)
    (rx : Nat → Query → Bool × Match) (hx : Engine (langOf chars L) (env.with rx)) (ht : Tame (env.with rx) base (sourceOf lines) lines.length)
    (o : Opts) (ho : o.format = .markup) (rd : Option Styles.Text) (hrd : o.wrap = true → ∀ t, rd = some t → t.startText.isSome ∧ t.endText.isSome) (name : Str)
    (names : Nat → Str × List Str) (sname : Nat → Str) :
    ∃ e, setUp (env.with rx) base (textStyles look special) lines = some e ∧ (∃ rs, AnswersE (langOf chars L) env e (allLines lines.length) rs) ∧
      ∀ rs, AnswersE (langOf chars L) env e (allLines lines.length) rs → ∃ mark head page foot,
        Coloured (env.with rx) base (textStyles look special) lines (·.rdef) mark ∧
        Page textOpen textClose o.numbers lines.length mark 0 lines page ∧ textOf page = lines.flatten ∧
        header o (rd.map .texted) = .ok head ∧ footer o (rd.map .texted) = .ok foot ∧
        genOutput o (some name) (rd.map .texted) lines (rs.map (·.map (regOf .texted names sname))) = .ok (head ++
          (if o.copyright then [.markup (lit "Created with colorer library. Type '"), .markup name, .markup (lit "'\n\n")] else []) ++ page ++ foot) := by
  obtain ⟨e, x1, x2, x3, x4, x5, x6, x7⟩ := answers_ok hG base _ (calm_text look special) lines false (fun h => by cases h) rx hx ht
  refine ⟨e, x1, x6, fun rs hrs => ?_⟩
  obtain ⟨y1, y2⟩ := x7 rs hrs
  have hh : ∃ head, header o (rd.map .texted) = .ok head := by
    unfold header
    rw [ho]
    split
    · exact ⟨_, rfl⟩
    · rename_i hw
      cases hr : rd with
      | none => exact ⟨_, rfl⟩
      | some t =>
        obtain ⟨a, _⟩ := hrd (by simpa using hw) t hr
        obtain ⟨v, hv⟩ := Option.isSome_iff_exists.1 a
        exact ⟨[.markup v], by simp [hv]⟩
  have hf : ∃ foot, footer o (rd.map .texted) = .ok foot := by
    unfold footer
    rw [ho]
    split
    · exact ⟨_, rfl⟩
    · rename_i hw
      cases hr : rd with
      | none => exact ⟨_, rfl⟩
      | some t =>
        obtain ⟨_, a⟩ := hrd (by simpa using hw) t hr
        obtain ⟨v, hv⟩ := Option.isSome_iff_exists.1 a
        exact ⟨[.markup v], by simp [hv]⟩
  obtain ⟨head, hh⟩ := hh
  obtain ⟨foot, hf⟩ := hf
  obtain ⟨mark, page, z1, z2, z3⟩ := genOutput_ok (writes_markup o ho names sname) (fun a b hab _ => hab) x2 x5 y1 y2 hh hf name
  rw [x4, x3] at z1
  exact ⟨mark, head, page, foot, z1, z2,
    z2.text (fun d => by simp [textOpen, Viewer.textOf_append, Viewer.textOf_optMarkup]) (fun d => by simp [textClose, Viewer.textOf_append, Viewer.textOf_optMarkup]),
    hh, hf, z3⟩

theorem textOf_nameOpen (n : Str × List Str) : textOf (nameOpen n) = [] := by
  have hn : ∀ (ps : List Str) (n : Str), textOf (Viewer.tokenNames n ps) = [] := by
    intro ps
    induction ps with
    | nil => intro n; rfl
    | cons p r ih => intro n; exact ih p
  unfold nameOpen
  rw [Viewer.textOf_append]
  show textOf (Viewer.tokenNames n.1 n.2) ++ [] = []
  rw [hn]; rfl

/-- **C71**, for region names (every block has a region): every character stands in a span whose class is the name of the region its column has, and those of
the region's ancestors -/
theorem C71_named_file_partial {W : World} {fuel : Nat} {protos : List Name} {as : List Act} {L : Lib} {chars : Chars} {env : Env}
    (hG : LoadedGrammar W fuel protos as L chars env) (hop : TextParser.Opaque env) (base : Nat) (special : Nat → Bool) (lines : List Str)
    (rx : Nat → Query → Bool × Match) (hx : Engine (langOf chars L) (env.with rx)) (ht : Tame (env.with rx) base (sourceOf lines) lines.length)
    (o : Opts) (ho : o.format = .tokens) (name : Str) (names : Nat → Str × List Str) (sname : Nat → Str) :
    ∃ e, setUp (env.with rx) base (noStyles special) lines = some e ∧ (∃ rs, AnswersE (langOf chars L) env e (allLines lines.length) rs) ∧
      ∀ rs, AnswersE (langOf chars L) env e (allLines lines.length) rs → ∃ mark head page foot,
        Coloured (env.with rx) base (noStyles special) lines (·.region) mark ∧
        Page (fun r => nameOpen (names r)) (fun r => nameClose (names r)) o.numbers lines.length mark 0 lines page ∧ textOf page = lines.flatten ∧
        header o none = .ok head ∧ footer o none = .ok foot ∧
        genOutput o (some name) none lines (rs.map (·.map (regOf .styled names sname))) = .ok (head ++
          (if o.copyright then [.markup (lit "Created with colorer library. Type '"), .markup name, .markup (lit "'\n\n")] else []) ++ page ++ foot) := by
  obtain ⟨e, x1, x2, x3, x4, x5, x6, x7⟩ := answers_ok hG base _ (calm_none special) lines true (fun _ => hop) rx hx ht
  refine ⟨e, x1, x6, fun rs hrs => ?_⟩
  obtain ⟨y1, y2⟩ := x7 rs hrs
  have hh : ∃ head, header o none = .ok head := by
    unfold header
    rw [ho]
    split <;> exact ⟨_, rfl⟩
  have hf : ∃ foot, footer o none = .ok foot := by
    unfold footer
    rw [ho]
    split <;> exact ⟨_, rfl⟩
  obtain ⟨head, hh⟩ := hh
  obtain ⟨foot, hf⟩ := hf
  obtain ⟨mark, page, z1, z2, z3⟩ := genOutput_ok (writes_tokens o ho Def.styled names sname) (fun a b _ hab => hab rfl) x2 x5 y1 y2 hh hf name
  rw [x4, x3] at z1
  exact ⟨mark, head, page, foot, z1, z2, z2.text (fun r => textOf_nameOpen (names r)) (fun _ => rfl), hh, hf, z3⟩

/-- C71 fails: in a wrapped page, a page style without a text before (or after) is a null pointer followed -/
theorem C71_violated_page_texts (o : Opts) (ho : o.format = .markup) (hw : o.wrap = true) (t : Styles.Text) (h : t.startText = none) (ty : Option Str)
    (lines : List Str) (regs : List (List Reg)) : genOutput o ty (some (.texted t)) lines regs = .error .null := by
  have : header o (some (.texted t)) = .error .null := by simp [header, ho, hw, h]
  unfold genOutput
  rw [this]

/-- **C71**: what a region inherits in the tool's colouring: its own colours where set, else those of what is around it; font styles add up. A region
without anything around it keeps its style. -/
theorem C71_inherited_style (look : Nat → Option Styles.Styled) (special : Nat → Bool) (r p : Styles.Styled) :
    (styledStyles look special).assignParent r none = r ∧
    ((styledStyles look special).assignParent r (some p)).foreOpt = r.foreOpt.or p.foreOpt ∧
    ((styledStyles look special).assignParent r (some p)).backOpt = r.backOpt.or p.backOpt ∧
    ((styledStyles look special).assignParent r (some p)).style = r.style ||| p.style ∧
    (styledStyles look special).mapper = some look ∧ (styledStyles look special).isSpecial = special :=
  ⟨rfl, (Styles.C16_styled_fills_only_unset r p).1, (Styles.C16_styled_fills_only_unset r p).2.1, (Styles.C16_styled_fills_only_unset r p).2.2, rfl, rfl⟩

/-- the same for schemes of texts -/
theorem C71_inherited_texts (look : Nat → Option Styles.Text) (special : Nat → Bool) (r p : Styles.Text) :
    (textStyles look special).assignParent r none = r ∧
    ((textStyles look special).assignParent r (some p)).textOpt = r.textOpt.or p.textOpt ∧
    ((textStyles look special).assignParent r (some p)).backOpt = r.backOpt.or p.backOpt ∧
    (textStyles look special).mapper = some look ∧ (textStyles look special).isSpecial = special :=
  ⟨rfl, (Styles.C42_markup_pairs_filled_when_incomplete_partial r p).1, (Styles.C42_markup_pairs_filled_when_incomplete_partial r p).2, rfl, rfl⟩

end Verif.Tool
