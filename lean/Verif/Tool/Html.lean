import Verif.Tool.Props
import Verif.Encodings.Props
/-!
# C73, C74: reading the written file back
-/
namespace Verif.Tool
open Verif.Strings (Str)
open Verif.Viewer (Out lit textOf)

/-! ## Specification -/

/-- states of a reader of HTML: in the text, in a tag, `k` characters of an entity to be skipped -/
inductive Rd where
  | text | tag | skip (k : Nat)

/-- The text of HTML: tags are left out, `&amp;` and `&lt;` stand for `&` and `<`. -/
def readHtml : Rd → Str → Str
  | _, [] => []
  | .text, c :: r =>
    if c = 60 then readHtml .tag r
    else if c = 38 ∧ r.take 4 = lit "amp;" then 38 :: readHtml (.skip 4) r
    else if c = 38 ∧ r.take 3 = lit "lt;" then 60 :: readHtml (.skip 3) r
    else c :: readHtml .text r
  | .tag, c :: r => if c = 62 then readHtml .text r else readHtml .tag r
  | .skip 0, c :: r => c :: readHtml .text r
  | .skip 1, _ :: r => readHtml .text r
  | .skip (k + 2), _ :: r => readHtml (.skip (k + 1)) r

/-- the text of a page: every line after its number (if wanted) and followed by a line feed -/
def plainPage (numbers : Bool) (lncount : Nat) : Nat → List Str → Str
  | _, [] => []
  | i, line :: lines => (if numbers then numberText lncount i else []) ++ line ++ [10] ++ plainPage numbers lncount (i + 1) lines

/-! ## Proof -/

/-- the reader passes over this piece of markup -/
def Neutral (s : Str) : Prop := ∀ r, readHtml .text (s ++ r) = readHtml .text r

/-- the reader takes this piece as it is -/
def Literal (s : Str) : Prop := ∀ r, readHtml .text (s ++ r) = s ++ readHtml .text r

theorem read_plain (c : Nat) (h1 : c ≠ 60) (h2 : c ≠ 38) (r : Str) : readHtml .text (c :: r) = c :: readHtml .text r := by
  rw [readHtml, if_neg h1, if_neg (fun h => h2 h.1), if_neg (fun h => h2 h.1)]

theorem literal_of (s : Str) (h : ∀ c ∈ s, c ≠ 60 ∧ c ≠ 38) : Literal s := by
  intro r
  induction s with
  | nil => rfl
  | cons c s ih =>
    rw [List.cons_append, read_plain c (h c (by simp)).1 (h c (by simp)).2, ih (fun x hx => h x (by simp [hx]))]
    rfl

theorem read_tag (s : Str) (h : ∀ c ∈ s, c ≠ 62) (r : Str) : readHtml .tag (s ++ 62 :: r) = readHtml .text r := by
  induction s with
  | nil => rw [List.nil_append, readHtml, if_pos rfl]
  | cons c s ih => rw [List.cons_append, readHtml, if_neg (h c (by simp)), ih (fun x hx => h x (by simp [hx]))]

/-- a tag -/
theorem neutral_tag (s : Str) (h : ∀ c ∈ s, c ≠ 62) : Neutral (60 :: s ++ [62]) := by
  intro r
  rw [List.append_assoc, List.cons_append, readHtml, if_pos rfl]
  exact read_tag s h r

theorem neutral_nil : Neutral [] := fun _ => rfl

theorem Neutral.append {a b : Str} (ha : Neutral a) (hb : Neutral b) : Neutral (a ++ b) := by
  intro r
  rw [List.append_assoc, ha, hb]

theorem read_escaped (c : Nat) (r : Str) : readHtml .text (escapeChar c ++ r) = c :: readHtml .text r := by
  unfold escapeChar
  split
  · rename_i h; subst h
    show readHtml .text (38 :: 97 :: 109 :: 112 :: 59 :: r) = _
    rw [readHtml, if_neg (by decide), if_pos ⟨rfl, rfl⟩]
    simp only [readHtml]
  · split
    · rename_i h; subst h
      show readHtml .text (38 :: 108 :: 116 :: 59 :: r) = _
      rw [readHtml, if_neg (by decide), if_neg (by intro h; have := h.2; simp [lit] at this), if_pos ⟨rfl, rfl⟩]
      simp only [readHtml]
    · rename_i h1 h2
      exact read_plain c h2 h1 r

theorem emitAll_append (o : Opts) (a b : List Out) : emitAll o (a ++ b) = emitAll o a ++ emitAll o b := List.flatMap_append

theorem read_chars (o : Opts) (ho : o.escape = true) (run : Str) (r : Str) :
    readHtml .text (emitAll o (run.map Out.ch) ++ r) = run ++ readHtml .text r := by
  induction run with
  | nil => rfl
  | cons c run ih =>
    have : emitAll o ((c :: run).map Out.ch) = escapeChar c ++ emitAll o (run.map Out.ch) := by
      simp [emitAll, emit, ho]
    rw [this, List.append_assoc, read_escaped, ih]
    rfl

theorem Wraps.reads {D : Type} {op cl : D → List Out} {o : Opts} (ho : o.escape = true) (h1 : ∀ d, Neutral (emitAll o (op d)))
    (h2 : ∀ d, Neutral (emitAll o (cl d))) {cs : List (Nat × Option D)} {out : List Out} (h : Wraps op cl cs out) (r : Str) :
    readHtml .text (emitAll o out ++ r) = cs.map (·.1) ++ readHtml .text r := by
  induction h with
  | nil => rfl
  | plain _ ih =>
    rename_i c _ out _
    have : emitAll o (.ch c :: out) = escapeChar c ++ emitAll o out := by simp [emitAll, emit, ho]
    rw [this, List.append_assoc, read_escaped, ih]
    rfl
  | span _ ih =>
    rename_i d run cs out _
    rw [emitAll_append, emitAll_append, emitAll_append, List.append_assoc, List.append_assoc, List.append_assoc, h1, read_chars o ho, h2, ih]
    simp [Function.comp_def]

theorem emit_markup (o : Opts) (out : List Out) (h : textOf out = []) :
    emitAll o out = Viewer.markupOf out := by
  induction out with
  | nil => rfl
  | cons x r ih =>
    cases x with
    | ch c => simp [textOf] at h
    | markup s =>
      have : textOf r = [] := h
      show s ++ emitAll o r = s ++ Viewer.markupOf r
      rw [ih this]

theorem numberText_chars (n i : Nat) : ∀ c ∈ numberText n i, c ≠ 60 ∧ c ≠ 38 := by
  intro c hc
  unfold numberText at hc
  rcases List.mem_append.1 hc with hc | hc
  · rcases List.mem_append.1 hc with hc | hc
    · have := (List.mem_replicate.1 hc).2; omega
    · have := (numVal_decimal i).2 c hc; omega
  · have : c = 58 ∨ c = 32 := by simpa [lit] using hc
    omega

theorem Page.reads {D : Type} {op cl : D → List Out} {o : Opts} (ho : o.escape = true) (h1 : ∀ d, Neutral (emitAll o (op d)))
    (h2 : ∀ d, Neutral (emitAll o (cl d))) {n : Nat} {mark : Nat → Nat → Option D} {i : Nat} {lines : List Str} {out : List Out}
    (h : Page op cl o.numbers n mark i lines out) (r : Str) :
    readHtml .text (emitAll o out ++ r) = plainPage o.numbers n i lines ++ readHtml .text r := by
  induction h with
  | nil => rfl
  | cons a b c _ ih =>
    rename_i j line lines num body rest _
    have e1 : emitAll o (.markup (lit "\n") :: rest) = [10] ++ emitAll o rest := rfl
    have hl : Literal (if o.numbers = true then numberText n j else []) := literal_of _ (by
      split
      · exact numberText_chars n j
      · simp)
    rw [emitAll_append, emitAll_append, emit_markup o num a, b, e1, List.append_assoc, List.append_assoc, List.append_assoc, hl, c.reads ho h1 h2,
      literal_of [10] (by simp), ih, plainPage]
    simp [columns, Function.comp_def]

/-! ### The openings and closings -/

theorem hexDigits_chars (k n : Nat) : ∀ c ∈ Viewer.hexDigits k n, c ≠ 62 := by
  induction k generalizing n with
  | zero => simp [Viewer.hexDigits]
  | succ k ih =>
    intro c hc
    rw [Viewer.hexDigits] at hc
    rcases List.mem_append.1 hc with hc | hc
    · exact ih _ c hc
    · simp at hc
      split at hc <;> omega

theorem cond_chars (b : Bool) (size : Nat) (s : Str) (p : Str × Nat) (hs : ∀ c ∈ s, c ≠ 62) (hp : ∀ c ∈ p.1, c ≠ 62) :
    ∀ c ∈ (Viewer.cond b size s p).1, c ≠ 62 := by
  unfold Viewer.cond
  split
  · intro c hc
    simp only [Viewer.snprintf] at hc
    rcases List.mem_append.1 hc with hc | hc
    · exact hp c hc
    · exact hs c (List.mem_of_mem_take hc)
  · exact hp

theorem hex6_chars (n : BitVec 32) : ∀ c ∈ Viewer.hex6 n, c ≠ 62 := by
  unfold Viewer.hex6
  split
  · exact hexDigits_chars _ _
  · split <;> exact hexDigits_chars _ _

theorem styleText_chars (s : Styles.Styled) : ∀ c ∈ (Viewer.styleText s).1, c ≠ 62 := by
  have hlit : ∀ (a b : Str) (n : BitVec 32), (∀ c ∈ a, c ≠ 62) → (∀ c ∈ b, c ≠ 62) → ∀ c ∈ a ++ Viewer.hex6 n ++ b, c ≠ 62 := by
    intro a b n ha hb c hc
    rcases List.mem_append.1 hc with hc | hc
    · rcases List.mem_append.1 hc with hc | hc
      · exact ha c hc
      · exact hex6_chars n c hc
    · exact hb c hc
  unfold Viewer.styleText
  refine cond_chars _ _ _ _ (by decide +kernel) (cond_chars _ _ _ _ (by decide +kernel) (cond_chars _ _ _ _ (by decide +kernel)
    (cond_chars _ _ _ _ (by decide +kernel) (cond_chars _ _ _ _ (hlit _ _ _ (by decide +kernel) (by decide +kernel))
    (cond_chars _ _ _ _ (hlit _ _ _ (by decide +kernel) (by decide +kernel)) (by simp))))))

theorem neutral_writeStart (o : Opts) (s : Styles.Styled) : Neutral (emitAll o (Viewer.writeStart s)) := by
  unfold Viewer.writeStart
  split
  · exact neutral_nil
  · have : ∀ (m : List Out) (t : Str), (∀ c ∈ t, c ≠ 62) → emitAll o m = t → Neutral (emitAll o (.markup (lit "<span style='") :: m ++ [.markup (lit "'>")])) := by
      intro m t ht hm
      have e : emitAll o (.markup (lit "<span style='") :: m ++ [.markup (lit "'>")]) = 60 :: (lit "span style='" ++ t ++ lit "'") ++ [62] := by
        rw [emitAll_append]
        show (lit "<span style='" ++ emitAll o m) ++ (lit "'>" ++ []) = _
        rw [hm]
        simp [lit]
      rw [e]
      refine neutral_tag _ ?_
      intro c hc
      rcases List.mem_append.1 hc with hc | hc
      · rcases List.mem_append.1 hc with hc | hc
        · exact (by decide +kernel : ∀ c ∈ lit "span style='", c ≠ 62) c hc
        · exact ht c hc
      · exact (by decide +kernel : ∀ c ∈ lit "'", c ≠ 62) c hc
    split
    · exact this _ _ (styleText_chars s) (by simp [emitAll, emit])
    · exact this [] [] (by simp) rfl

theorem neutral_writeEnd (o : Opts) (s : Styles.Styled) : Neutral (emitAll o (Viewer.writeEnd s)) := by
  unfold Viewer.writeEnd
  split
  · exact neutral_nil
  · exact neutral_tag (lit "/span") (by decide +kernel)

theorem tokenName_chars (n : Str) (h : ∀ c ∈ n, c ≠ 62) : ∀ c ∈ Viewer.tokenName n, c ≠ 62 := by
  rw [Viewer.tokenName_eq]
  intro c hc
  obtain ⟨d, hd, rfl⟩ := List.mem_map.1 hc
  have := h d hd
  split <;> omega

theorem tokenNames_chars (o : Opts) (ps : List Str) : ∀ n : Str, (∀ c ∈ n, c ≠ 62) → (∀ p ∈ ps, ∀ c ∈ p, c ≠ 62) →
    ∀ c ∈ emitAll o (Viewer.tokenNames n ps), c ≠ 62 := by
  induction ps with
  | nil =>
    intro n hn _ c hc
    have : emitAll o (Viewer.tokenNames n []) = Viewer.tokenName n := by simp [Viewer.tokenNames, emitAll, emit]
    rw [this] at hc
    exact tokenName_chars n hn c hc
  | cons p ps ih =>
    intro n hn hps c hc
    have : emitAll o (Viewer.tokenNames n (p :: ps)) = Viewer.tokenName n ++ ([32] ++ emitAll o (Viewer.tokenNames p ps)) := by
      simp [Viewer.tokenNames, emitAll, emit]
    rw [this] at hc
    rcases List.mem_append.1 hc with hc | hc
    · exact tokenName_chars n hn c hc
    · rcases List.mem_append.1 hc with hc | hc
      · simp at hc; omega
      · exact ih p (hps p (by simp)) (fun q hq => hps q (by simp [hq])) c hc

/-- no name contains `>` -/
def CleanNames (n : Str × List Str) : Prop := ∀ p ∈ n.1 :: n.2, ∀ c ∈ p, c ≠ 62

theorem neutral_nameOpen (o : Opts) (n : Str × List Str) (h : CleanNames n) : Neutral (emitAll o (nameOpen n)) := by
  have e : emitAll o (nameOpen n) = 60 :: (lit "span class='" ++ emitAll o (Viewer.tokenNames n.1 n.2) ++ lit "'") ++ [62] := by
    unfold nameOpen
    rw [emitAll_append]
    show (lit "<span class='" ++ emitAll o (Viewer.tokenNames n.1 n.2)) ++ (lit "'>" ++ []) = _
    simp [lit]
  rw [e]
  refine neutral_tag _ ?_
  intro c hc
  rcases List.mem_append.1 hc with hc | hc
  · rcases List.mem_append.1 hc with hc | hc
    · exact (by decide +kernel : ∀ c ∈ lit "span class='", c ≠ 62) c hc
    · exact tokenNames_chars o n.2 n.1 (h n.1 (by simp)) (fun p hp => h p (by simp [hp])) c hc
  · exact (by decide +kernel : ∀ c ∈ lit "'", c ≠ 62) c hc

theorem neutral_nameClose (o : Opts) (n : Str × List Str) : Neutral (emitAll o (nameClose n)) := neutral_tag (lit "/span") (by decide +kernel)

/-! ## C73 -/

/-- **C73**: with escaping, a page of coloured lines reads back as the lines (with their numbers), whatever characters the text contains -/
theorem C73_coloured_page_reads_back (o : Opts) (ho : o.escape = true) (n : Nat) (mark : Nat → Nat → Option Styles.Styled) (lines : List Str)
    (page : List Out) (h : Page Viewer.writeStart Viewer.writeEnd o.numbers n mark 0 lines page) :
    readHtml .text (emitAll o page) = plainPage o.numbers n 0 lines := by
  have := h.reads ho (neutral_writeStart o) (neutral_writeEnd o) []
  simpa [readHtml] using this

/-- **C73**, for region names (no region name contains `>`) -/
theorem C73_named_page_reads_back (o : Opts) (ho : o.escape = true) (n : Nat) (mark : Nat → Nat → Option Nat) (names : Nat → Str × List Str)
    (hn : ∀ r, CleanNames (names r)) (lines : List Str) (page : List Out)
    (h : Page (fun r => nameOpen (names r)) (fun r => nameClose (names r)) o.numbers n mark 0 lines page) :
    readHtml .text (emitAll o page) = plainPage o.numbers n 0 lines := by
  have := h.reads ho (fun r => neutral_nameOpen o _ (hn r)) (fun r => neutral_nameClose o _) []
  simpa [readHtml] using this

/-- nothing is lost: two texts with the same page are the same (the lines have no line feeds, as those of a loaded file) -/
theorem plainPage_inj (n i : Nat) (a b : List Str) (ha : ∀ l ∈ a, 10 ∉ l) (hb : ∀ l ∈ b, 10 ∉ l) (h : plainPage false n i a = plainPage false n i b) : a = b := by
  have key : ∀ (x y r s : Str), 10 ∉ x → 10 ∉ y → x ++ 10 :: r = y ++ 10 :: s → x = y ∧ r = s := by
    intro x
    induction x with
    | nil =>
      intro y r s _ hy h
      cases y with
      | nil => simpa using h
      | cons c y => simp at h hy; omega
    | cons c x ih =>
      intro y r s hx hy h
      cases y with
      | nil => simp at h hx; omega
      | cons d y =>
        simp only [List.cons_append, List.cons.injEq] at h
        simp at hx hy
        obtain ⟨e1, e2⟩ := ih y r s hx.2 hy.2 h.2
        exact ⟨by rw [h.1, e1], e2⟩
  induction a generalizing b i with
  | nil =>
    cases b with
    | nil => rfl
    | cons l b => simp [plainPage] at h
  | cons x a ih =>
    cases b with
    | nil => simp [plainPage] at h
    | cons y b =>
      simp only [plainPage, Bool.false_eq_true, if_false, List.nil_append, List.append_assoc, List.cons_append] at h
      obtain ⟨e1, e2⟩ := key x y _ _ (ha x (by simp)) (hb y (by simp)) h
      rw [e1, ih (i + 1) b (fun l hl => ha l (by simp [hl])) (fun l hl => hb l (by simp [hl])) e2]

/-- escaping is needed: without it the text `<b>` is written as it is and is read as a tag -/
theorem C73_escaping_is_needed : ∃ o : Opts, o.escape = false ∧ readHtml .text (emitAll o ((lit "<b>").map Out.ch)) = [] :=
  ⟨⟨.rgb, false, false, false, false, none⟩, rfl, by decide +kernel⟩

/-- **C73** with C71 (partial as C71; no head and foot, no credits): the whole way from the grammar's sources and the text to the file: with escaping, the file
written for a text reads back as the text -/
theorem C73_file_keeps_the_text_partial {W : Hrc.World} {fuel : Nat} {protos : List Hrc.Name} {as : List Hrc.Act} {L : Hrc.Lib} {chars : RegExp.Chars}
    {env : TextParser.Env} (hG : LoadedGrammar W fuel protos as L chars env) (base : Nat) (look : Nat → Option Styles.Styled) (special : Nat → Bool)
    (lines : List Str) (rx : Nat → TextParser.Query → Bool × TextParser.Match) (hx : Engine.Engine (Engine.langOf chars L) (env.with rx))
    (ht : Whole.Tame (env.with rx) base (sourceOf lines) lines.length) (o : Opts) (ho : o.format = .rgb) (hl : o.links = none) (he : o.escape = true)
    (hw : o.wrap = false) (hc : o.copyright = false) (rd : Option Styles.Styled) (name : Str) (names : Nat → Str × List Str) (sname : Nat → Str) :
    ∃ e, setUp (env.with rx) base (styledStyles look special) lines = some e ∧
      (∃ rs, Engine.AnswersE (Engine.langOf chars L) env e (Whole.allLines lines.length) rs) ∧
      ∀ rs, Engine.AnswersE (Engine.langOf chars L) env e (Whole.allLines lines.length) rs → ∃ out,
        genOutput o (some name) (rd.map .styled) lines (rs.map (·.map (regOf .styled names sname))) = .ok out ∧
        readHtml .text (emitAll o out) = plainPage o.numbers lines.length 0 lines := by
  obtain ⟨e, h1, h2, h3⟩ := C71_coloured_file_partial hG base look special lines rx hx ht o ho hl rd name names sname
  refine ⟨e, h1, h2, fun rs hrs => ?_⟩
  obtain ⟨mark, head, page, foot, _, hp, _, hh, hf, hg⟩ := h3 rs hrs
  have e1 : head = [] := by
    simp [header, hw] at hh; exact hh
  have e2 : foot = [] := by
    simp [footer, hw] at hf; exact hf
  subst e1 e2
  simp only [hc, Bool.false_eq_true, if_false, List.append_nil, List.nil_append] at hg
  exact ⟨page, hg, C73_coloured_page_reads_back o he _ mark lines page hp⟩

end Verif.Tool
