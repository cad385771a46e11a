import Verif.Whole.Redraw
import Verif.TextParser.Inside
/-!
# The picture of a line, coloured from scratch

`Paints` says what it is; `paint_resumed`: a parse resumed with an up-to-date cache draws it.
-/
namespace Verif.Whole
open Verif.TextParser (Ev PState Result Mode Parses Pure RangesOk Opaque fresh Lines OnLine ColOk NoPseudo EntOk Frame pseudos nest nestStep Open
  opened opens locateRoot Text CacheOk Sess)
open Verif.LineRegions (Payload LR Op Store)
open Verif.LineRegions.Spec

variable {RD : Type}

/-! ## Specification -/

/-- a drawing of the lines `[0, n)`, nothing drawn yet -/
def blank (n : Nat) : SpecSt RD := { n := n, first := 0, cur := none, stack := [], pics := fun _ => none }

/-- `p` is the picture of line `L` when the lines `[0, E)` of `text` are parsed with a new parser (grammar `env`, root scheme `base`) and the
reported regions are drawn with the styles `st`, and the parse stays within the recursion limit -/
def Paints (env : TextParser.Env) (base : Nat) (st : Styles RD) (text : Int → Option Text) (E : Int) (L : Nat) (p : Picture RD) : Prop :=
  ∃ r s, Parses (env.text text) (fresh base) 0 E .update r ∧ r.hit = false ∧ specRun st (blank E.toNat) (ops r.evs) = some s ∧ s.pics L = some p

/-! ## Proof -/

theorem Paints.det {env : TextParser.Env} {base : Nat} {st : Styles RD} {text : Int → Option Text} {E : Int} {L : Nat} {p q : Picture RD}
    (h1 : Paints env base st text E L p) (h2 : Paints env base st text E L q) : p = q := by
  obtain ⟨r, s, a1, _, a3, a4⟩ := h1
  obtain ⟨r', s', b1, _, b3, b4⟩ := h2
  have := a1.det b1
  subst this
  rw [a3] at b3
  cases b3
  rw [a4] at b4
  exact Option.some.inj b4

theorem fresh_ok (base : Nat) : (fresh base).me.Ok0 := by show (0 : Int) ≤ 0 ∧ (0 : Int) ≤ 0; omega

theorem RangesOk.text {env : TextParser.Env} (h : RangesOk env) (T : Int → Option Text) : RangesOk (env.text T) := ⟨h.rx, h.kw, h.maxBlock⟩
theorem RangesIn.text {env : TextParser.Env} (h : TextParser.RangesIn env) (T : Int → Option Text) : TextParser.RangesIn (env.text T) := ⟨h.rx, h.kw⟩
theorem Opaque.text {env : TextParser.Env} (h : Opaque env) (T : Int → Option Text) : Opaque (env.text T) := h

theorem Paints.exist {env : TextParser.Env} (hp : Pure env) (hr : RangesOk env) {base : Nat} (st : Styles RD) {text : Int → Option Text} {E : Int} {r : Result}
    (h : Parses (env.text text) (fresh base) 0 E .update r) (hh : r.hit = false) {L : Nat} (hL : (L : Int) < E) : ∃ p, Paints env base st text E L p := by
  obtain ⟨t, a1, _, _, _, a5⟩ := draw_parse st (hp.text text) (Int.le_refl 0) (by omega) h
    (TextParser.parse_cols (RangesOk.text hr text) rfl (fresh_ok base) h hh) (blank E.toNat)
  have := a5 L (by omega) (by omega) ⟨by show 0 ≤ L; omega, by show L < 0 + E.toNat; omega⟩
  obtain ⟨p, hp⟩ := Option.isSome_iff_exists.1 this
  exact ⟨p, r, t, h, hh, a1, hp⟩

/-- only the lines parsed matter -/
theorem Paints.congr {env : TextParser.Env} (hp : Pure env) {base : Nat} {st : Styles RD} {text text' : Int → Option Text} {E : Int} (hE : 0 < E)
    (ht : ∀ l, l < E → text' l = text l) {L : Nat} {p : Picture RD} (h : Paints env base st text E L p) : Paints env base st text' E L p := by
  obtain ⟨r, s, a1, a2, a3, a4⟩ := h
  obtain ⟨r', b1, b2, b3⟩ := TextParser.fresh_evs hp (p0 := fresh base) (p1 := fresh base) rfl rfl rfl hE ht a1 a2
  exact ⟨r', s, b1, b2, by rw [b3]; exact a3, a4⟩

theorem op_line {e : Ev} {l : Int} {o : Op} (h : e.line? = some l) (ho : op e = some o) : o.line = some l.toNat := by
  cases e <;> simp only [TextParser.Ev.line?, Option.some.injEq, reduceCtorEq] at h <;> subst h <;>
    simp only [op, Option.some.injEq] at ho <;> subst ho <;> rfl

/-- calls about other lines leave the picture alone -/
theorem run_other (env : Styles RD) {L : Nat} (es : List Ev) (h : ∀ e ∈ es, ∃ l, e.line? = some l ∧ l.toNat ≠ L) : ∀ {s t : SpecSt RD},
    specRun env s (ops es) = some t → t.pics L = s.pics L := by
  induction es with
  | nil => intro s t ht; simp only [ops, List.filterMap_nil, specRun, Option.some.injEq] at ht; subst ht; rfl
  | cons e es ih =>
    intro s t ht
    rw [ops_cons, specRun_append, Option.bind_eq_some_iff] at ht
    obtain ⟨u, a, b⟩ := ht
    rw [ih (fun e he => h e (List.mem_cons_of_mem _ he)) b]
    obtain ⟨l, h1, h2⟩ := h e (by simp)
    cases ho : op e with
    | none => simp only [ops, List.filterMap_cons, ho, List.filterMap_nil, specRun, Option.some.injEq] at a; subst a; rfl
    | some o =>
      simp only [ops, List.filterMap_cons, ho, List.filterMap_nil, specRun, Option.bind_eq_some_iff, Option.some.injEq] at a
      obtain ⟨v, a, rfl⟩ := a
      exact LineRegions.C03_picture_changes_only_by_own_events env s v o l.toNat L (op_line h1 ho) (Ne.symm h2) a

/-- lines below do not matter -/
theorem Paints.shorter {env : TextParser.Env} (hp : Pure env) (hr : RangesOk env) {base : Nat} {st : Styles RD} {text : Int → Option Text} {E F : Int} (g : Bool)
    {L : Nat} (hLF : (L : Int) < F) (hFE : F ≤ E) (hmax : F ≤ 0x7FFFFFF) {p : Picture RD} (h : Paints env base st text E L p) :
    ∃ q, Paints env base st text F L q ∧ obs g q = obs g p := by
  by_cases hlt : F = E
  · subst hlt; exact ⟨p, h, rfl⟩
  obtain ⟨r, s, a1, a2, a3, a4⟩ := h
  obtain ⟨fs, c, rF, eF, rest, b1, b2, _, _, b5, b6, b7, b8, _, _, _, b12, _⟩ :=
    TextParser.split_core (hp.text text) (p0 := fresh base) rfl (F := F) (by omega) (by omega) hmax a1 a2
  obtain ⟨q, hq⟩ := Paints.exist hp hr st b1 b2 hLF
  refine ⟨q, hq, ?_⟩
  obtain ⟨rF', t, c1, _, c3, c4⟩ := hq
  have := c1.det b1
  subst this
  rw [b5, run_start] at c3
  rw [b7, run_start, ops_append, specRun_append, Option.bind_eq_some_iff] at a3
  obtain ⟨u, d1, d2⟩ := a3
  have hn : Near g L { (blank F.toNat : SpecSt RD) with cur := none, stack := [⟨none, none, st.background⟩] }
      { (blank E.toNat : SpecSt RD) with cur := none, stack := [⟨none, none, st.background⟩] } :=
    ⟨rfl, rfl, rfl, ⟨Nat.zero_le _, by show L < 0 + F.toNat; omega⟩, ⟨Nat.zero_le _, by show L < 0 + E.toNat; omega⟩⟩
  have hn := (near_run st (ops eF) (ops_events _) hn c3 d1).pic
  have ho := run_other st (L := L) (.clear F :: rest) (by
    intro e he
    rcases List.mem_cons.1 he with rfl | he
    · exact ⟨F, rfl, by omega⟩
    · obtain ⟨l, l1, l2⟩ := b12 e he
      exact ⟨l, l1, by omega⟩) d2
  rw [← ho, c4, a4] at hn
  simpa using hn

/-- a parse resumed with an up-to-date cache reports legal calls; they draw the lines parsed, and each looks as if coloured from scratch -/
theorem paint_resumed {env : TextParser.Env} (hp : Pure env) (hr : RangesOk env) {base : Nat} (st : Styles RD) (hc : Calm st) (g : Bool)
    (hg : g = true → Opaque env) {s : Sess} (hs : CacheOk env base s) {F E : Int} (hF : 0 ≤ F) (hgood : F ≤ s.good) (hFE : F < E) {r0 : Result}
    (h0 : Parses (env.text s.text) (fresh base) 0 E .update r0) (hh : r0.hit = false) (mode : Mode) (hm : mode ≠ .off) :
    ∃ r, Parses (env.text s.text) s.p F (E - F) mode r ∧ r.hit = false ∧ r.ret = E - 1 ∧ (mode = .update → r.after.cache = r0.after.cache) ∧
      (∀ e ∈ r.evs, ∀ l, e.line? = some l → F ≤ l ∧ l < E) ∧ (TextParser.RangesIn env → ∀ e ∈ r.evs, TextParser.ColIn (env.text s.text) e) ∧
      ∀ sp : SpecSt RD, ∃ t, specRun st sp (ops r.evs) = some t ∧ t.first = sp.first ∧ t.n = sp.n ∧
        (∀ M : Nat, ¬ (F ≤ M ∧ (M : Int) < E) → t.pics M = sp.pics M) ∧
        ∀ M : Nat, F ≤ M → (M : Int) < E → inWin sp.first sp.n M → ∃ p q, t.pics M = some p ∧ Paints env base st s.text E M q ∧ obs g p = obs g q := by
  obtain ⟨i1, i2, i3, i4⟩ := hs
  obtain ⟨rF', x1, x2, x3⟩ := i4 F hF hgood
  obtain ⟨fs, c, rF, eF, rest, b1, b2, b3, b4, b5, b6, b7, b8, b9, b10, b11, b12, b13⟩ :=
    TextParser.split_core (hp.text s.text) (p0 := fresh base) rfl hF hFE (by omega) h0 hh
  have := x1.det b1
  subst this
  obtain ⟨r, sch, c1, c2, c3, c4, c5, c6⟩ := b13 s.p mode hm i1 (x3.trans b3)
  have hcols := TextParser.parse_cols (RangesOk.text hr s.text) rfl (fresh_ok base) h0 hh
  have hcr : ∀ e ∈ r.evs, ColOk e := by
    intro e he
    rw [c4] at he
    simp only [List.cons_append, List.mem_cons, List.mem_append, List.not_mem_nil, or_false] at he
    rcases he with rfl | rfl | (he | he) | rfl
    · trivial
    · trivial
    · unfold pseudos at he
      simp only [List.mem_map] at he
      obtain ⟨f, _, rfl⟩ := he
      trivial
    · exact hcols e (by rw [b7]; simp [he])
    · trivial
  refine ⟨r, c1, c2, c3, c6, ?_, ?_, ?_⟩
  · obtain ⟨_, evs, a1, a2⟩ := TextParser.parse_lines (hp.text s.text) hF (by omega) c1
    intro e he l hl
    rw [a1] at he
    rcases List.mem_cons.1 he with rfl | he
    · simp [TextParser.Ev.line?] at hl
    · rcases List.mem_append.1 he with he | he
      · obtain ⟨l', x1, x2, x3⟩ := a2.mem e he
        rw [hl, Option.some.injEq] at x1
        omega
      · simp only [List.mem_singleton] at he
        subst he
        simp [TextParser.Ev.line?] at hl
  · intro hi e he
    rw [c4] at he
    simp only [List.cons_append, List.mem_cons, List.mem_append, List.not_mem_nil, or_false] at he
    rcases he with rfl | rfl | (he | he) | rfl
    · trivial
    · trivial
    · unfold pseudos at he
      simp only [List.mem_map] at he
      obtain ⟨f, _, rfl⟩ := he
      trivial
    · exact TextParser.parse_inside (RangesOk.text hr s.text) (RangesIn.text hi s.text) (fresh_ok base) h0 hh e (by rw [b7]; simp [he])
    · trivial
  intro sp
  obtain ⟨t, d1, d2, d3, d4, d5⟩ := draw_parse st (hp.text s.text) hF (by omega) c1 hcr sp
  refine ⟨t, d1, d2, d3, fun M hM => d4 M (by omega), ?_⟩
  intro M h1 h2 hw
  obtain ⟨p, hpM⟩ := Option.isSome_iff_exists.1 (d5 M h1 (by omega) hw)
  obtain ⟨q, hq⟩ := Paints.exist hp hr st h0 hh h2
  refine ⟨p, q, hpM, hq, ?_⟩
  obtain ⟨r0', s1, e1, _, e3, e4⟩ := hq
  have := e1.det h0
  subst this
  have hopq : g = true → ∀ f ∈ fs, f.info.block.region.isSome = true := by
    intro h f hf
    have h1 := TextParser.parse_opaque (Q := fun r => r.isSome = true) (Opaque.text (hg h) s.text) (p := fresh base) rfl b1
    have := TextParser.nest_open (Q := fun r => r.isSome = true) (es := eF) (fun e he => h1 e (by rw [b5]; simp [he])) b9 b11 (by intro o ho; simp at ho) (f.info.block.region, some f.info.scheme) (by
      unfold opened
      exact List.mem_map.2 ⟨f, hf, rfl⟩)
    exact this
  rw [b7] at e3
  rw [c4] at d1
  have := draw_events st hc g hF hFE b6 c5 (fun e he => hcols e (by rw [b7]; simp [he])) b11 hopq e3 d1 M h1 h2
    ⟨Nat.zero_le _, by show M < 0 + E.toNat; omega⟩ hw
  rw [e4, hpM] at this
  simpa using this.symm

end Verif.Whole
