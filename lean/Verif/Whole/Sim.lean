import Verif.Whole.Model
import Verif.Editor.Props
import Verif.Viewer.Compose
/-!
# The whole editor behaves like the abstract one

Verif.Editor proves freshness for an editor whose collaborators meet some assumptions. Here the real collaborators are shown to meet them: the
whole editor is simulated by the abstract one, whose "regions of a line" are what is seen of the line when coloured from scratch.
-/
namespace Verif.Whole
open Verif.TextParser (PState Result Parses Text fresh Pure RangesOk Opaque Reach Step Sess)
open Verif.LineRegions (LR Store LineOk Rel Payload)
open Verif.LineRegions.Spec
open Verif.Editor (target idleAhead Plan)

variable {RD : Type}

/-- what is seen of a line, and the line's length -/
abbrev Obs (RD : Type) := ((Nat → Option (Option RD × Option Nat)) × List (Int × Int × (Option RD × Option Nat))) × Nat

/-- the length of line `L` -/
def width (text : Int → Option Text) (L : Int) : Nat := ((text L).getD []).length

/-- if expressions and keyword lists report what lies in the text they search: the regions in `l` lie in the columns `[0, N]` -/
def Fits (env : TextParser.Env) (N : Nat) (l : List (LR RD)) : Prop := TextParser.RangesIn env → ∀ t ∈ l, Viewer.ColLe N t

/-- a line of the abstract editor: root scheme and styles in force, and the text -/
abbrev Tagged (RD : Type) := (Nat × Styles RD) × Option Text

/-- what line `L` looks like, coloured from scratch -/
def Looks (env : TextParser.Env) (g : Bool) (base : Nat) (st : Styles RD) (text : Int → Option Text) (L : Int) (o : Obs RD) : Prop :=
  ∃ p, Paints env base st text (L + 1) L.toNat p ∧ (obs g p, width text L) = o

open Classical in
noncomputable def lookOf (env : TextParser.Env) (g : Bool) (t : Int → Tagged RD) (L : Int) : Option (Obs RD) :=
  if h : ∃ o, Looks env g (t L).1.1 (t L).1.2 (fun i => (t i).2) L o then some h.choose else none

theorem Looks.det {env : TextParser.Env} {g : Bool} {base : Nat} {st : Styles RD} {text : Int → Option Text} {L : Int} {o o' : Obs RD}
    (h : Looks env g base st text L o) (h' : Looks env g base st text L o') : o = o' := by
  obtain ⟨p, a, rfl⟩ := h
  obtain ⟨q, b, rfl⟩ := h'
  rw [a.det b]

theorem lookOf_some {env : TextParser.Env} {g : Bool} {t : Int → Tagged RD} {L : Int} {o : Obs RD}
    (h : Looks env g (t L).1.1 (t L).1.2 (fun i => (t i).2) L o) : lookOf env g t L = some o := by
  unfold lookOf
  have he : ∃ o, Looks env g (t L).1.1 (t L).1.2 (fun i => (t i).2) L o := ⟨o, h⟩
  rw [dif_pos he]
  exact congrArg some (he.choose_spec.det h)

/-- the abstract editor's collaborators -/
noncomputable def aenv (env : TextParser.Env) (g : Bool) : Editor.Env (Tagged RD) (Option (Obs RD)) where
  F t L := if 0 ≤ L then lookOf env g t L else none
  junk _ _ := none
  stop _ b := b - 1

theorem aenv_sane {env : TextParser.Env} (hp : Pure env) (g : Bool) : Editor.Sane (aenv (RD := RD) env g) := by
  refine ⟨?_, fun a b h => by show a ≤ b - 1 ∧ b - 1 < b; omega⟩
  intro t t' L h
  show (if 0 ≤ L then lookOf env g t L else none) = if 0 ≤ L then lookOf env g t' L else none
  split
  · rename_i hL
    have hiff : (fun o => Looks env g (t L).1.1 (t L).1.2 (fun i => (t i).2) L o) = fun o => Looks env g (t' L).1.1 (t' L).1.2 (fun i => (t' i).2) L o := by
      funext o
      have hw : width (fun i => (t i).2) L = width (fun i => (t' i).2) L := by
        unfold width
        dsimp only
        rw [h L (Int.le_refl L)]
      unfold Looks
      rw [h L (Int.le_refl L), hw]
      apply propext
      constructor
      · rintro ⟨p, a, b⟩
        exact ⟨p, Paints.congr hp (by omega) (fun l hl => by rw [h l (by omega)]) a, b⟩
      · rintro ⟨p, a, b⟩
        exact ⟨p, Paints.congr hp (by omega) (fun l hl => by rw [h l (by omega)]) a, b⟩
    unfold lookOf
    by_cases he : ∃ o, Looks env g (t L).1.1 (t L).1.2 (fun i => (t i).2) L o
    · have he' : ∃ o, Looks env g (t' L).1.1 (t' L).1.2 (fun i => (t' i).2) L o := by
        obtain ⟨o, ho⟩ := he
        exact ⟨o, by have := congrFun hiff o; rw [← this]; exact ho⟩
      rw [dif_pos he, dif_pos he']
      have := he.choose_spec
      rw [show Looks env g (t L).1.1 (t L).1.2 (fun i => (t i).2) L he.choose = Looks env g (t' L).1.1 (t' L).1.2 (fun i => (t' i).2) L he.choose from
        congrFun hiff _] at this
      exact congrArg some (this.det he'.choose_spec)
    · have he' : ¬ ∃ o, Looks env g (t' L).1.1 (t' L).1.2 (fun i => (t' i).2) L o := by
        rintro ⟨o, ho⟩
        exact he ⟨o, by have := congrFun hiff o; rw [this]; exact ho⟩
      rw [dif_neg he, dif_neg he']
  · rfl

theorem aenv_unbroken (env : TextParser.Env) (g : Bool) : Editor.Unbroken (aenv (RD := RD) env g) := fun _ _ => rfl

/-- the text can be parsed: a full parse ends, and within the recursion limit -/
structure Tame (env : TextParser.Env) (base : Nat) (text : Int → Option Text) (count : Int) : Prop where
  pos : 0 ≤ count
  max : count ≤ 0x7FFFFFF
  ok  : ∃ r, Parses (env.text text) (fresh base) 0 count .update r ∧ r.hit = false

theorem Tame.shorter {env : TextParser.Env} (hp : Pure env) {base : Nat} {text : Int → Option Text} {count : Int} (h : Tame env base text count) {E : Int}
    (h0 : 0 ≤ E) (hE : E ≤ count) : ∃ r, Parses (env.text text) (fresh base) 0 E .update r ∧ r.hit = false := by
  obtain ⟨r, a, b⟩ := h.ok
  have := h.max
  obtain ⟨rF, c, d, _⟩ := TextParser.C34_shorter_parse_is_prefix _ (hp.text text) (fresh base) rfl count E h0 hE (by omega) r a b
  exact ⟨rF, c, d⟩

theorem Tame.looks {env : TextParser.Env} (hp : Pure env) (hr : RangesOk env) (g : Bool) {base : Nat} (st : Styles RD) {text : Int → Option Text} {count : Int}
    (h : Tame env base text count) {L : Int} (h0 : 0 ≤ L) (hL : L < count) :
    ∃ p, Paints env base st text count L.toNat p ∧ Looks env g base st text L (obs g p, width text L) := by
  obtain ⟨r, a, b⟩ := h.ok
  have := h.max
  obtain ⟨p, hp'⟩ := Paints.exist hp hr st a b (L := L.toNat) (by omega)
  obtain ⟨q, c, d⟩ := Paints.shorter hp hr g (L := L.toNat) (F := L + 1) (by omega) (by omega) (by omega) hp'
  exact ⟨p, hp', q, c, by rw [d]⟩

/-! ## The simulation -/

structure Sim0 (env : TextParser.Env) (g : Bool) (c : Ed RD) (a : Editor.Ed (Tagged RD) (Option (Obs RD))) : Prop where
  wStart : a.wStart = c.wStart
  wSize  : a.wSize = c.wSize
  lineCount : a.lineCount = c.lineCount
  lrSize : a.lrSize = c.lrSize
  invalid : a.invalid = c.invalid
  backParse : a.backParse = c.backParse
  first  : a.first = c.store.first
  n      : a.n = c.store.n
  text   : ∀ i, (a.text i).2 = c.text i
  tag    : ∀ i, 0 ≤ i → (a.text i).1 = (c.parser.base, c.regs)
  reach  : Reach env c.parser.base ⟨c.text, c.parser, a.good⟩
  calm   : Calm c.regs
  tame   : Tame env c.parser.base c.text c.lineCount
  ws     : 0 ≤ c.wStart
  wpos   : 0 < c.wSize
  slots  : ∀ i : Nat, i < c.store.n → ∀ o, a.slots i = some (some o) → ∃ p fl, LineOk (c.store.slots i) p c.store.next fl ∧ obs g p = o.1 ∧
    Fits env o.2 (c.store.slots i)

theorem Sim0.lookOf {env : TextParser.Env} {g : Bool} {c : Ed RD} {a : Editor.Ed (Tagged RD) (Option (Obs RD))} (h : Sim0 env g c a) {L : Int} (hL : 0 ≤ L)
    {o : Obs RD} (ho : Looks env g c.parser.base c.regs c.text L o) : (aenv env g).F a.text L = some o := by
  show (if 0 ≤ L then Whole.lookOf env g a.text L else none) = some o
  rw [if_pos hL]
  apply lookOf_some
  rw [h.tag L hL]
  rw [show (fun i => (a.text i).2) = c.text from funext h.text]
  exact ho

theorem parseOf_eq {env : TextParser.Env} {p : PState} {from' num : Int} {mode : TextParser.Mode} {r : Result} (h : Parses env p from' num mode r) :
    parseOf env p from' num mode = some r := by
  unfold parseOf
  have he : ∃ r, Parses env p from' num mode r := ⟨r, h⟩
  rw [dif_pos he]
  exact congrArg some (he.choose_spec.det h)

open Classical in
/-- the pictures a store shows, as far as the abstract editor knows -/
noncomputable def known (g : Bool) (s : Store RD) (slots : Int → Option (Option (Obs RD))) (M : Nat) : Option (Picture RD) :=
  if h : inWin s.first s.n M ∧ ∃ p fl, LineOk (s.slots (M % s.n)) p s.next fl ∧ ∃ N, slots (M % s.n : Nat) = some (some (obs g p, N)) then some h.2.choose else none

theorem known_rel (g : Bool) (s : Store RD) (slots : Int → Option (Option (Obs RD))) :
    Rel s { n := s.n, first := s.first, cur := none, stack := s.stack, pics := known g s slots } := by
  refine ⟨rfl, rfl, rfl, ?_, by intro L hL; simp at hL⟩
  intro L p hp
  have hp : known g s slots L = some p := hp
  unfold known at hp
  split at hp
  · rename_i h
    obtain ⟨fl, h1, _⟩ := h.2.choose_spec
    simp only [Option.some.injEq] at hp
    rw [hp] at h1
    exact ⟨h.1, fl, h1⟩
  · simp at hp

theorem lineOf_facts {T R : Type} (a : Editor.Ed T R) (first n i : Nat) (h1 : a.first = first) (h2 : a.n = n) (hi : i < n) :
    inWin first n (a.lineOf i).toNat ∧ (a.lineOf i).toNat % n = i ∧ ((a.lineOf i).toNat : Int) = a.lineOf i := by
  have hlo : a.lineOf i = first + ((i : Int) - first) % n := by unfold Editor.Ed.lineOf; rw [h1, h2]
  have e1 := Int.emod_nonneg ((i : Int) - first) (by omega : (n : Int) ≠ 0)
  have e2 := Int.emod_lt_of_pos ((i : Int) - first) (by omega : (0 : Int) < n)
  have e3 : ((a.lineOf i).toNat : Int) = a.lineOf i := by rw [hlo]; omega
  refine ⟨⟨by omega, by omega⟩, ?_, e3⟩
  have : (((a.lineOf i).toNat % n : Nat) : Int) = i := by
    rw [Int.natCast_emod, e3, hlo, Int.add_emod, Int.emod_emod_of_dvd _ (Int.dvd_refl _), ← Int.add_emod]
    rw [show (first : Int) + ((i : Int) - first) = i from by omega]
    exact Int.emod_eq_of_lt (by omega) (by omega)
  omega

/-- the described part after a parse -/
def goodAfter (mode : Editor.Mode) (good E : Int) : Int :=
  match mode with
  | .read => good
  | .update => E

theorem reach_after {env : TextParser.Env} {base : Nat} {text : Int → Option Text} {p : PState} {good F E : Int} {r r0 : Result} {mode : Editor.Mode}
    (hb : p.base = base) (h : Reach env base ⟨text, p, good⟩) (hF : 0 ≤ F) (hg : F ≤ good) (hFE : F ≤ E) (hE : E ≤ 0x7FFFFFF)
    (h0 : Parses (env.text text) (fresh base) 0 E .update r0) (hh : r0.hit = false) (h1 : Parses (env.text text) p F (E - F) (toMode mode) r) :
    r.after.base = base ∧ Reach env base ⟨text, r.after, goodAfter mode good E⟩ := by
  have hb' : r.after.base = base := by rw [(TextParser.parses_base h1).1, hb]
  refine ⟨hb', ?_⟩
  cases mode with
  | read => exact .step h (.read h1)
  | update => exact .step h (.update hF hg hFE hE h0 hh h1)

theorem ops_le {env : TextParser.Env} {M N : Nat} {es : List TextParser.Ev}
    (h : ∀ e ∈ es, ∀ l, e.line? = some l → l.toNat = M → TextParser.lenAt env l = N ∧ TextParser.ColIn env e) : ∀ o ∈ ops es, Viewer.OpLe M N o := by
  intro o ho
  unfold ops at ho
  obtain ⟨e, he, hop⟩ := List.mem_filterMap.1 ho
  have h := h e he
  cases e <;> simp only [op, Option.some.injEq, reduceCtorEq] at hop <;> subst hop <;> simp only [Viewer.OpLe] <;>
    intro hM <;> obtain ⟨h1, h2⟩ := h _ rfl hM <;> simp only [TextParser.ColIn] at h2 <;> omega

theorem parse_sim {env : TextParser.Env} (hp : Pure env) (hr : RangesOk env) {g : Bool} (hg : g = true → Opaque env) {c : Ed RD}
    {a : Editor.Ed (Tagged RD) (Option (Obs RD))} (h : Sim0 env g c a) {from' to' : Int} (hf : 0 ≤ from') (hgood : from' ≤ a.good) (hlt : from' < to')
    (hto : to' ≤ c.lineCount) (mode : Editor.Mode) :
    ∃ c', c.parse env from' to' mode = some (c', to' - 1) ∧ Sim0 env g c' (a.parse (aenv env g) from' to' mode) := by
  have hmax := h.tame.max
  obtain ⟨r0, h0, hh⟩ := h.tame.shorter hp (E := to') (by omega) hto
  have hm : toMode mode ≠ .off := by cases mode <;> simp [toMode]
  obtain ⟨r, p1, p2, p3, p4, pl, pc, p5⟩ := paint_resumed hp hr c.regs h.calm g hg (TextParser.reach_ok hp h.reach) hf hgood hlt h0 hh (toMode mode) hm
  have p1 : Parses (env.text c.text) c.parser from' (to' - from') (toMode mode) r := p1
  obtain ⟨t, d1, d2, d3, d4, d5⟩ := p5 { n := c.store.n, first := c.store.first, cur := none, stack := c.store.stack, pics := known g c.store a.slots }
  obtain ⟨st', s1, s2⟩ := LineRegions.run_rel c.regs (ops r.evs) c.store _ t (known_rel g c.store a.slots) d1
  have d2 : t.first = c.store.first := d2
  have d3 : t.n = c.store.n := d3
  have hn : st'.n = c.store.n := by rw [s2.n, d3]
  have hfi : st'.first = c.store.first := by rw [s2.first, d2]
  obtain ⟨rb, rr⟩ := reach_after (mode := mode) rfl h.reach hf hgood (by omega) (by omega) h0 hh p1
  refine ⟨{ c with parser := r.after, store := st' }, ?_, ?_⟩
  · unfold Ed.parse
    rw [parseOf_eq p1, Option.bind_some, s1, Option.map_some, p3]
  · have hgd : (a.parse (aenv env g) from' to' mode).good = goodAfter mode a.good to' := by
      cases mode with
      | read => rfl
      | update =>
        show (if from' ≤ a.good then to' - 1 + 1 else a.good) = to'
        rw [if_pos hgood]; omega
    refine ⟨h.wStart, h.wSize, h.lineCount, h.lrSize, h.invalid, h.backParse, ?_, ?_, h.text, ?_, ?_, h.calm, ?_, h.ws, h.wpos, ?_⟩
    · show a.first = (st'.first : Int)
      rw [hfi]; exact h.first
    · show a.n = (st'.n : Int)
      rw [hn]; exact h.n
    · intro i hi
      show (a.text i).1 = (r.after.base, c.regs)
      rw [rb]; exact h.tag i hi
    · show Reach env r.after.base ⟨c.text, r.after, (a.parse (aenv env g) from' to' mode).good⟩
      rw [rb, hgd]; exact rr
    · show Tame env r.after.base c.text c.lineCount
      rw [rb]; exact h.tame
    · intro i hi o ho
      have hi : i < c.store.n := by rw [← hn]; exact hi
      obtain ⟨w1, w2, w3⟩ := lineOf_facts a c.store.first c.store.n i h.first h.n hi
      have ho : (if from' ≤ a.lineOf i ∧ a.lineOf i ≤ to' - 1 then
          some (if from' ≤ a.good then (aenv env g).F a.text (a.lineOf i) else (aenv env g).junk a.text (a.lineOf i)) else a.slots i) = some (some o) := ho
      show ∃ p fl, LineOk (st'.slots i) p st'.next fl ∧ obs g p = o.1 ∧ Fits env o.2 (st'.slots i)
      generalize hM : (a.lineOf i).toNat = M at w1 w2 w3
      by_cases hin : from' ≤ a.lineOf i ∧ a.lineOf i ≤ to' - 1
      · rw [if_pos hin, if_pos hgood] at ho
        obtain ⟨p, q, q1, q2, q3⟩ := d5 M (by omega) (by omega) w1
        obtain ⟨q', x1, x2⟩ := Paints.shorter hp hr g (L := M) (F := (M : Int) + 1) (by omega) (by omega) (by omega) q2
        have hl : Looks env g c.parser.base c.regs c.text (a.lineOf i) (obs g p, width c.text (a.lineOf i)) := by
          refine ⟨q', ?_, by rw [x2, q3]⟩
          rw [← w3]
          exact x1
        rw [h.lookOf (by omega) hl] at ho
        simp only [Option.some.injEq] at ho
        obtain ⟨_, fl, k⟩ := s2.pics M p q1
        rw [hn, w2] at k
        refine ⟨p, fl, k, by rw [← ho], ?_⟩
        intro hi
        obtain ⟨t', d1', _, _, _, d5'⟩ := p5 { n := c.store.n, first := c.store.first, cur := none, stack := c.store.stack, pics := fun _ => none }
        obtain ⟨p', _, q1', _⟩ := d5' M (by omega) (by omega) w1
        obtain ⟨st2, y1, y2, y3⟩ := Viewer.run_le (N := width c.text (a.lineOf i)) c.regs (ops r.evs) M (by omega) c.store _ t'
          (⟨rfl, rfl, rfl, by intro L p hp; simp at hp, by intro L hL; simp at hL⟩) (ops_le (env := env.text c.text) fun e he l hl hM' => ⟨by
            have := pl e he l hl
            rw [show a.lineOf i = l from by omega]
            rfl, pc hi e he⟩) d1' (by intro q hq; simp at hq)
        rw [s1] at y1
        cases y1
        have := y3 p' q1'
        rw [hn, w2] at this
        rw [← ho]
        exact this
      · rw [if_neg hin] at ho
        obtain ⟨p, fl, k1, k2, k3⟩ := h.slots i hi o ho
        have hk : inWin c.store.first c.store.n M ∧ ∃ p fl, LineOk (c.store.slots (M % c.store.n)) p c.store.next fl ∧
            ∃ N, a.slots (M % c.store.n : Nat) = some (some (obs g p, N)) :=
          ⟨w1, p, fl, by rw [w2]; exact k1, o.2, by rw [w2, k2]; exact ho⟩
        obtain ⟨p0, hkn, N0, z2⟩ : ∃ p0, known g c.store a.slots M = some p0 ∧ ∃ N, a.slots (M % c.store.n : Nat) = some (some (obs g p0, N)) := by
          obtain ⟨fl', _, z2⟩ := hk.2.choose_spec
          exact ⟨hk.2.choose, by unfold known; rw [dif_pos hk], z2⟩
        have hpic := d4 M (by omega)
        have hpic : t.pics M = some p0 := by rw [hpic]; exact hkn
        obtain ⟨_, fl'', k⟩ := s2.pics M _ hpic
        rw [hn, w2] at k
        rw [w2, ho] at z2
        simp only [Option.some.injEq] at z2
        refine ⟨_, fl'', k, by rw [z2], ?_⟩
        intro hi
        obtain ⟨st2, y1, y2, y3⟩ := Viewer.run_le (N := o.2) c.regs (ops r.evs) M (by omega) c.store _ t (known_rel g c.store a.slots) (ops_le (env := env.text c.text) fun e he l hl hM' => by
            have := pl e he l hl
            omega) d1 (by
              intro q hq
              rw [w2]
              exact k3 hi)
        rw [s1] at y1
        cases y1
        have := y3 _ hpic
        rw [hn, w2] at this
        exact this

theorem run_sim {env : TextParser.Env} (hp : Pure env) (hr : RangesOk env) {g : Bool} (hg : g = true → Opaque env) {c : Ed RD}
    {a : Editor.Ed (Tagged RD) (Option (Obs RD))} (h : Sim0 env g c a) {from' to' : Int} (hf : 0 ≤ from') (hgood : from' ≤ a.good) (mode : Editor.Mode) :
    ∃ c', c.run env from' to' mode = some c' ∧ Sim0 env g c' (a.run (aenv env g) from' to' mode) := by
  unfold Ed.run Editor.Ed.run
  rw [h.lineCount]
  dsimp only
  generalize hto : (if to' > c.lineCount then c.lineCount else to') = to1
  have hto1 : to1 ≤ c.lineCount := by subst hto; split <;> omega
  split
  · rename_i hlt
    obtain ⟨c', h1, h2⟩ := parse_sim hp hr hg h hf hgood (by omega) hto1 mode
    rw [h1, Option.map_some]
    cases mode with
    | read => exact ⟨c', rfl, h2⟩
    | update =>
      refine ⟨_, rfl, ?_⟩
      exact ⟨h2.wStart, h2.wSize, h2.lineCount, h2.lrSize, rfl, h2.backParse, h2.first, h2.n, h2.text, h2.tag, h2.reach, h2.calm, h2.tame, h2.ws,
        h2.wpos, h2.slots⟩
  · exact ⟨c, rfl, h⟩

theorem fixSize_sim {env : TextParser.Env} {g : Bool} {c : Ed RD} {a : Editor.Ed (Tagged RD) (Option (Obs RD))} (h : Sim0 env g c a) :
    ∃ c1, c.fixSize = some (c1, a.fixSize.2) ∧ Sim0 env g c1 a.fixSize.1 ∧ c1.store.first = c.store.first := by
  unfold Ed.fixSize Editor.Ed.fixSize
  rw [h.lrSize, h.wSize]
  split
  · refine ⟨_, rfl, ?_, rfl⟩
    refine ⟨h.wStart, rfl, h.lineCount, rfl, h.invalid, h.backParse, h.first, ?_, h.text, h.tag, h.reach, h.calm, h.tame, h.ws, h.wpos, ?_⟩
    · show c.wSize * 2 = ((c.wSize * 2).toNat : Int)
      have := h.wpos
      omega
    · intro i _ o ho
      have ho : (none : Option (Option (Obs RD))) = some (some o) := ho
      simp at ho
  · exact ⟨c, rfl, h, rfl⟩

theorem fixStart_sim {env : TextParser.Env} {g : Bool} {c : Ed RD} {a : Editor.Ed (Tagged RD) (Option (Obs RD))} (h : Sim0 env g c a) {lno : Int}
    (hl : 0 ≤ lno) : Sim0 env g (c.fixStart lno) (a.fixStart lno) ∧ (c.fixStart lno).store.first = c.store.first := by
  unfold Ed.fixStart Editor.Ed.fixStart
  rw [h.wStart, h.wSize]
  split
  · exact ⟨⟨rfl, rfl, h.lineCount, h.lrSize, h.invalid, h.backParse, h.first, h.n, h.text, h.tag, h.reach, h.calm, h.tame, hl, h.wpos, h.slots⟩, rfl⟩
  · exact ⟨h, rfl⟩

theorem fixWindow_sim {env : TextParser.Env} {g : Bool} {c : Ed RD} {a : Editor.Ed (Tagged RD) (Option (Obs RD))} (h : Sim0 env g c a) (layout : Bool)
    (pos : Int) (hpos : 0 ≤ pos) (rebuild : Bool) : ∃ c' a' plan, c.fixWindow c.store.first layout pos rebuild = some (c', plan) ∧
      a.fixWindow layout pos rebuild = some (a', plan) ∧ Sim0 env g c' a' ∧ 0 ≤ plan.parseFrom := by
  unfold Ed.fixWindow Editor.Ed.fixWindow
  rw [h.wStart, h.wSize, h.lrSize, h.first]
  have hw := h.wpos
  split
  · rw [if_neg (by omega), if_neg (by omega)]
    have hnn : 0 ≤ c.wStart.tdiv c.wSize * c.wSize := Int.mul_nonneg (Int.tdiv_nonneg h.ws (by omega)) (by omega)
    cases rebuild with
    | true =>
      refine ⟨_, _, _, rfl, rfl, ?_, hnn⟩
      refine ⟨rfl, rfl, h.lineCount, rfl, h.invalid, h.backParse, ?_, h.n, h.text, h.tag, h.reach, h.calm, h.tame, h.ws, h.wpos, h.slots⟩
      show c.wStart.tdiv c.wSize * c.wSize = ((c.wStart.tdiv c.wSize * c.wSize).toNat : Int)
      omega
    | false => exact ⟨_, _, _, rfl, rfl, h, hnn⟩
  · exact ⟨_, _, _, rfl, rfl, h, hpos⟩

theorem startAt_sim {env : TextParser.Env} {g : Bool} {c : Ed RD} {a : Editor.Ed (Tagged RD) (Option (Obs RD))} (h : Sim0 env g c a) (plan : Plan) :
    c.startAt plan = a.startAt plan := by
  unfold Ed.startAt Editor.Ed.startAt
  rw [h.invalid]

structure Sim (env : TextParser.Env) (g : Bool) (c : Ed RD) (a : Editor.Ed (Tagged RD) (Option (Obs RD))) : Prop where
  sim : Sim0 env g c a
  inv : Editor.Inv2 (aenv env g) a

theorem validate_sim {env : TextParser.Env} (hp : Pure env) (hr : RangesOk env) {g : Bool} (hg : g = true → Opaque env) {c : Ed RD}
    {a : Editor.Ed (Tagged RD) (Option (Obs RD))} (h : Sim env g c a) {lno : Int} (hl : 0 ≤ target c.lineCount lno) (rebuild : Bool)
    (hreb : rebuild = false → c.lrSize = c.wSize * 2) :
    ∃ c' a', c.validate env lno rebuild = some c' ∧ a.validate (aenv env g) lno rebuild = some a' ∧ Sim env g c' a' := by
  obtain ⟨c1, f1, f2, f3⟩ := fixSize_sim h.sim
  obtain ⟨g1, g2⟩ := fixStart_sim f2 hl
  have hpos : 0 ≤ a.wStart + a.wSize := by
    have := h.sim.ws; have := h.sim.wpos; rw [h.sim.wStart, h.sim.wSize]; omega
  obtain ⟨c3, a3, plan, w1, w2, w3, w4⟩ := fixWindow_sim g1 a.fixSize.2 (a.wStart + a.wSize) hpos rebuild
  have hready := Editor.validate_ready (aenv env g) a (target c.lineCount lno) rebuild h.inv
    (fun hx => by rw [h.sim.lrSize, h.sim.wSize]; exact hreb hx) a3 plan w2
  have hgood : (a3.startAt plan).1 ≤ a3.good := by
    have := hready.inv1.good
    rcases hready.mode with hm | hm <;> omega
  have hnn : 0 ≤ (a3.startAt plan).1 := by
    have := hready.inv1.nonneg
    rcases Editor.startAt_spec a3 plan with hm | hm <;> omega
  obtain ⟨c', r1, r2⟩ := run_sim hp hr hg w3 hnn hgood (a3.startAt plan).2 (to' := plan.parseTo)
  have hv : a.validate (aenv env g) lno rebuild = some (a3.run (aenv env g) (a3.startAt plan).1 plan.parseTo (a3.startAt plan).2) := by
    unfold Editor.Ed.validate
    simp only [h.sim.lineCount, w2]
  refine ⟨c', _, ?_, hv, r2, Editor.validate_inv2 (aenv env g) (aenv_sane hp g) (aenv_unbroken env g) a _ lno rebuild h.inv
    (fun hx => by rw [h.sim.lrSize, h.sim.wSize]; exact hreb hx) hv⟩
  unfold Ed.validate
  simp only [f1, Option.bind_some]
  rw [show (c.store.first : Int) = ((c1.fixStart (target c.lineCount lno)).store.first : Int) from by rw [g2, f3],
    ← h.sim.wStart, ← h.sim.wSize, w1]
  simp only [Option.bind_some, startAt_sim w3]
  exact r1

end Verif.Whole
