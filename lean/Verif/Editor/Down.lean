import Verif.Editor.Props
/-!
# C22: reading a text from top to bottom

An application that prints a text (the console tool) asks for its lines in order, without announcing a visible window.  The lines asked for leave
the window again and again; the store then moves down.  Here: every answer is right.
-/
namespace Verif.Editor
variable {T R : Type}

/-- every line of the text in the store's window holds the regions of the current text -/
def AllFresh (env : Env T R) (e : Ed T R) : Prop :=
  ∀ L, 0 ≤ L → e.first ≤ L → L < e.first + e.n → L < e.lineCount → e.slots (L % e.n) = some (env.F e.text L)

/-- the state between two questions of a reader going down -/
structure Down (env : Env T R) (e : Ed T R) : Prop where
  inv   : Inv2 env e
  fresh : AllFresh env e
  size  : e.lrSize = e.wSize * 2
  ws    : 0 ≤ e.wStart
  lo    : e.first ≤ e.wStart
  hi    : e.wStart < e.first + e.wSize

theorem run_slots (env : Env T R) (hu : Unbroken env) (e : Ed T R) (from' to' : Int) (mode : Mode) (hg : from' ≤ e.good) (L : Int) (h1 : e.first ≤ L)
    (h2 : L < e.first + e.n) (h3 : L < e.lineCount) :
    (e.run env from' to' mode).slots (L % e.n) = if from' ≤ L ∧ L < to' then some (env.F e.text L) else e.slots (L % e.n) := by
  have key : ∀ t, (e.parse env from' t mode).slots (L % e.n) = if from' ≤ L ∧ L < t then some (env.F e.text L) else e.slots (L % e.n) :=
    fun t => parse_slots env hu e from' t mode hg L h1 h2
  unfold Ed.run
  simp only
  have hiff : (L < if to' > e.lineCount then e.lineCount else to') ↔ L < to' := by split <;> omega
  generalize (if to' > e.lineCount then e.lineCount else to') = to1 at hiff
  split
  · cases mode
    · simp only [key, hiff]
    · simp only [key, hiff]
  · rw [if_neg (by omega)]

theorem run_n (env : Env T R) (e : Ed T R) (from' to' : Int) (mode : Mode) : (e.run env from' to' mode).n = e.n := by
  unfold Ed.run
  simp only
  generalize (if to' > e.lineCount then e.lineCount else to') = to1
  split
  · cases mode <;> rfl
  · rfl

/-- one question of a reader going down, or the first question to a store that has to be laid out -/
theorem query_down (env : Env T R) (hs : Sane env) (hu : Unbroken env) (e : Ed T R) (lno : Int) (h0 : 0 ≤ lno) (hlc : lno < e.lineCount)
    (hbp : e.backParse ≤ 0) (h : (Down env e ∧ e.wStart ≤ lno) ∨ (Inv2 env e ∧ 0 ≤ e.wStart ∧ e.lrSize ≠ e.wSize * 2)) :
    ∃ e', e.getLineRegions env lno = some (e', some (env.F e.text lno)) ∧ Down env e' ∧ e'.wStart ≤ lno ∧ e'.text = e.text ∧
      e'.lineCount = e.lineCount ∧ e'.backParse = e.backParse ∧ e'.wSize = e.wSize ∧ lno ≤ e'.wStart + e'.wSize := by
  have hinv : Inv2 env e := h.elim (fun h => h.1.inv) (fun h => h.1)
  have hws : 0 ≤ e.wStart := h.elim (fun h => h.1.ws) (fun h => h.2.1)
  have hwp := hinv.wpos
  obtain ⟨f1, f2, f3, f4, f5, f6, f7, f8⟩ := fix_facts e lno
  have f3 := f3 hinv.n
  have f9 : (e.fixSize.1.fixStart lno).backParse = e.backParse := by
    unfold Ed.fixStart Ed.fixSize
    split <;> split <;> rfl
  have f10 : e.lrSize ≠ e.wSize * 2 → e.fixSize.2 = true := by
    intro hx
    unfold Ed.fixSize
    rw [if_pos hx]
  have hsome : ∃ e3 plan, (e.fixSize.1.fixStart lno).fixWindow e.fixSize.2 (e.wStart + e.wSize) true = some (e3, plan) := by
    unfold Ed.fixWindow
    split
    · rw [if_neg (by omega)]
      exact ⟨_, _, rfl⟩
    · exact ⟨_, _, rfl⟩
  obtain ⟨e3, plan, hw⟩ := hsome
  have hready := validate_ready env e lno true hinv (by simp) e3 plan hw
  obtain ⟨a1, a2, a3, a4, a5⟩ := before_parse _ _ _ _ _ _ hw
  have hrun := run_inv2 env hs hu e3 _ _ _ hready
  have htgt : target e.lineCount lno = lno := by
    unfold target
    rw [if_neg (by omega)]
  have hval : e.validate env lno true = some (e3.run env (e3.startAt plan).1 plan.parseTo (e3.startAt plan).2) := by
    unfold Ed.validate
    simp only [htgt]
    rw [hw]
  obtain ⟨r1, r2, r3, r4, r5, r6, r7⟩ := run_frame env e3 (e3.startAt plan).1 plan.parseTo (e3.startAt plan).2
  have r8 := run_n env e3 (e3.startAt plan).1 plan.parseTo (e3.startAt plan).2
  have hgood : (e3.startAt plan).1 ≤ e3.good := by
    have := hready.inv1.good
    rcases hready.mode with hm | hm <;> omega
  have hslots := fun L => run_slots env hu e3 (e3.startAt plan).1 plan.parseTo (e3.startAt plan).2 hgood L
  have hw1 : e.lrSize = e.wSize * 2 → e.wStart ≤ lno := by
    intro hx
    rcases h with h | h
    · exact h.2
    · exact absurd hx h.2.2
  -- the window before the parse
  have key : e3.wStart ≤ lno ∧ lno ≤ e3.wStart + e3.wSize ∧ e3.lrSize = e3.wSize * 2 ∧ e3.n = e3.wSize * 2 ∧ 0 ≤ e3.wStart ∧ e3.first ≤ e3.wStart ∧
      e3.wStart < e3.first + e3.wSize ∧ e3.backParse = e.backParse ∧ e3.wSize = e.wSize ∧
      ∀ L, 0 ≤ L → e3.first ≤ L → L < e3.first + e3.n → L < e3.lineCount →
        ((e3.startAt plan).1 ≤ L ∧ L < plan.parseTo) ∨ e3.slots (L % e3.n) = some (env.F e.text L) := by
    generalize hws2 : (if lno < e.wStart ∨ lno > e.wStart + e.wSize then lno else e.wStart) = ws at f8
    have hws3 : 0 ≤ ws ∧ ws ≤ lno ∧ lno ≤ ws + e.wSize ∧ (e.lrSize = e.wSize * 2 → ws = e.wStart ∨ e.wStart + e.wSize < ws) := by
      subst hws2
      split <;> omega
    generalize e.fixSize.1.fixStart lno = e2 at hw f1 f2 f3 f4 f5 f6 f8 f9
    generalize hlay : e.fixSize.2 = layout at hw f6 f7 f10
    unfold Ed.fixWindow at hw
    split at hw
    · rename_i hcond
      rw [if_neg (by omega)] at hw
      simp only [Option.some.injEq, Prod.mk.injEq, if_true] at hw
      obtain ⟨he3, hplan⟩ := hw
      have hfl := tdiv_floor ws e.wSize hws3.1 hwp
      have g0 : e2.wStart.tdiv e2.wSize * e2.wSize = ws.tdiv e.wSize * e.wSize := by rw [f1, f8]
      have g2 : e3.first = ws.tdiv e.wSize * e.wSize := by subst he3; exact g0
      have g1 : e3.n = e.wSize * 2 := by subst he3; exact f3
      have g3 : plan.parseFrom = ws.tdiv e.wSize * e.wSize := by rw [← hplan]; exact g0
      have g5 : plan.layout = true := by rw [← hplan]
      have g6 : e3.wStart = ws := by subst he3; exact f8
      have g7 : e3.wSize = e.wSize := by subst he3; exact f1
      have g8 : e3.lrSize = e.wSize * 2 := by subst he3; exact f2
      have g9 : e3.backParse = e.backParse := by subst he3; exact f9
      have g4 : plan.parseTo = if layout = false ∧ e2.first - ws.tdiv e.wSize * e.wSize = e.wSize then
          ws.tdiv e.wSize * e.wSize + e.wSize * 2 - (e.wSize - 1) else ws.tdiv e.wSize * e.wSize + e.wSize * 2 := by
        rw [← hplan]
        simp only [f1, f2, f8]
      rw [f4] at g4
      have hst : (e3.startAt plan).1 = min e3.invalid plan.parseFrom := by
        unfold Ed.startAt
        rw [g5]
        grind
      have hnup : ¬ (layout = false ∧ e.first - ws.tdiv e.wSize * e.wSize = e.wSize) := by
        rintro ⟨hx, hy⟩
        rcases h with h | h
        · have := h.1.lo
          have hz := hws3.2.2.2 h.1.size
          have := h.1.hi
          omega
        · rw [f10 h.2.2] at hx
          cases hx
      rw [if_neg hnup] at g4
      generalize ws.tdiv e.wSize * e.wSize = nf at hfl g2 g3 g4
      refine ⟨by omega, by omega, by omega, by omega, by omega, by omega, by omega, g9, g7, ?_⟩
      intro L _ hL1 hL2 _
      left
      omega
    · rename_i hcond
      simp only [Option.some.injEq, Prod.mk.injEq] at hw
      obtain ⟨he3, hplan⟩ := hw
      subst he3
      rw [f8, f2, f1] at hcond
      have hl : layout = false := by
        cases layout
        · rfl
        · exact absurd (Or.inl rfl) hcond
      obtain ⟨k1, k2, k3⟩ := f6 hl
      have hd : Down env e := by
        rcases h with h | h
        · exact h.1
        · exact absurd k3 h.2.2
      have hlo := hd.lo
      have hhi := hd.hi
      have hz := hws3.2.2.2 k3
      have hwe : ws = e.wStart := by omega
      subst hwe
      refine ⟨by omega, by omega, by omega, by omega, by omega, by omega, by omega, f9, f1, ?_⟩
      intro L hL0 hL1 hL2 hL3
      right
      rw [k1, k2]
      exact hd.fresh L hL0 (by omega) (by omega) (by omega)
  obtain ⟨b1, b2, b3, b4, b5, b6, b7, b8, b9, b10⟩ := key
  have hallf : ∀ L, 0 ≤ L → e3.first ≤ L → L < e3.first + e3.n → L < e3.lineCount →
      (e3.run env (e3.startAt plan).1 plan.parseTo (e3.startAt plan).2).slots (L % e3.n) = some (env.F e.text L) := by
    intro L hL0 hL1 hL2 hL3
    rw [hslots L hL1 hL2 hL3, a4]
    split
    · rfl
    · rename_i hx
      rcases b10 L hL0 hL1 hL2 hL3 with hy | hy
      · exact absurd hy hx
      · exact hy
  refine ⟨_, ?_, ⟨hrun.1, ?_, ?_, ?_, ?_, ?_⟩, ?_, ?_, ?_, ?_, ?_, ?_⟩
  · unfold Ed.getLineRegions
    rw [if_neg (by omega), hval]
    simp only [Option.map_some, Option.some.injEq, Prod.mk.injEq, true_and]
    unfold Ed.stored
    rw [r6, r8, if_pos (by omega)]
    exact hallf lno h0 (by omega) (by omega) (by omega)
  · intro L hL0 hL1 hL2 hL3
    rw [r6] at hL1
    rw [r6, r8] at hL2
    rw [r4] at hL3
    rw [r8, r1, a4]
    exact hallf L hL0 hL1 hL2 hL3
  · rw [r5, r3]; exact b3
  · rw [r2]; exact b5
  · rw [r6, r2]; exact b6
  · rw [r6, r2, r3]; exact b7
  · rw [r2]; exact b1
  · rw [r1]; exact a4
  · rw [r4]; exact a5
  · rw [r7]; exact b8
  · rw [r3]; exact b9
  · rw [r2, r3]; exact b2

/-- the lines of the list do not go up, and none is above line `l` -/
def Downwards (l : Int) : List Int → Prop
  | [] => True
  | m :: ms => l ≤ m ∧ Downwards m ms

theorem down_answers (env : Env T R) (hs : Sane env) (hu : Unbroken env) (ls : List Int) :
    ∀ e : Ed T R, Down env e → e.backParse ≤ 0 → Downwards e.wStart ls → (∀ l ∈ ls, l < e.lineCount) →
      e.answers env ls = some (ls.map fun l => some (env.F e.text l)) := by
  induction ls with
  | nil => intro e _ _ _ _; rfl
  | cons l ls ih =>
    intro e hd hbp hdn hl
    have hws := hd.ws
    obtain ⟨hle, hdn⟩ := hdn
    obtain ⟨e', q1, q2, q3, q4, q5, q6, q7⟩ := query_down env hs hu e l (by omega) (hl l (by simp)) hbp (Or.inl ⟨hd, hle⟩)
    have hdn' : Downwards e'.wStart ls := by
      cases ls with
      | nil => trivial
      | cons m ms => exact ⟨by have := hdn.1; omega, hdn.2⟩
    rw [Ed.answers, q1, Option.bind_some, ih e' q2 (by omega) hdn' (by
      intro x hx
      rw [q5]
      exact hl x (by simp [hx])), q4]
    rfl

/-- C22: after any honest and orderly history in which no line was asked for since the window got its size, reading down the text - any lines, as
long as they do not go up - gives the regions of the current text each time.  No window needs to be announced. -/
theorem C22_reading_down_is_fresh (env : Env T R) (hs : Sane env) (hu : Unbroken env) (text : Int → T) (e : Ed T R)
    (h : Hist env (fun e op => honest e op ∧ orderly e op) (Ed.init text) e) (hws : 0 ≤ e.wStart) (hbp : e.backParse ≤ 0)
    (hnew : e.lrSize ≠ e.wSize * 2) (ls : List Int) (hd : Downwards 0 ls) (hl : ∀ l ∈ ls, l < e.lineCount) :
    e.answers env ls = some (ls.map fun l => some (env.F e.text l)) := by
  have hi := hist_inv2 env hs hu text e h
  cases ls with
  | nil => rfl
  | cons l ls =>
    obtain ⟨h0, hd⟩ := hd
    obtain ⟨e', q1, q2, q3, q4, q5, q6, q7⟩ := query_down env hs hu e l h0 (hl l (by simp)) hbp (Or.inr ⟨hi, hws, hnew⟩)
    have hdn' : Downwards e'.wStart ls := by
      cases ls with
      | nil => trivial
      | cons m ms => exact ⟨by have := hd.1; omega, hd.2⟩
    rw [Ed.answers, q1, Option.bind_some, down_answers env hs hu ls e' q2 (by omega) hdn' (by
      intro x hx
      rw [q5]
      exact hl x (by simp [hx])), q4]
    rfl

/-- the theorem applies: a text of 70 lines is read from line 0 to line 69 -/
example : ((((Ed.init (fun i => i.toNat) : Ed Nat Nat).step demo (.edit 0 (fun i => i.toNat) 70)).bind fun e =>
    e.answers demo ((List.range 70).map Int.ofNat)) = some ((List.range 70).map some)) := by decide +kernel

end Verif.Editor
