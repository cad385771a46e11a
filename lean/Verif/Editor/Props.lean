import Verif.Editor.Model
/-!
# C22 (fresh regions for visible lines) and C23 (the invalid boundary)
-/
namespace Verif.Editor
variable {T R : Type}

/-! ## Specification -/

/-- The collaborators behave: a line's regions depend only on the text up to that line; a parse stops inside its range. -/
structure Sane (env : Env T R) : Prop where
  loc  : ∀ t t' L, (∀ i, i ≤ L → t i = t' i) → env.F t L = env.F t' L
  stop : ∀ a b, a < b → a ≤ env.stop a b ∧ env.stop a b < b

/-- No parse is broken off. -/
def Unbroken (env : Env T R) : Prop := ∀ a b, env.stop a b = b - 1

/-- An edit is announced correctly: nothing changed above the announced line, and that line is not beyond the new end of text. -/
def honest (e : Ed T R) : Op T → Prop
  | .edit line text count => 0 ≤ line ∧ line ≤ count ∧ ∀ i, i < line → text i = e.text i
  | _ => True

/-- The window has at least one line, and an idle job is not called between a change of the window's size and the next query. -/
def orderly (e : Ed T R) : Op T → Prop
  | .visible _ z => 0 < z
  | .idle _ => e.invalid < e.lineCount → e.lrSize = e.wSize * 2
  | _ => True

/-- A history of operations, each meeting `ok` in the state it is applied to. -/
inductive Hist (env : Env T R) (ok : Ed T R → Op T → Prop) : Ed T R → Ed T R → Prop
  | nil (e) : Hist env ok e e
  | snoc {e e1 e2} (op) : Hist env ok e e1 → ok e1 op → e1.step env op = some e2 → Hist env ok e e2

/-! ## C23 -/

structure Inv1 (e : Ed T R) : Prop where
  nonneg : 0 ≤ e.invalid
  good   : e.invalid ≤ e.good
  calls  : ∀ c ∈ e.calls, c.from' < c.to' ∧ c.from' ≤ c.invalid ∧ c.invalid ≤ c.good ∧ (c.mode = .update ↔ c.from' = c.invalid)

/-- everything `validate` does before the parse leaves these alone -/
theorem before_parse (e e3 : Ed T R) (lno pos : Int) (rebuild : Bool) (plan : Plan)
    (h : (e.fixSize.1.fixStart lno).fixWindow e.fixSize.2 pos rebuild = some (e3, plan)) :
    e3.invalid = e.invalid ∧ e3.good = e.good ∧ e3.calls = e.calls ∧ e3.text = e.text ∧ e3.lineCount = e.lineCount := by
  have h1 : e.fixSize.1.invalid = e.invalid ∧ e.fixSize.1.good = e.good ∧ e.fixSize.1.calls = e.calls ∧ e.fixSize.1.text = e.text ∧
      e.fixSize.1.lineCount = e.lineCount := by
    unfold Ed.fixSize; split <;> exact ⟨rfl, rfl, rfl, rfl, rfl⟩
  generalize e.fixSize = p at h h1
  obtain ⟨e1, b⟩ := p
  simp only at h h1
  have h2 : (e1.fixStart lno).invalid = e1.invalid ∧ (e1.fixStart lno).good = e1.good ∧ (e1.fixStart lno).calls = e1.calls ∧
      (e1.fixStart lno).text = e1.text ∧ (e1.fixStart lno).lineCount = e1.lineCount := by
    unfold Ed.fixStart; split <;> exact ⟨rfl, rfl, rfl, rfl, rfl⟩
  generalize e1.fixStart lno = e2 at h h2
  unfold Ed.fixWindow at h
  split at h
  · split at h
    · simp at h
    · simp only [Option.some.injEq, Prod.mk.injEq] at h
      obtain ⟨h, _⟩ := h
      subst h
      cases rebuild <;> simp [h1, h2]
  · simp only [Option.some.injEq, Prod.mk.injEq] at h
    obtain ⟨h, _⟩ := h
    subst h
    simp [h1, h2]

/-- the parse starts at the invalid line in update mode, below it in read mode -/
theorem startAt_spec (e : Ed T R) (p : Plan) :
    ((e.startAt p).2 = .update ∧ (e.startAt p).1 = e.invalid) ∨ ((e.startAt p).2 = .read ∧ (e.startAt p).1 < e.invalid ∧
      (e.startAt p).1 = p.parseFrom ∧ (p.layout = false → p.parseTo < e.invalid)) := by
  unfold Ed.startAt
  grind

theorem run_inv1 (env : Env T R) (hs : Sane env) (e : Ed T R) (from' to' : Int) (mode : Mode) (h : Inv1 e)
    (hm : (mode = .update ∧ from' = e.invalid) ∨ (mode = .read ∧ from' < e.invalid)) :
    Inv1 (e.run env from' to' mode) ∧ e.invalid ≤ (e.run env from' to' mode).invalid := by
  unfold Ed.run
  simp only
  generalize (if to' > e.lineCount then e.lineCount else to') = to1
  split
  · rename_i hlt
    have hst := hs.stop from' to1 (by omega)
    have hle : from' ≤ e.invalid := by rcases hm with hm | hm <;> omega
    have hg := h.good
    have h0 := h.nonneg
    have hcalls : ∀ c ∈ e.calls ++ [⟨from', to1, mode, e.invalid, e.good⟩],
        c.from' < c.to' ∧ c.from' ≤ c.invalid ∧ c.invalid ≤ c.good ∧ (c.mode = .update ↔ c.from' = c.invalid) := by
      intro c hc
      rcases List.mem_append.1 hc with hc | hc
      · exact h.calls c hc
      · simp only [List.mem_singleton] at hc
        subst hc
        refine ⟨by simp only; omega, hle, hg, ?_⟩
        rcases hm with ⟨hm, hx⟩ | ⟨hm, hx⟩
        · simp [hm, hx]
        · simp only [hm, reduceCtorEq, false_iff]; omega
    cases mode with
    | read =>
      refine ⟨⟨h0, hg, hcalls⟩, ?_⟩
      show e.invalid ≤ e.invalid
      omega
    | update =>
      rcases hm with ⟨_, hx⟩ | ⟨hm, _⟩
      · refine ⟨⟨?_, ?_, hcalls⟩, ?_⟩
        · show (0 : Int) ≤ env.stop from' to1 + 1
          omega
        · show env.stop from' to1 + 1 ≤ if from' ≤ e.good then env.stop from' to1 + 1 else e.good
          rw [if_pos (by omega)]
          omega
        · show e.invalid ≤ env.stop from' to1 + 1
          omega
      · simp at hm
  · exact ⟨h, by omega⟩

theorem validate_inv1 (env : Env T R) (hs : Sane env) (e e' : Ed T R) (lno : Int) (rebuild : Bool) (h : Inv1 e)
    (hv : e.validate env lno rebuild = some e') : Inv1 e' ∧ e.invalid ≤ e'.invalid := by
  unfold Ed.validate at hv
  simp only at hv
  split at hv
  · simp at hv
  · rename_i e3 plan hw
    simp only [Option.some.injEq] at hv
    subst hv
    obtain ⟨a1, a2, a3, _, _⟩ := before_parse _ _ _ _ _ _ hw
    have h3 : Inv1 e3 := ⟨by rw [a1]; exact h.nonneg, by rw [a1, a2]; exact h.good, by rw [a3]; exact h.calls⟩
    have hst := startAt_spec e3 plan
    obtain ⟨r1, r2⟩ := run_inv1 env hs e3 (e3.startAt plan).1 plan.parseTo (e3.startAt plan).2 h3 (by
      rcases hst with hst | hst
      · exact Or.inl hst
      · exact Or.inr ⟨hst.1, hst.2.1⟩)
    exact ⟨r1, by rw [a1] at r2; exact r2⟩

theorem step_inv1 (env : Env T R) (hs : Sane env) (e e' : Ed T R) (op : Op T) (h : Inv1 e) (hop : honest e op)
    (hst : e.step env op = some e') : Inv1 e' := by
  have hg := h.good
  have h0 := h.nonneg
  cases op with
  | edit line text count =>
    simp only [Ed.step, Option.some.injEq] at hst
    subst hst
    simp only [honest] at hop
    refine ⟨?_, ?_, h.calls⟩
    · show (0 : Int) ≤ if e.invalid > line then line else e.invalid
      split <;> omega
    · show (if e.invalid > line then line else e.invalid) ≤ if line < e.good then line else e.good
      split <;> split <;> omega
  | visible s z =>
    simp only [Ed.step, Option.some.injEq] at hst
    subst hst
    exact ⟨h0, hg, h.calls⟩
  | idle t =>
    simp only [Ed.step, Ed.idleJob] at hst
    split at hst
    · exact (validate_inv1 env hs e e' _ _ h hst).1
    · simp only [Option.some.injEq] at hst
      subst hst
      exact h
  | query l =>
    simp only [Ed.step, Ed.getLineRegions] at hst
    split at hst
    · simp only [Option.map_some, Option.some.injEq] at hst
      subst hst
      exact h
    · simp only [Option.map_map, Option.map_eq_some_iff, Function.comp_apply] at hst
      obtain ⟨e1, h1, rfl⟩ := hst
      exact (validate_inv1 env hs e e1 _ _ h h1).1
  | remap r =>
    simp only [Ed.step, Option.some.injEq] at hst
    subst hst
    cases r
    · exact ⟨by show (0 : Int) ≤ 0; omega, by show (0 : Int) ≤ e.good; omega, h.calls⟩
    · exact ⟨by show (0 : Int) ≤ 0; omega, by show (0 : Int) ≤ e.good; omega, h.calls⟩
  | backParse v =>
    simp only [Ed.step, Option.some.injEq] at hst
    subst hst
    exact ⟨h0, hg, h.calls⟩

/-- C23: after any history of honestly announced edits, window moves, queries and idle jobs (also with broken parses), the invalid
line is never beyond the part of the text the parser's cache describes; every parse started at the invalid line (updating the
cache) or below it (reading), so always inside the described part. -/
theorem C23_invalid_line_never_past_parsed_text (env : Env T R) (hs : Sane env) (text : Int → T) (e : Ed T R)
    (h : Hist env honest (Ed.init text) e) :
    0 ≤ e.invalid ∧ e.invalid ≤ e.good ∧
      ∀ c ∈ e.calls, c.from' < c.to' ∧ c.from' ≤ c.invalid ∧ c.invalid ≤ c.good ∧ (c.mode = .update ↔ c.from' = c.invalid) := by
  have : Inv1 e := by
    induction h with
    | nil => exact ⟨by simp [Ed.init], by simp [Ed.init], by simp [Ed.init]⟩
    | snoc op _ hop hst ih => exact step_inv1 env hs _ _ op ih hop hst
  exact ⟨this.nonneg, this.good, this.calls⟩

/-- C23: a modification at line `t` makes everything from `t` on invalid, and only that. -/
theorem C23_edit (env : Env T R) (e e' : Ed T R) (t : Int) (text : Int → T) (count : Int)
    (h : e.step env (.edit t text count) = some e') :
    e'.invalid ≤ t ∧ e'.invalid ≤ e.invalid ∧ (e.invalid ≤ t → e'.invalid = e.invalid) := by
  simp only [Ed.step, Option.some.injEq] at h
  subst h
  show (if e.invalid > t then t else e.invalid) ≤ t ∧ (if e.invalid > t then t else e.invalid) ≤ e.invalid ∧
    (e.invalid ≤ t → (if e.invalid > t then t else e.invalid) = e.invalid)
  split <;> omega

/-- C23: queries and idle jobs only extend the valid part. -/
theorem C23_parsing_only_extends (env : Env T R) (hs : Sane env) (text : Int → T) (e e' : Ed T R)
    (h : Hist env honest (Ed.init text) e) (op : Op T) (hop : (∃ t, op = .idle t) ∨ ∃ l, op = .query l)
    (hst : e.step env op = some e') : e.invalid ≤ e'.invalid := by
  have hi : Inv1 e := by
    obtain ⟨a, b, c⟩ := C23_invalid_line_never_past_parsed_text env hs text e h
    exact ⟨a, b, c⟩
  rcases hop with ⟨t, rfl⟩ | ⟨l, rfl⟩
  · simp only [Ed.step, Ed.idleJob] at hst
    split at hst
    · exact (validate_inv1 env hs e e' _ _ hi hst).2
    · simp only [Option.some.injEq] at hst
      subst hst
      omega
  · simp only [Ed.step, Ed.getLineRegions] at hst
    split at hst
    · simp only [Option.map_some, Option.some.injEq] at hst
      subst hst
      omega
    · simp only [Option.map_map, Option.map_eq_some_iff, Function.comp_apply] at hst
      obtain ⟨e1, h1, rfl⟩ := hst
      exact (validate_inv1 env hs e e1 _ _ hi h1).2

/-! ## C22 -/

/-- every valid line in the store's window holds the regions of the current text -/
structure Inv2 (env : Env T R) (e : Ed T R) : Prop where
  inv1  : Inv1 e
  n     : e.n = e.lrSize
  wpos  : 0 < e.wSize
  count : e.invalid ≤ e.lineCount
  fresh : ∀ L, 0 ≤ L → e.first ≤ L → L < e.first + e.n → L < e.invalid → e.slots (L % e.n) = some (env.F e.text L)

theorem lineOf_self (e : Ed T R) (L : Int) (h1 : e.first ≤ L) (h2 : L < e.first + e.n) : e.lineOf (L % e.n) = L := by
  unfold Ed.lineOf
  have : (L % e.n - e.first) % e.n = L - e.first := by
    rw [Int.sub_emod, Int.emod_emod_of_dvd _ (Int.dvd_refl _), ← Int.sub_emod]
    exact Int.emod_eq_of_lt (by omega) (by omega)
  omega

/-- after a parse of `[from', to')` that starts inside the described part, the lines of the range in the window are fresh, and
the others keep their slots -/
theorem parse_slots (env : Env T R) (hu : Unbroken env) (e : Ed T R) (from' to' : Int) (mode : Mode) (hg : from' ≤ e.good)
    (L : Int) (h1 : e.first ≤ L) (h2 : L < e.first + e.n) :
    (e.parse env from' to' mode).slots (L % e.n) =
      if from' ≤ L ∧ L < to' then some (env.F e.text L) else e.slots (L % e.n) := by
  unfold Ed.parse
  simp only [lineOf_self e L h1 h2, if_pos hg]
  have := hu from' to'
  by_cases h : from' ≤ L ∧ L < to'
  · rw [if_pos h, if_pos (by omega)]
  · rw [if_neg h, if_neg (by omega)]

/-- what is known before the parse of a validation, in terms of the old object -/
structure Ready (env : Env T R) (e : Ed T R) (from' to' : Int) (mode : Mode) : Prop where
  inv1  : Inv1 e
  n     : e.n = e.lrSize
  wpos  : 0 < e.wSize
  count : e.invalid ≤ e.lineCount
  mode  : (mode = .update ∧ from' = e.invalid) ∨ (mode = .read ∧ from' < e.invalid)
  /-- a valid line of the window is fresh already or will be parsed -/
  fresh : ∀ L, 0 ≤ L → e.first ≤ L → L < e.first + e.n → L < e.invalid →
    e.slots (L % e.n) = some (env.F e.text L) ∨ (from' ≤ L ∧ L < to')

theorem run_inv2 (env : Env T R) (hs : Sane env) (hu : Unbroken env) (e : Ed T R) (from' to' : Int) (mode : Mode)
    (h : Ready env e from' to' mode) : Inv2 env (e.run env from' to' mode) ∧
      ∀ L, 0 ≤ L → e.first ≤ L → L < e.first + e.n → L < e.lineCount → (L < e.invalid ∨ (from' ≤ L ∧ L < to')) →
        (e.run env from' to' mode).stored L = some (env.F (e.run env from' to' mode).text L) := by
  have hi := run_inv1 env hs e from' to' mode h.inv1 h.mode
  have hg := h.inv1.good
  have hle : from' ≤ e.good := by rcases h.mode with hm | hm <;> omega
  have hc := h.count
  revert hi
  unfold Ed.run
  simp only
  generalize hto : (if to' > e.lineCount then e.lineCount else to') = to1
  intro hi
  have hto1 : ∀ L, L < e.lineCount → (L < to1 ↔ L < to') := by
    intro L hL
    subst hto
    split <;> omega
  have hto2 : to1 ≤ e.lineCount := by
    subst hto
    split <;> omega
  by_cases hlt : to1 - from' > 0
  · rw [if_pos hlt] at hi ⊢
    have hsl := parse_slots env hu e from' to1 mode hle
    have hstop := hu from' to1
    cases mode with
    | read =>
      simp only at hi ⊢
      have hi0 : (e.parse env from' to1 .read).invalid = e.invalid := rfl
      refine ⟨⟨hi.1, h.n, h.wpos, hc, ?_⟩, ?_⟩
      · intro L h0 h1 h2 h3
        have h1' : e.first ≤ L := h1
        have h2' : L < e.first + e.n := h2
        have h3' : L < e.invalid := h3
        show (e.parse env from' to1 .read).slots (L % e.n) = some (env.F e.text L)
        rw [hsl L h1' h2']
        split
        · rfl
        · rename_i hno
          rcases h.fresh L h0 h1' h2' h3' with hf | hf
          · exact hf
          · exact absurd ⟨hf.1, (hto1 L (by omega)).2 hf.2⟩ hno
      · intro L h0 h1 h2 h3 h4
        show (if e.first ≤ L ∧ L < e.first + e.n then (e.parse env from' to1 .read).slots (L % e.n) else none) =
          some (env.F e.text L)
        rw [if_pos ⟨h1, h2⟩, hsl L h1 h2]
        split
        · rfl
        · rename_i hno
          rcases h4 with h4 | h4
          · rcases h.fresh L h0 h1 h2 h4 with hf | hf
            · exact hf
            · exact absurd ⟨hf.1, (hto1 L h3).2 hf.2⟩ hno
          · exact absurd ⟨h4.1, (hto1 L h3).2 h4.2⟩ hno
    | update =>
      simp only at hi ⊢
      have hfrom : from' = e.invalid := by
        rcases h.mode with hm | hm
        · exact hm.2
        · simp at hm
      refine ⟨⟨hi.1, h.n, h.wpos, ?_, ?_⟩, ?_⟩
      · show env.stop from' to1 + 1 ≤ e.lineCount
        omega
      · intro L h0 h1 h2 h3
        have h1' : e.first ≤ L := h1
        have h2' : L < e.first + e.n := h2
        have h3' : L < env.stop from' to1 + 1 := h3
        show (e.parse env from' to1 .update).slots (L % e.n) = some (env.F e.text L)
        rw [hsl L h1' h2']
        split
        · rfl
        · rename_i hno
          rcases h.fresh L h0 h1' h2' (by omega) with hf | hf
          · exact hf
          · exact absurd ⟨hf.1, (hto1 L (by omega)).2 hf.2⟩ hno
      · intro L h0 h1 h2 h3 h4
        show (if e.first ≤ L ∧ L < e.first + e.n then (e.parse env from' to1 .update).slots (L % e.n) else none) =
          some (env.F e.text L)
        rw [if_pos ⟨h1, h2⟩, hsl L h1 h2]
        split
        · rfl
        · rename_i hno
          rcases h4 with h4 | h4
          · rcases h.fresh L h0 h1 h2 h4 with hf | hf
            · exact hf
            · exact absurd ⟨hf.1, (hto1 L h3).2 hf.2⟩ hno
          · exact absurd ⟨h4.1, (hto1 L h3).2 h4.2⟩ hno
  · rw [if_neg hlt] at hi ⊢
    refine ⟨⟨hi.1, h.n, h.wpos, hc, ?_⟩, ?_⟩
    · intro L h0 h1 h2 h3
      rcases h.fresh L h0 h1 h2 h3 with hf | hf
      · exact hf
      · have := (hto1 L (by omega)).2 hf.2
        omega
    · intro L h0 h1 h2 h3 h4
      rw [Ed.stored, if_pos ⟨h1, h2⟩]
      rcases h4 with h4 | h4
      · rcases h.fresh L h0 h1 h2 h4 with hf | hf
        · exact hf
        · have := (hto1 L (by omega)).2 hf.2
          omega
      · have := (hto1 L (by omega)).2 h4.2
        omega

theorem tdiv_floor (a z : Int) (ha : 0 ≤ a) (hz : 0 < z) : a.tdiv z * z ≤ a ∧ a < a.tdiv z * z + z := by
  rw [Int.tdiv_eq_ediv_of_nonneg ha]
  have h1 := Int.mul_ediv_add_emod a z
  have h2 := Int.emod_nonneg a (by omega : z ≠ 0)
  have h3 := Int.emod_lt_of_pos a hz
  have h4 : a / z * z = z * (a / z) := Int.mul_comm _ _
  constructor <;> omega

/-- the state in which `validate` chooses its plan -/
theorem fix_facts (e : Ed T R) (lno : Int) :
    let e2 := e.fixSize.1.fixStart lno
    e2.wSize = e.wSize ∧ e2.lrSize = e.wSize * 2 ∧ (e.n = e.lrSize → e2.n = e.wSize * 2) ∧ e2.first = e.first ∧ e2.text = e.text ∧
    (e.fixSize.2 = false → e2.slots = e.slots ∧ e2.n = e.n ∧ e.lrSize = e.wSize * 2) ∧
    (e.lrSize = e.wSize * 2 → e.fixSize.2 = false) ∧
    e2.wStart = (if lno < e.wStart ∨ lno > e.wStart + e.wSize then lno else e.wStart) := by
  unfold Ed.fixSize Ed.fixStart
  grind

theorem validate_ready (env : Env T R) (e : Ed T R) (lno : Int) (rebuild : Bool) (h : Inv2 env e)
    (hr : rebuild = false → e.lrSize = e.wSize * 2) (e3 : Ed T R) (plan : Plan)
    (hw : (e.fixSize.1.fixStart lno).fixWindow e.fixSize.2 (e.wStart + e.wSize) rebuild = some (e3, plan)) :
    Ready env e3 (e3.startAt plan).1 plan.parseTo (e3.startAt plan).2 := by
  obtain ⟨a1, a2, a3, a4, a5⟩ := before_parse _ _ _ _ _ _ hw
  obtain ⟨f1, f2, f3, f4, f5, f6, f7, f8⟩ := fix_facts e lno
  have f3 := f3 h.n
  have hst := startAt_spec e3 plan
  have hc := h.count
  have hwp := h.wpos
  have hi3 : Inv1 e3 := ⟨by rw [a1]; exact h.inv1.nonneg, by rw [a1, a2]; exact h.inv1.good, by rw [a3]; exact h.inv1.calls⟩
  have hmode : ((e3.startAt plan).2 = .update ∧ (e3.startAt plan).1 = e3.invalid) ∨
      ((e3.startAt plan).2 = .read ∧ (e3.startAt plan).1 < e3.invalid) := by
    rcases hst with hst | hst
    · exact Or.inl hst
    · exact Or.inr ⟨hst.1, hst.2.1⟩
  generalize e.fixSize.1.fixStart lno = e2 at hw f1 f2 f3 f4 f5 f6 f8
  generalize hlay : e.fixSize.2 = layout at hw f6 f7
  unfold Ed.fixWindow at hw
  split at hw
  · rename_i hcond
    rw [if_neg (by omega)] at hw
    simp only [Option.some.injEq, Prod.mk.injEq] at hw
    obtain ⟨he3, hplan⟩ := hw
    have g1 : e3.n = e2.n ∧ e3.lrSize = e2.lrSize ∧ e3.wSize = e2.wSize ∧ e3.slots = e2.slots := by
      subst he3; cases rebuild <;> exact ⟨rfl, rfl, rfl, rfl⟩
    refine ⟨hi3, by rw [g1.1, g1.2.1, f2, f3], by rw [g1.2.2.1, f1]; exact hwp, by rw [a1, a5]; exact hc, hmode, ?_⟩
    intro L h0 h1 h2 h3
    rw [a1] at h3
    rw [g1.1] at h2 ⊢
    rw [g1.2.2.2, a4]
    have hsub : ∀ l, l = plan → (e3.startAt plan).1 = min e.invalid plan.parseFrom := by
      intro l _
      unfold Ed.startAt
      have : plan.layout = true := by rw [← hplan]
      rw [a1]
      grind
    have hfrom := hsub plan rfl
    cases hrb : rebuild with
    | true =>
      rw [hrb] at he3
      simp only [if_true] at he3
      have g2 : e3.first = e2.wStart.tdiv e2.wSize * e2.wSize := by subst he3; rfl
      have g3 : plan.parseFrom = e2.wStart.tdiv e2.wSize * e2.wSize := by rw [← hplan]
      have g4 : plan.parseTo = if layout = false ∧ e2.first - e2.wStart.tdiv e2.wSize * e2.wSize = e2.wSize then
          e2.wStart.tdiv e2.wSize * e2.wSize + e2.lrSize - (e2.wSize - 1) else e2.wStart.tdiv e2.wSize * e2.wSize + e2.lrSize := by
        rw [← hplan]
      generalize e2.wStart.tdiv e2.wSize * e2.wSize = nf at g2 g3 g4
      by_cases hL : L < plan.parseTo
      · right
        exact ⟨by omega, hL⟩
      · left
        by_cases hsv : layout = false ∧ e2.first - nf = e2.wSize
        · rw [if_pos hsv] at g4
          obtain ⟨k1, k2, k3⟩ := f6 hsv.1
          rw [k1, k2]
          refine h.fresh L h0 ?_ ?_ h3
          · omega
          · rw [← k2]; omega
        · rw [if_neg hsv] at g4
          omega
    | false =>
      rw [hrb] at he3
      simp only [Bool.false_eq_true, if_false] at he3
      have hl : layout = false := f7 (hr hrb)
      obtain ⟨k1, k2, k3⟩ := f6 hl
      left
      have : e3.first = e.first := by subst he3; exact f4
      rw [k1, k2]
      exact h.fresh L h0 (by omega) (by rw [← k2]; omega) h3
  · rename_i hcond
    simp only [Option.some.injEq, Prod.mk.injEq] at hw
    obtain ⟨he3, hplan⟩ := hw
    subst he3
    have hl : layout = false := by
      cases layout with
      | false => rfl
      | true => exact absurd (Or.inl rfl) hcond
    obtain ⟨k1, k2, k3⟩ := f6 hl
    refine ⟨hi3, by rw [f2, f3], by rw [f1]; exact hwp, by rw [a1, a5]; exact hc, hmode, ?_⟩
    intro L h0 h1 h2 h3
    left
    rw [k1, k2, f5]
    rw [a1] at h3
    exact h.fresh L h0 (by omega) (by rw [← k2]; omega) h3

theorem validate_inv2 (env : Env T R) (hs : Sane env) (hu : Unbroken env) (e e' : Ed T R) (lno : Int) (rebuild : Bool)
    (h : Inv2 env e) (hr : rebuild = false → e.lrSize = e.wSize * 2) (hv : e.validate env lno rebuild = some e') :
    Inv2 env e' := by
  unfold Ed.validate at hv
  simp only at hv
  split at hv
  · simp at hv
  · rename_i e3 plan hw
    simp only [Option.some.injEq] at hv
    subst hv
    exact (run_inv2 env hs hu e3 _ _ _ (validate_ready env e _ rebuild h hr e3 plan hw)).1

theorem step_inv2 (env : Env T R) (hs : Sane env) (hu : Unbroken env) (e e' : Ed T R) (op : Op T) (h : Inv2 env e)
    (hop : honest e op) (hor : orderly e op) (hst : e.step env op = some e') : Inv2 env e' := by
  have hi := step_inv1 env hs e e' op h.inv1 hop hst
  cases op with
  | edit line text count =>
    simp only [Ed.step, Option.some.injEq] at hst
    subst hst
    simp only [honest] at hop
    refine ⟨hi, h.n, h.wpos, ?_, ?_⟩
    · show (if e.invalid > line then line else e.invalid) ≤ count
      split <;> omega
    · intro L h0 h1 h2 h3
      have h3' : L < if e.invalid > line then line else e.invalid := h3
      have hL : L < e.invalid ∧ L < line := by split at h3' <;> omega
      show e.slots (L % e.n) = some (env.F text L)
      rw [h.fresh L h0 h1 h2 hL.1]
      congr 1
      apply hs.loc
      intro i hi
      exact (hop.2.2 i (by omega)).symm
  | visible s z =>
    simp only [Ed.step, Option.some.injEq] at hst
    subst hst
    simp only [orderly] at hor
    exact ⟨hi, h.n, hor, h.count, h.fresh⟩
  | idle t =>
    simp only [Ed.step, Ed.idleJob] at hst
    simp only [orderly] at hor
    split at hst
    · rename_i hlt
      exact validate_inv2 env hs hu e e' _ _ h (fun _ => hor hlt) hst
    · simp only [Option.some.injEq] at hst
      subst hst
      exact h
  | query l =>
    simp only [Ed.step, Ed.getLineRegions] at hst
    split at hst
    · simp only [Option.map_some, Option.some.injEq] at hst
      subst hst
      exact h
    · simp only [Option.map_map, Option.map_eq_some_iff, Function.comp_apply] at hst
      obtain ⟨e1, h1, rfl⟩ := hst
      exact validate_inv2 env hs hu e e1 _ _ h (by simp) h1
  | remap r =>
    simp only [Ed.step, Option.some.injEq] at hst
    subst hst
    have h0 := h.inv1.nonneg
    have hc := h.count
    cases r with
    | false =>
      refine ⟨hi, h.n, h.wpos, by show (0 : Int) ≤ e.lineCount; omega, ?_⟩
      intro L h0 _ _ h3
      have : L < 0 := h3
      omega
    | true =>
      refine ⟨hi, rfl, h.wpos, by show (0 : Int) ≤ e.lineCount; omega, ?_⟩
      intro L h0 _ _ h3
      have : L < 0 := h3
      omega
  | backParse v =>
    simp only [Ed.step, Option.some.injEq] at hst
    subst hst
    exact ⟨hi, h.n, h.wpos, h.count, h.fresh⟩

theorem hist_inv2 (env : Env T R) (hs : Sane env) (hu : Unbroken env) (text : Int → T) (e : Ed T R)
    (h : Hist env (fun e op => honest e op ∧ orderly e op) (Ed.init text) e) : Inv2 env e := by
  induction h with
  | nil =>
    refine ⟨⟨by simp [Ed.init], by simp [Ed.init], by simp [Ed.init]⟩, rfl, by simp [Ed.init], by simp [Ed.init], ?_⟩
    intro L h0 _ _ h3
    simp only [Ed.init] at h3
    omega
  | snoc op _ hop hst ih => exact step_inv2 env hs hu _ _ op ih hop.1 hop.2 hst

/-- the query scrolls the store up by exactly one page (the "save time" case) -/
def PageUp (e : Ed T R) (lno : Int) : Prop :=
  e.lrSize = e.wSize * 2 ∧ e.first - (if lno < e.wStart then lno else e.wStart).tdiv e.wSize * e.wSize = e.wSize

theorem run_frame (env : Env T R) (e : Ed T R) (from' to' : Int) (mode : Mode) :
    (e.run env from' to' mode).text = e.text ∧ (e.run env from' to' mode).wStart = e.wStart ∧
    (e.run env from' to' mode).wSize = e.wSize ∧ (e.run env from' to' mode).lineCount = e.lineCount ∧
    (e.run env from' to' mode).lrSize = e.lrSize ∧ (e.run env from' to' mode).first = e.first ∧
    (e.run env from' to' mode).backParse = e.backParse := by
  unfold Ed.run
  simp only
  generalize (if to' > e.lineCount then e.lineCount else to') = to1
  split
  · cases mode <;> exact ⟨rfl, rfl, rfl, rfl, rfl, rfl, rfl⟩
  · exact ⟨rfl, rfl, rfl, rfl, rfl, rfl, rfl⟩

theorem query_fresh (env : Env T R) (hs : Sane env) (hu : Unbroken env) (e : Ed T R) (h : Inv2 env e) (lno : Int)
    (h0 : 0 ≤ lno) (hlc : lno < e.lineCount) (hws : 0 ≤ e.wStart) (hvis : lno < e.wStart + e.wSize)
    (hpg : lno ≤ e.wStart ∨ lno < e.invalid ∨ ¬ PageUp e lno)
    (hbp : e.backParse ≤ 0 ∨ lno - e.invalid ≤ e.backParse) :
    ∃ e', e.getLineRegions env lno = some (e', some (env.F e.text lno)) ∧ e'.text = e.text ∧ Inv2 env e' := by
  have hwp := h.wpos
  obtain ⟨f1, f2, f3, f4, f5, f6, f7, f8⟩ := fix_facts e lno
  have f3 := f3 h.n
  have f8' : (e.fixSize.1.fixStart lno).wStart = if lno < e.wStart then lno else e.wStart := by
    rw [f8]
    by_cases hlt : lno < e.wStart
    · rw [if_pos (Or.inl hlt), if_pos hlt]
    · rw [if_neg (by omega), if_neg hlt]
  have hsome : ∃ e3 plan, (e.fixSize.1.fixStart lno).fixWindow e.fixSize.2 (e.wStart + e.wSize) true = some (e3, plan) := by
    unfold Ed.fixWindow
    split
    · rw [if_neg (by omega)]
      exact ⟨_, _, rfl⟩
    · exact ⟨_, _, rfl⟩
  obtain ⟨e3, plan, hw⟩ := hsome
  have hready := validate_ready env e lno true h (by simp) e3 plan hw
  obtain ⟨a1, a2, a3, a4, a5⟩ := before_parse _ _ _ _ _ _ hw
  have hrun := run_inv2 env hs hu e3 _ _ _ hready
  have htgt : target e.lineCount lno = lno := by
    unfold target
    rw [if_neg (by omega)]
  have hval : e.validate env lno true = some (e3.run env (e3.startAt plan).1 plan.parseTo (e3.startAt plan).2) := by
    unfold Ed.validate
    simp only [htgt]
    rw [hw]
  have htext : (e3.run env (e3.startAt plan).1 plan.parseTo (e3.startAt plan).2).text = e.text := by
    rw [← a4]
    exact (run_frame env e3 _ _ _).1
  -- the line is in the window and valid or parsed
  have hkey : e3.first ≤ lno ∧ lno < e3.first + e3.n ∧
      (lno < e3.invalid ∨ ((e3.startAt plan).1 ≤ lno ∧ lno < plan.parseTo)) := by
    generalize e.fixSize.1.fixStart lno = e2 at hw f1 f2 f3 f4 f5 f6 f8'
    unfold PageUp at hpg
    generalize hws' : (if lno < e.wStart then lno else e.wStart) = ws at f8' hpg
    have hws1 : 0 ≤ ws ∧ ws ≤ lno ∧ lno < ws + e.wSize ∧ (lno ≤ e.wStart → ws = lno) := by
      subst hws'
      split <;> omega
    generalize hlay : e.fixSize.2 = layout at hw f6 f7
    unfold Ed.fixWindow at hw
    split at hw
    · rename_i hcond
      rw [if_neg (by omega)] at hw
      simp only [Option.some.injEq, Prod.mk.injEq, if_true] at hw
      obtain ⟨he3, hplan⟩ := hw
      have hfl := tdiv_floor ws e.wSize hws1.1 hwp
      have g0 : e2.wStart.tdiv e2.wSize * e2.wSize = ws.tdiv e.wSize * e.wSize := by rw [f1, f8']
      have g2 : e3.first = ws.tdiv e.wSize * e.wSize := by subst he3; exact g0
      have g1 : e3.n = e.wSize * 2 := by subst he3; exact f3
      have g3 : plan.parseFrom = ws.tdiv e.wSize * e.wSize := by rw [← hplan]; exact g0
      have g5 : plan.layout = true := by rw [← hplan]
      have g4 : plan.parseTo = if layout = false ∧ e2.first - ws.tdiv e.wSize * e.wSize = e.wSize then
          ws.tdiv e.wSize * e.wSize + e.wSize * 2 - (e.wSize - 1) else ws.tdiv e.wSize * e.wSize + e.wSize * 2 := by
        rw [← hplan]
        simp only [f1, f2, f8']
      rw [f4] at g4
      have hst : (e3.startAt plan).1 = min e3.invalid plan.parseFrom := by
        unfold Ed.startAt
        rw [g5]
        grind
      generalize ws.tdiv e.wSize * e.wSize = nf at hfl g2 g3 g4 hpg
      refine ⟨by omega, by omega, ?_⟩
      by_cases hi : lno < e3.invalid
      · exact Or.inl hi
      · right
        refine ⟨by omega, ?_⟩
        by_cases hsv : layout = false ∧ e.first - nf = e.wSize
        · rw [if_pos hsv] at g4
          have hls := (f6 hsv.1).2.2
          rcases hpg with hp | hp | hp
          · have := hws1.2.2.2 hp
            omega
          · rw [a1] at hi; omega
          · exact absurd ⟨hls, hsv.2⟩ hp
        · rw [if_neg hsv] at g4
          omega
    · rename_i hcond
      simp only [Option.some.injEq, Prod.mk.injEq] at hw
      obtain ⟨he3, hplan⟩ := hw
      subst he3
      rw [f8', f2, f1] at hcond
      have hst : (e2.startAt plan).1 ≤ e2.invalid ∨ e2.invalid > plan.parseTo := by
        unfold Ed.startAt
        grind
      have hpt : plan.parseTo = e.wStart + e.wSize := by rw [← hplan]
      refine ⟨by omega, by omega, ?_⟩
      by_cases hi : lno < e2.invalid
      · exact Or.inl hi
      · right
        omega
  refine ⟨_, ?_, htext, hrun.1⟩
  unfold Ed.getLineRegions
  rw [if_neg (by omega), hval]
  simp only [Option.map_some, Option.some.injEq, Prod.mk.injEq, true_and]
  have := hrun.2 lno h0 hkey.1 hkey.2.1 (by rw [a5]; exact hlc) hkey.2.2
  rw [this, htext]

/-- C22 (partial): after any honest and orderly history, a query for a line of the text inside the visible window (or above it)
returns the regions of the current text, unless the query itself scrolls the store up by exactly one page while the line is
beyond the invalid line. Missing: that case (see the violation), the line just below the window, broken parses. -/
theorem C22_query_is_fresh_partial (env : Env T R) (hs : Sane env) (hu : Unbroken env) (text : Int → T) (e : Ed T R)
    (h : Hist env (fun e op => honest e op ∧ orderly e op) (Ed.init text) e) (lno : Int) (h0 : 0 ≤ lno) (hlc : lno < e.lineCount)
    (hws : 0 ≤ e.wStart) (hvis : lno < e.wStart + e.wSize) (hpg : lno ≤ e.wStart ∨ lno < e.invalid ∨ ¬ PageUp e lno)
    (hbp : e.backParse ≤ 0 ∨ lno - e.invalid ≤ e.backParse) :
    ∃ e', e.getLineRegions env lno = some (e', some (env.F e.text lno)) := by
  obtain ⟨e', h1, _, _⟩ := query_fresh env hs hu e (hist_inv2 env hs hu text e h) lno h0 hlc hws hvis hpg hbp
  exact ⟨e', h1⟩

/-- the answers to a sequence of queries -/
def Ed.answers (env : Env T R) (e : Ed T R) : List Int → Option (List (Option R))
  | [] => some []
  | l :: ls => (e.getLineRegions env l).bind fun p => (Ed.answers env p.1 ls).map (p.2 :: ·)

/-- the store's window covers the visible one -/
def Settled (e : Ed T R) : Prop :=
  e.lrSize = e.wSize * 2 ∧ e.first ≤ e.wStart ∧ e.wStart + e.wSize ≤ e.first + e.lrSize

theorem query_settles_any (env : Env T R) (e e' : Ed T R) (lno : Int) (r : Option R) (hwp : 0 < e.wSize) (hws : 0 ≤ e.wStart)
    (h0 : 0 ≤ lno) (hlc : lno < e.lineCount)
    (h2 : lno < e.wStart + e.wSize) (hbp : e.backParse ≤ 0)
    (hq : e.getLineRegions env lno = some (e', r)) :
    Settled e' ∧ (e'.wStart = if lno < e.wStart then lno else e.wStart) ∧ e'.wSize = e.wSize ∧ e'.lineCount = e.lineCount ∧ e'.text = e.text ∧
      e'.backParse = e.backParse := by
  unfold Ed.getLineRegions at hq
  rw [if_neg (by omega)] at hq
  simp only [Option.map_eq_some_iff, Prod.mk.injEq] at hq
  obtain ⟨e1, hv, rfl, _⟩ := hq
  unfold Ed.validate at hv
  have htgt : target e.lineCount lno = lno := by
    unfold target
    rw [if_neg (by omega)]
  simp only [htgt] at hv
  split at hv
  · simp at hv
  · rename_i e3 plan hw
    simp only [Option.some.injEq] at hv
    subst hv
    obtain ⟨r1, r2, r3, r4, r5, r6, r7⟩ := run_frame env e3 (e3.startAt plan).1 plan.parseTo (e3.startAt plan).2
    obtain ⟨a1, a2, a3, a4, a5⟩ := before_parse _ _ _ _ _ _ hw
    unfold Settled
    rw [r1, r2, r3, r4, r5, r6, r7, a4, a5]
    obtain ⟨f1, f2, f3, f4, f5, f6, f7, f8⟩ := fix_facts e lno
    have f8 : (e.fixSize.1.fixStart lno).wStart = if lno < e.wStart then lno else e.wStart := by
      rw [f8]
      by_cases hx : lno < e.wStart
      · rw [if_pos (Or.inl hx), if_pos hx]
      · rw [if_neg (by omega), if_neg hx]
    have hnn : 0 ≤ (if lno < e.wStart then lno else e.wStart) := by split <;> omega
    generalize (if lno < e.wStart then lno else e.wStart) = ws at f8 hnn
    have f9 : (e.fixSize.1.fixStart lno).backParse = e.backParse := by
      unfold Ed.fixStart Ed.fixSize
      split <;> split <;> rfl
    generalize e.fixSize.1.fixStart lno = e2 at *
    generalize e.fixSize.2 = layout at *
    have hfl := tdiv_floor ws e.wSize hnn hwp
    unfold Ed.fixWindow at hw
    split at hw
    · rw [if_neg (by omega)] at hw
      simp only [Option.some.injEq, Prod.mk.injEq, if_true] at hw
      obtain ⟨he3, _⟩ := hw
      subst he3
      refine ⟨⟨?_, ?_, ?_⟩, f8, f1, rfl, rfl, f9⟩
      · show e2.lrSize = e2.wSize * 2
        rw [f2, f1]
      · show e2.wStart.tdiv e2.wSize * e2.wSize ≤ e2.wStart
        rw [f1, f8]; exact hfl.1
      · show e2.wStart + e2.wSize ≤ e2.wStart.tdiv e2.wSize * e2.wSize + e2.lrSize
        rw [f1, f8, f2]; omega
    · rename_i hcond
      simp only [Option.some.injEq, Prod.mk.injEq] at hw
      obtain ⟨he3, _⟩ := hw
      subst he3
      refine ⟨⟨by rw [f2, f1], ?_, ?_⟩, f8, f1, rfl, rfl, f9⟩ <;> omega

theorem query_settles (env : Env T R) (e e' : Ed T R) (lno : Int) (r : Option R) (hwp : 0 < e.wSize) (hws : 0 ≤ e.wStart)
    (h0 : 0 ≤ lno) (hlc : lno < e.lineCount)
    (h1 : e.wStart ≤ lno) (h2 : lno < e.wStart + e.wSize) (hbp : e.backParse ≤ 0)
    (hq : e.getLineRegions env lno = some (e', r)) :
    Settled e' ∧ e'.wStart = e.wStart ∧ e'.wSize = e.wSize ∧ e'.lineCount = e.lineCount ∧ e'.text = e.text ∧
      e'.backParse = e.backParse := by
  obtain ⟨k1, k2, k3⟩ := query_settles_any env e e' lno r hwp hws h0 hlc h2 hbp hq
  rw [if_neg (by omega)] at k2
  exact ⟨k1, k2, k3⟩

theorem settled_answers (env : Env T R) (hs : Sane env) (hu : Unbroken env) (ls : List Int) :
    ∀ e : Ed T R, Inv2 env e → Settled e → 0 ≤ e.wStart → e.backParse ≤ 0 →
      (∀ l ∈ ls, e.wStart ≤ l ∧ l < e.wStart + e.wSize ∧ l < e.lineCount) →
      e.answers env ls = some (ls.map fun l => some (env.F e.text l)) := by
  induction ls with
  | nil => intro e _ _ _ _ _; rfl
  | cons l ls ih =>
    intro e hi hset hws hbp hl
    obtain ⟨h1, h2, h3⟩ := hl l (by simp)
    have hwp := hi.wpos
    have hfl := tdiv_floor e.wStart e.wSize hws hwp
    have hnp : ¬ PageUp e l := by
      unfold PageUp
      rw [if_neg (by omega)]
      rintro ⟨_, hx⟩
      have := hset.2.1
      omega
    obtain ⟨e', hq, ht, hi'⟩ := query_fresh env hs hu e hi l (by omega) h3 hws h2 (Or.inr (Or.inr hnp)) (Or.inl hbp)
    obtain ⟨k1, k2, k3, k4, k5, k6⟩ := query_settles env e e' l _ hwp hws (by omega) h3 h1 h2 hbp hq
    rw [Ed.answers, hq, Option.bind_some, ih e' hi' k1 (by omega) (by omega) (by
      intro x hx
      have := hl x (by simp [hx])
      rw [k2, k3, k4]; exact this), ht]
    rfl

/-- C22 (partial): painting a screen. After any honest and orderly history, asking for the first visible line and then for any
visible lines in any order and number returns the regions of the current text each time. -/
theorem C22_screen_is_fresh_partial (env : Env T R) (hs : Sane env) (hu : Unbroken env) (text : Int → T) (e : Ed T R)
    (h : Hist env (fun e op => honest e op ∧ orderly e op) (Ed.init text) e) (hws : 0 ≤ e.wStart) (hbp : e.backParse ≤ 0)
    (hlc : e.wStart < e.lineCount) (ls : List Int)
    (hl : ∀ l ∈ ls, e.wStart ≤ l ∧ l < e.wStart + e.wSize ∧ l < e.lineCount) :
    e.answers env (e.wStart :: ls) = some ((e.wStart :: ls).map fun l => some (env.F e.text l)) := by
  have hi := hist_inv2 env hs hu text e h
  have hwp := hi.wpos
  obtain ⟨e', hq, ht, hi'⟩ := query_fresh env hs hu e hi e.wStart hws hlc hws (by omega) (Or.inl (by omega)) (Or.inl hbp)
  obtain ⟨k1, k2, k3, k4, k5, k6⟩ := query_settles env e e' e.wStart _ hwp hws hws hlc (by omega) (by omega) hbp hq
  rw [Ed.answers, hq, Option.bind_some, settled_answers env hs hu ls e' hi' k1 (by omega) (by omega) (by
    intro x hx
    have := hl x hx
    rw [k2, k3, k4]; exact this), ht]
  rfl

/-! ## Counterexamples and non-vacuity: a line's regions are its text -/

def demo : Env Nat Nat := ⟨fun t L => t L, fun _ _ => 999, fun _ b => b - 1⟩

theorem demo_sane : Sane demo := ⟨fun _ _ L h => h L (by omega), fun a b h => by show a ≤ b - 1 ∧ b - 1 < b; omega⟩
theorem demo_unbroken : Unbroken demo := fun _ _ => rfl

/-- C22, false: text changed at line 10, window scrolled up by less than a page, and the first query is for line 30: the old
regions (7) come back although the text of the line is now 8. -/
theorem C22_violated_scroll_up :
    (((Ed.init (fun _ => 7) : Ed Nat Nat).runOps demo
      [.edit 0 (fun _ => 7) 100, .visible 20 20, .query 20, .edit 10 (fun i => if i < 10 then 7 else 8) 100, .visible 15 20]).bind
        fun e => (e.getLineRegions demo 30).map (·.2)) = some (some 7) := by decide +kernel

/-- C22, false: a line just below the visible window keeps its old regions. -/
theorem C22_violated_line_below_window :
    (((Ed.init (fun _ => 7) : Ed Nat Nat).runOps demo
      [.edit 0 (fun _ => 7) 100, .visible 0 20, .query 0, .query 20, .edit 10 (fun i => if i < 10 then 7 else 8) 100, .visible 0 20]).bind
        fun e => (e.getLineRegions demo 20).map (·.2)) = some (some 7) := by decide +kernel

/-- C22, false: an idle job right after a change of the window's height empties the store; the visible line 3 has no regions. -/
theorem C22_violated_idle_after_resize :
    (((Ed.init (fun _ => 7) : Ed Nat Nat).runOps demo
      [.edit 0 (fun _ => 7) 1000, .visible 0 20, .query 0, .visible 0 30, .idle 0, .visible 0 30]).bind
        fun e => (e.getLineRegions demo 3).map (·.2)) = some none := by decide +kernel

/-- C22, false: with an empty window the editor divides by zero. -/
theorem C22_violated_empty_window :
    ((Ed.init (fun _ => 7) : Ed Nat Nat).runOps demo [.edit 0 (fun _ => 7) 10, .visible 0 0, .query 0]).isNone := by decide +kernel

/-- C22, false: a query while the text is empty moves the window to line -1; once the text has lines, the visible line 0 has no regions. -/
theorem C22_violated_query_in_empty_text :
    (((Ed.init (fun _ => 7) : Ed Nat Nat).runOps demo
      [.visible 0 1, .query 5, .edit 0 (fun _ => 7) 10]).bind
        fun e => (e.getLineRegions demo 0).map (·.2)) = some none := by decide +kernel

/-- C24, C22, false: `searchGlobalPair` scans up to line `lineCount`, one past the last line. After the text shrank from 10 lines to 5
the editor answers the query for line 5 with the regions of a line that no longer exists. -/
theorem C24_violated_past_the_end :
    (((Ed.init (fun _ => 7) : Ed Nat Nat).runOps demo
      [.edit 0 (fun _ => 7) 10, .visible 0 20, .query 0, .edit 5 (fun i => if i < 5 then 7 else 0) 5, .query 0]).bind
        fun e => (e.getLineRegions demo e.lineCount).map (·.2)) = some (some 7) := by decide +kernel

/-- non-vacuity: an orderly history with edits, scrolling and idling, then a screen -/
example : (((Ed.init (fun _ => 7) : Ed Nat Nat).runOps demo
    [.edit 0 (fun i => i.toNat) 100, .visible 0 20, .query 0, .idle 50, .edit 30 (fun i => if i < 30 then i.toNat else 8) 90,
     .visible 25 20]).bind fun e => e.answers demo [25, 29, 30, 44]) = some [some 25, some 29, some 8, some 8] := by decide +kernel

/-- C23. An idle job: the time is a percentage — what lies outside 0..100 counts as 0 or 100 — and the job asks for the line `100 + 4 * time` behind the valid lines,
without building the screen anew; if all lines are valid nothing happens. -/
theorem C23_idle_time_is_a_percentage {T R : Type} (env : Env T R) (e : Ed T R) (time : Int) :
    (time ≤ 0 → e.idleJob env time = e.idleJob env 0) ∧ (100 ≤ time → e.idleJob env time = e.idleJob env 100) ∧
    (0 ≤ time → time ≤ 100 → e.invalid < e.lineCount → e.idleJob env time = e.validate env (e.invalid + (100 + 4 * time)) false) ∧
    (e.lineCount ≤ e.invalid → e.idleJob env time = some e) := by
  refine ⟨fun h => ?_, fun h => ?_, fun h1 h2 h3 => ?_, fun h => ?_⟩
  · have : idleAhead time = idleAhead 0 := by unfold idleAhead; dsimp only; split <;> split <;> simp at * <;> omega
    unfold Ed.idleJob
    rw [this]
  · have : idleAhead time = idleAhead 100 := by unfold idleAhead; dsimp only; split <;> split <;> simp at * <;> omega
    unfold Ed.idleJob
    rw [this]
  · have : idleAhead time = 100 + 4 * time := by unfold idleAhead; dsimp only; split <;> split <;> omega
    unfold Ed.idleJob
    rw [if_pos h3, this]
  · unfold Ed.idleJob
    rw [if_neg (by omega)]

end Verif.Editor
