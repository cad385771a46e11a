import Verif.Editor.Model
/-!
# C24: pair search, C35: delivery of events, C50: the sample for type detection

Specification of the pair search: the regions in reading order after (or before) a place, up to the last (first) line of the range.
The partner is the first region where the openings and closings met so far, the starting region included, cancel out.
-/
namespace Verif.Editor

/-! ## Specification -/

/-- the regions of a line with their places -/
def linePlaces (regs : Int → List PReg) (l : Int) : List (Place × PReg) :=
  (regs l).zipIdx.map fun x => (⟨l, x.2⟩, x.1)

/-- everything after a place: the rest of its line, then the following lines up to `endLine` -/
def after (regs : Int → List PReg) (endLine : Int) (p : Place) : List (Place × PReg) :=
  (linePlaces regs p.line).drop (p.idx + 1) ++
    (List.range (endLine - p.line).toNat).flatMap fun (k : Nat) => linePlaces regs (p.line + 1 + k)

/-- everything before a place, nearest first, down to line `startLine` -/
def before (regs : Int → List PReg) (startLine : Int) (p : Place) : List (Place × PReg) :=
  ((linePlaces regs p.line).take p.idx).reverse ++
    (List.range (p.line - startLine).toNat).flatMap fun (k : Nat) => (linePlaces regs (p.line - 1 - k)).reverse

/-- an opening counts 1, a closing -1; a region that is both, or none, or has no region at all, counts nothing -/
def weight (r : PReg) : Int :=
  match r.hasRegion, r.isStart, r.isEnd with
  | true, true, false => 1
  | true, false, true => -1
  | _, _, _ => 0

/-- openings minus closings -/
def total (l : List (Place × PReg)) : Int := (l.map fun x => weight x.2).sum

/-- `q` is the first place of `l` where `b` plus openings minus closings is zero -/
def Partner (l : List (Place × PReg)) (b : Int) (q : Place) : Prop :=
  ∃ pre r post, l = pre ++ (q, r) :: post ∧ r.hasRegion = true ∧ b + total (pre ++ [(q, r)]) = 0 ∧
    ∀ k, k ≤ pre.length → b + total (pre.take k) ≠ 0

/-! ## Proof -/

theorem weight_eq (r : PReg) : weight r = if r.hasRegion then delta r else 0 := by
  obtain ⟨_, _, a, b, c⟩ := r
  cases a <;> cases b <;> cases c <;> rfl

theorem total_nil : total [] = 0 := rfl

theorem total_cons (x : Place × PReg) (l : List (Place × PReg)) :
    total (x :: l) = (if x.2.hasRegion then delta x.2 else 0) + total l := by simp [total, weight_eq]

theorem total_append (a b : List (Place × PReg)) : total (a ++ b) = total a + total b := by simp [total]

theorem total_reverse (a : List (Place × PReg)) : total a.reverse = total a := by
  induction a with
  | nil => rfl
  | cons x a ih => rw [List.reverse_cons, total_append, ih, total_cons, total_cons, total_nil]; omega

/-- the search over a sequence -/
def scan : List (Place × PReg) → Int → Option Place
  | [], _ => none
  | (q, r) :: l, b =>
    if r.hasRegion then if b + delta r = 0 then some q else scan l (b + delta r) else scan l b

theorem scan_some (l : List (Place × PReg)) : ∀ (b : Int) (q : Place), b ≠ 0 → (scan l b = some q ↔ Partner l b q) := by
  induction l with
  | nil =>
    intro b q hb
    constructor
    · intro h; simp [scan] at h
    · rintro ⟨pre, r, post, h, _⟩
      simp at h
  | cons x l ih =>
    obtain ⟨p, r⟩ := x
    intro b q hb
    have hcons : ∀ b', b' = b + (if r.hasRegion then delta r else 0) → b' ≠ 0 → (Partner l b' q ↔ Partner ((p, r) :: l) b q) := by
      intro b' hb' hne
      constructor
      · rintro ⟨pre, r', post, h1, h2, h3, h4⟩
        refine ⟨(p, r) :: pre, r', post, by rw [h1]; rfl, h2, ?_, ?_⟩
        · rw [List.cons_append, total_cons]; simp only; omega
        · intro k hk
          cases k with
          | zero => simpa [total_nil] using hb
          | succ k =>
            have := h4 k (by simpa using hk)
            rw [List.take_succ_cons, total_cons]; simp only; omega
      · rintro ⟨pre, r', post, h1, h2, h3, h4⟩
        cases pre with
        | nil =>
          simp only [List.nil_append, List.cons.injEq, Prod.mk.injEq] at h1
          obtain ⟨⟨rfl, rfl⟩, rfl⟩ := h1
          rw [List.nil_append, total_cons, total_nil] at h3
          exfalso; simp only at h3; omega
        | cons y pre =>
          simp only [List.cons_append, List.cons.injEq] at h1
          obtain ⟨rfl, rfl⟩ := h1
          refine ⟨pre, r', post, rfl, h2, ?_, ?_⟩
          · rw [List.cons_append, total_cons] at h3; simp only at h3; omega
          · intro k hk
            have := h4 (k + 1) (by simpa using hk)
            rw [List.take_succ_cons, total_cons] at this; simp only at this; omega
    rw [scan]
    by_cases hr : r.hasRegion = true
    · rw [if_pos hr]
      by_cases hz : b + delta r = 0
      · rw [if_pos hz]
        constructor
        · intro h
          cases h
          refine ⟨[], r, l, rfl, hr, ?_, ?_⟩
          · rw [List.nil_append, total_cons, total_nil]; simp only [hr, if_true]; omega
          · intro k hk
            simp [total_nil, hb]
        · rintro ⟨pre, r', post, h1, h2, h3, h4⟩
          cases pre with
          | nil => simp at h1; rw [h1.1.1]
          | cons y pre =>
            simp only [List.cons_append, List.cons.injEq] at h1
            obtain ⟨rfl, rfl⟩ := h1
            have := h4 1 (by simp)
            rw [List.take_succ_cons, total_cons] at this
            simp only [hr, if_true, List.take_zero, total_nil] at this
            omega
      · rw [if_neg hz, ih _ _ hz]
        exact hcons _ (by rw [if_pos hr]) hz
    · rw [if_neg hr, ih _ _ hb]
      exact hcons _ (by rw [if_neg hr]; omega) hb

theorem linePlaces_length (regs : Int → List PReg) (l : Int) : (linePlaces regs l).length = (regs l).length := by
  simp [linePlaces]

theorem linePlaces_get (regs : Int → List PReg) (l : Int) (i : Nat) (h : i < (regs l).length) :
    (linePlaces regs l)[i]'(by rw [linePlaces_length]; exact h) = (⟨l, i⟩, (regs l)[i]) := by
  simp [linePlaces]

/-- all regions of the lines `l`, `l+1`, … `endLine` -/
def linesFrom (regs : Int → List PReg) (endLine l : Int) : List (Place × PReg) :=
  (List.range (endLine + 1 - l).toNat).flatMap fun (k : Nat) => linePlaces regs (l + k)

def linesDown (regs : Int → List PReg) (startLine l : Int) : List (Place × PReg) :=
  (List.range (l + 1 - startLine).toNat).flatMap fun (k : Nat) => (linePlaces regs (l - k)).reverse

theorem after_eq (regs : Int → List PReg) (endLine : Int) (p : Place) :
    after regs endLine p = (linePlaces regs p.line).drop (p.idx + 1) ++ linesFrom regs endLine (p.line + 1) := by
  unfold after linesFrom
  rw [show endLine + 1 - (p.line + 1) = endLine - p.line by omega]

theorem before_eq (regs : Int → List PReg) (startLine : Int) (p : Place) :
    before regs startLine p = ((linePlaces regs p.line).take p.idx).reverse ++ linesDown regs startLine (p.line - 1) := by
  unfold before linesDown
  rw [show p.line - 1 + 1 - startLine = p.line - startLine by omega]

theorem linesFrom_nil (regs : Int → List PReg) (endLine l : Int) (h : l > endLine) : linesFrom regs endLine l = [] := by
  unfold linesFrom
  rw [show (endLine + 1 - l).toNat = 0 by omega]; rfl

theorem linesFrom_cons (regs : Int → List PReg) (endLine l : Int) (h : ¬ l > endLine) :
    linesFrom regs endLine l = linePlaces regs l ++ linesFrom regs endLine (l + 1) := by
  unfold linesFrom
  rw [show (endLine + 1 - l).toNat = (endLine + 1 - (l + 1)).toNat + 1 by omega, List.range_succ_eq_map]
  rw [List.flatMap_cons, List.flatMap_map]
  congr 1
  · simp
  · congr 1
    funext k
    congr 1
    push_cast
    omega

theorem linesDown_nil (regs : Int → List PReg) (startLine l : Int) (h : l < startLine) : linesDown regs startLine l = [] := by
  unfold linesDown
  rw [show (l + 1 - startLine).toNat = 0 by omega]; rfl

theorem linesDown_cons (regs : Int → List PReg) (startLine l : Int) (h : ¬ l < startLine) :
    linesDown regs startLine l = (linePlaces regs l).reverse ++ linesDown regs startLine (l - 1) := by
  unfold linesDown
  rw [show (l + 1 - startLine).toNat = (l - 1 + 1 - startLine).toNat + 1 by omega, List.range_succ_eq_map]
  rw [List.flatMap_cons, List.flatMap_map]
  congr 1
  · simp
  · congr 1
    funext k
    congr 2
    push_cast
    omega

/-- the next place in a direction and what is left -/
def Steps (regs : Int → List PReg) (seq : Place → List (Place × PReg)) (step : Option Place) (l : List (Place × PReg)) : Prop :=
  match step with
  | none => l = []
  | some q => ∃ r, regAt regs q = some r ∧ l = (q, r) :: seq q

theorem skipFwd_steps (regs : Int → List PReg) (endLine l : Int) :
    Steps regs (after regs endLine) (skipFwd regs endLine l) (linesFrom regs endLine l) := by
  fun_induction skipFwd regs endLine l with
  | case1 l h => exact linesFrom_nil _ _ _ h
  | case2 l h hl =>
    refine ⟨(regs l)[0], ?_, ?_⟩
    · exact List.getElem?_eq_getElem hl
    · rw [linesFrom_cons _ _ _ h, after_eq]
      have hl' : 0 < (linePlaces regs l).length := by rw [linePlaces_length]; exact hl
      have := List.drop_eq_getElem_cons hl'
      rw [List.drop_zero, linePlaces_get _ _ _ hl] at this
      rw [← List.cons_append]
      conv => lhs; rw [this]
  | case3 l h hl ih =>
    rw [linesFrom_cons _ _ _ h]
    have : linePlaces regs l = [] := by
      apply List.eq_nil_of_length_eq_zero
      rw [linePlaces_length]; omega
    rw [this, List.nil_append]
    exact ih

theorem skipBack_steps (regs : Int → List PReg) (startLine l : Int) :
    Steps regs (before regs startLine) (skipBack regs startLine l) (linesDown regs startLine l) := by
  fun_induction skipBack regs startLine l with
  | case1 l h => exact linesDown_nil _ _ _ h
  | case2 l h hl =>
    refine ⟨(regs l)[(regs l).length - 1], ?_, ?_⟩
    · exact List.getElem?_eq_getElem (show (regs l).length - 1 < (regs l).length by omega)
    · rw [linesDown_cons _ _ _ h, before_eq]
      have hl' : (regs l).length - 1 < (linePlaces regs l).length := by rw [linePlaces_length]; omega
      have h1 : linePlaces regs l = (linePlaces regs l).take ((regs l).length - 1) ++ [(⟨l, (regs l).length - 1⟩, (regs l)[(regs l).length - 1])] := by
        rw [← linePlaces_get _ _ _ (by omega)]
        have := List.take_append_getElem hl'
        rw [this]
        rw [List.take_of_length_le]
        rw [linePlaces_length]; omega
      conv => lhs; rw [h1, List.reverse_append]
      rfl
  | case3 l h hl ih =>
    rw [linesDown_cons _ _ _ h]
    have : linePlaces regs l = [] := by
      apply List.eq_nil_of_length_eq_zero
      rw [linePlaces_length]; omega
    rw [this, List.reverse_nil, List.nil_append]
    exact ih

theorem nextPlace_steps (regs : Int → List PReg) (endLine : Int) (p : Place) :
    Steps regs (after regs endLine) (nextPlace regs endLine p) (after regs endLine p) := by
  unfold nextPlace
  split
  · rename_i h
    refine ⟨(regs p.line)[p.idx + 1], List.getElem?_eq_getElem h, ?_⟩
    rw [after_eq, after_eq]
    have h' : p.idx + 1 < (linePlaces regs p.line).length := by rw [linePlaces_length]; exact h
    rw [List.drop_eq_getElem_cons h', linePlaces_get _ _ _ h]
    rfl
  · rename_i h
    have : (linePlaces regs p.line).drop (p.idx + 1) = [] := by
      apply List.drop_eq_nil_of_le
      rw [linePlaces_length]; omega
    rw [after_eq, this, List.nil_append]
    exact skipFwd_steps _ _ _

theorem prevPlace_steps (regs : Int → List PReg) (startLine : Int) (p : Place) (hp : p.idx < (regs p.line).length) :
    Steps regs (before regs startLine) (prevPlace regs startLine p) (before regs startLine p) := by
  unfold prevPlace
  split
  · rename_i h
    refine ⟨(regs p.line)[p.idx - 1], List.getElem?_eq_getElem (show p.idx - 1 < (regs p.line).length by omega), ?_⟩
    rw [before_eq, before_eq]
    have h' : p.idx - 1 < (linePlaces regs p.line).length := by rw [linePlaces_length]; omega
    have h1 : (linePlaces regs p.line).take p.idx = (linePlaces regs p.line).take (p.idx - 1) ++ [(⟨p.line, p.idx - 1⟩, (regs p.line)[p.idx - 1])] := by
      rw [← linePlaces_get _ _ _ (by omega), List.take_append_getElem h', show p.idx - 1 + 1 = p.idx by omega]
    rw [h1, List.reverse_append]
    rfl
  · rename_i h
    have h0 : p.idx = 0 := by omega
    rw [before_eq, h0, List.take_zero, List.reverse_nil, List.nil_append]
    exact skipBack_steps _ _ _

theorem delta_bounds (r : PReg) : -1 ≤ delta r ∧ delta r ≤ 1 := by
  unfold delta; split <;> split <;> omega

theorem search_fwd (regs : Int → List PReg) (startLine endLine : Int) (fuel : Nat) :
    ∀ p b, b > 0 → (after regs endLine p).length < fuel →
      searchLoop regs startLine endLine fuel p b = match scan (after regs endLine p) b with | some q => .at q | none => .nothing := by
  induction fuel with
  | zero => intro p b _ h; omega
  | succ fuel ih =>
    intro p b hb hf
    have hs := nextPlace_steps regs endLine p
    rw [searchLoop, stepPlace, if_pos hb]
    cases hn : nextPlace regs endLine p with
    | none =>
      rw [hn] at hs
      rw [show after regs endLine p = [] from hs]
      rfl
    | some q =>
      rw [hn] at hs
      obtain ⟨r, h1, h2⟩ := hs
      rw [h2] at hf ⊢
      simp only [h1, scan]
      simp only [List.length_cons] at hf
      by_cases hr : r.hasRegion = true
      · simp only [hr, if_true]
        by_cases hz : b + delta r = 0
        · simp [hz]
        · simp only [hz, if_false]
          exact ih _ _ (by have := delta_bounds r; omega) (by omega)
      · simp only [hr]
        exact ih _ _ hb (by omega)

theorem search_back (regs : Int → List PReg) (startLine endLine : Int) (fuel : Nat) :
    ∀ p b, b < 0 → p.idx < (regs p.line).length → (before regs startLine p).length < fuel →
      searchLoop regs startLine endLine fuel p b = match scan (before regs startLine p) b with | some q => .at q | none => .nothing := by
  induction fuel with
  | zero => intro p b _ _ h; omega
  | succ fuel ih =>
    intro p b hb hp hf
    have hs := prevPlace_steps regs startLine p hp
    rw [searchLoop, stepPlace, if_neg (by omega)]
    cases hn : prevPlace regs startLine p with
    | none =>
      rw [hn] at hs
      rw [show before regs startLine p = [] from hs]
      rfl
    | some q =>
      rw [hn] at hs
      obtain ⟨r, h1, h2⟩ := hs
      have hq : q.idx < (regs q.line).length := by
        unfold regAt at h1
        exact (List.getElem?_eq_some_iff.1 h1).1
      rw [h2] at hf ⊢
      simp only [h1, scan]
      simp only [List.length_cons] at hf
      by_cases hr : r.hasRegion = true
      · simp only [hr, if_true]
        by_cases hz : b + delta r = 0
        · simp [hz]
        · simp only [hz, if_false]
          exact ih _ _ (by have := delta_bounds r; omega) hq (by omega)
      · simp only [hr]
        exact ih _ _ hb hq (by omega)

/-- a region that can be the starting point of a search at a position -/
def IsPairAt (pos : Int) (r : PReg) : Prop :=
  r.hasRegion = true ∧ r.start ≤ pos ∧ pos ≤ r.stop ∧ (r.isStart = true ∨ r.isEnd = true)

theorem pairAt_spec (pos : Int) (l : List PReg) : ∀ (i : Nat) (acc : Option (Nat × PReg)),
    ((∃ j r, j < l.length ∧ l[j]? = some r ∧ IsPairAt pos r ∧ (∀ k r', j < k → l[k]? = some r' → ¬ IsPairAt pos r') ∧
        pairAt pos l i acc = some (i + j, r)) ∨
     ((∀ r ∈ l, ¬ IsPairAt pos r) ∧ pairAt pos l i acc = acc)) := by
  induction l with
  | nil => intro i acc; right; exact ⟨by simp, rfl⟩
  | cons x l ih =>
    intro i acc
    rw [pairAt]
    have hc : (x.hasRegion = true ∧ pos ≥ x.start ∧ pos ≤ x.stop ∧ (x.isStart = true ∨ x.isEnd = true)) ↔ IsPairAt pos x := by
      unfold IsPairAt; simp only [ge_iff_le]
    rcases ih (i + 1) (if x.hasRegion = true ∧ pos ≥ x.start ∧ pos ≤ x.stop ∧ (x.isStart = true ∨ x.isEnd = true) then some (i, x) else acc) with
      ⟨j, r, h1, h2, h3, h4, h5⟩ | ⟨h1, h2⟩
    · left
      refine ⟨j + 1, r, by simpa using h1, by simpa using h2, h3, ?_, ?_⟩
      · intro k r' hk hr'
        cases k with
        | zero => omega
        | succ k => exact h4 k r' (by omega) (by simpa using hr')
      · rw [h5]; simp; omega
    · by_cases hx : IsPairAt pos x
      · left
        refine ⟨0, x, by simp, by simp, hx, ?_, ?_⟩
        · intro k r' hk hr'
          cases k with
          | zero => omega
          | succ k => exact h1 r' (List.mem_of_getElem? (by simpa using hr'))
        · rw [h2, if_pos (hc.2 hx)]; simp
      · right
        refine ⟨?_, ?_⟩
        · intro r hr
          rcases List.mem_cons.1 hr with rfl | hr
          · exact hx
          · exact h1 r hr
        · rw [h2, if_neg (fun h => hx (hc.1 h))]

/-- C24: the starting region is the last pair region of the line that touches the position; without one there is no answer. -/
theorem C24_start (regs : Int → List PReg) (fuel : Nat) (lineNo pos startLine endLine : Int) :
    (∀ p f, searchPair regs fuel lineNo pos startLine endLine = some (p, f) →
      p.line = lineNo ∧ ∃ r, (regs lineNo)[p.idx]? = some r ∧ IsPairAt pos r ∧
        ∀ k r', p.idx < k → (regs lineNo)[k]? = some r' → ¬ IsPairAt pos r') ∧
    (searchPair regs fuel lineNo pos startLine endLine = none ↔ ∀ r ∈ regs lineNo, ¬ IsPairAt pos r) := by
  unfold searchPair
  rcases pairAt_spec pos (regs lineNo) 0 none with ⟨j, r, h1, h2, h3, h4, h5⟩ | ⟨h1, h2⟩
  · rw [h5]
    simp only [Option.map_some, Option.some.injEq, Prod.mk.injEq, Nat.zero_add]
    refine ⟨?_, by simp, ?_⟩
    · rintro p f ⟨rfl, _⟩
      exact ⟨rfl, r, h2, h3, h4⟩
    · intro h
      exact absurd h3 (h r (List.mem_of_getElem? h2))
  · rw [h2]
    simp only [Option.map_none]
    exact ⟨by simp, by simp; exact h1⟩

/-- C24: searching from an opening region, the answer is its partner among the regions after it up to the end of the range, and
"nothing" exactly if there is no partner; from a closing region, the same backwards. The loop ends (`running` is never the answer)
once it had as many rounds as there are regions in that part of the range. -/
theorem C24_first_balanced (regs : Int → List PReg) (fuel : Nat) (lineNo pos startLine endLine : Int) (p : Place) (f : Found)
    (h : searchPair regs fuel lineNo pos startLine endLine = some (p, f)) :
    ∃ r, regAt regs p = some r ∧
      (r.isStart = true → (after regs endLine p).length < fuel →
        (∀ q, f = .at q ↔ Partner (after regs endLine p) 1 q) ∧ (f = .nothing ↔ ∀ q, ¬ Partner (after regs endLine p) 1 q)) ∧
      (r.isStart = false → (before regs startLine p).length < fuel →
        (∀ q, f = .at q ↔ Partner (before regs startLine p) (-1) q) ∧ (f = .nothing ↔ ∀ q, ¬ Partner (before regs startLine p) (-1) q)) := by
  unfold searchPair at h
  rcases pairAt_spec pos (regs lineNo) 0 none with ⟨j, r, h1, h2, h3, h4, h5⟩ | ⟨h1, h2⟩
  · rw [h5] at h
    simp only [Option.map_some, Option.some.injEq, Prod.mk.injEq, Nat.zero_add] at h
    obtain ⟨rfl, rfl⟩ := h
    refine ⟨r, h2, ?_, ?_⟩
    · intro hst hf
      rw [if_pos hst, search_fwd _ _ _ _ _ _ (by omega) hf]
      have hq := fun q => scan_some (after regs endLine ⟨lineNo, j⟩) 1 q (by omega)
      cases hsc : scan (after regs endLine ⟨lineNo, j⟩) 1 with
      | none =>
        rw [hsc] at hq
        refine ⟨fun q => ?_, ?_⟩
        · rw [← hq q]; simp
        · simp only [true_iff]; intro q; rw [← hq q]; simp
      | some q0 =>
        rw [hsc] at hq
        refine ⟨fun q => ?_, ?_⟩
        · rw [← hq q]; simp
        · constructor
          · simp
          · intro hn; exact absurd ((hq q0).1 rfl) (hn q0)
    · intro hst hf
      rw [if_neg (by simp [hst]), search_back _ _ _ _ _ _ (by omega) h1 hf]
      have hq := fun q => scan_some (before regs startLine ⟨lineNo, j⟩) (-1) q (by omega)
      cases hsc : scan (before regs startLine ⟨lineNo, j⟩) (-1) with
      | none =>
        rw [hsc] at hq
        refine ⟨fun q => ?_, ?_⟩
        · rw [← hq q]; simp
        · simp only [true_iff]; intro q; rw [← hq q]; simp
      | some q0 =>
        rw [hsc] at hq
        refine ⟨fun q => ?_, ?_⟩
        · rw [← hq q]; simp
        · constructor
          · simp
          · intro hn; exact absurd ((hq q0).1 rfl) (hn q0)
  · rw [h2] at h
    simp at h

/-! ### The partner of the partner -/

theorem skipFwd_gap (regs : Int → List PReg) (endLine l : Int) (q : Place) (h : skipFwd regs endLine l = some q) :
    q.idx = 0 ∧ l ≤ q.line ∧ q.line ≤ endLine ∧ 0 < (regs q.line).length ∧ ∀ m, l ≤ m → m < q.line → regs m = [] := by
  fun_induction skipFwd regs endLine l with
  | case1 l hl => simp at h
  | case2 l hl hn =>
    cases h
    exact ⟨rfl, Int.le_refl _, by simp only; omega, hn, fun m h1 h2 => by simp only at h2; omega⟩
  | case3 l hl hn ih =>
    obtain ⟨h1, h2, h3, h4, h5⟩ := ih h
    refine ⟨h1, by omega, h3, h4, fun m hm hq => ?_⟩
    by_cases he : m = l
    · subst he
      apply List.eq_nil_of_length_eq_zero; omega
    · exact h5 m (by omega) hq

theorem linesDown_gap (regs : Int → List PReg) (startLine : Int) (l : Int) (n : Nat)
    (h : ∀ m, l < m → m ≤ l + n → regs m = []) (hs : startLine ≤ l + 1) :
    linesDown regs startLine (l + n) = linesDown regs startLine l := by
  induction n with
  | zero => simp
  | succ n ih =>
    rw [linesDown_cons _ _ _ (by omega)]
    have : linePlaces regs (l + (n + 1 : Nat)) = [] := by
      unfold linePlaces
      rw [h _ (by omega) (by omega)]; rfl
    rw [this, List.reverse_nil, List.nil_append, show l + ((n + 1 : Nat) : Int) - 1 = l + n by omega]
    exact ih (fun m h1 h2 => h m h1 (by omega))

theorem before_next (regs : Int → List PReg) (startLine endLine : Int) (p q : Place) (r : PReg)
    (hp : regAt regs p = some r) (hs : startLine ≤ p.line) (hn : nextPlace regs endLine p = some q) :
    before regs startLine q = (p, r) :: before regs startLine p ∧ p.line ≤ q.line := by
  obtain ⟨hlt, hr⟩ := List.getElem?_eq_some_iff.1 hp
  have h' : p.idx < (linePlaces regs p.line).length := by rw [linePlaces_length]; exact hlt
  have htake : (linePlaces regs p.line).take (p.idx + 1) = (linePlaces regs p.line).take p.idx ++ [(p, r)] := by
    rw [← List.take_append_getElem h', linePlaces_get _ _ _ hlt, hr]
  unfold nextPlace at hn
  split at hn
  · cases hn
    refine ⟨?_, Int.le_refl _⟩
    rw [before_eq, before_eq]
    simp only
    rw [htake, List.reverse_append]; rfl
  · rename_i hlast
    obtain ⟨h1, h2, h3, h4, h5⟩ := skipFwd_gap _ _ _ _ hn
    refine ⟨?_, by omega⟩
    rw [before_eq, h1, List.take_zero, List.reverse_nil, List.nil_append]
    have hg := linesDown_gap regs startLine p.line (q.line - 1 - p.line).toNat (fun m ha hb => h5 m (by omega) (by omega)) (by omega)
    rw [show p.line + ((q.line - 1 - p.line).toNat : Int) = q.line - 1 by omega] at hg
    rw [hg, linesDown_cons _ _ _ (by omega), before_eq]
    have : linePlaces regs p.line = (linePlaces regs p.line).take (p.idx + 1) := by
      rw [List.take_of_length_le]; rw [linePlaces_length]; omega
    conv => lhs; rw [this, htake, List.reverse_append]
    rfl

theorem before_after (regs : Int → List PReg) (startLine endLine : Int) (pre : List (Place × PReg)) :
    ∀ (p q : Place) (r r' : PReg) (post : List (Place × PReg)), regAt regs p = some r → startLine ≤ p.line →
      after regs endLine p = pre ++ (q, r') :: post →
      before regs startLine q = pre.reverse ++ (p, r) :: before regs startLine p ∧ regAt regs q = some r' := by
  induction pre with
  | nil =>
    intro p q r r' post hp hs ha
    have hst := nextPlace_steps regs endLine p
    cases hn : nextPlace regs endLine p with
    | none => rw [hn, ha] at hst; simp [Steps] at hst
    | some x =>
      rw [hn, ha] at hst
      obtain ⟨r1, h1, h2⟩ := hst
      simp only [List.nil_append, List.cons.injEq, Prod.mk.injEq] at h2
      obtain ⟨⟨rfl, rfl⟩, _⟩ := h2
      exact ⟨(before_next regs startLine endLine p q r hp hs hn).1, h1⟩
  | cons y pre ih =>
    intro p q r r' post hp hs ha
    have hst := nextPlace_steps regs endLine p
    cases hn : nextPlace regs endLine p with
    | none => rw [hn, ha] at hst; simp [Steps] at hst
    | some x =>
      rw [hn, ha] at hst
      obtain ⟨r1, h1, h2⟩ := hst
      simp only [List.cons_append, List.cons.injEq] at h2
      obtain ⟨rfl, h2⟩ := h2
      obtain ⟨hb, hle⟩ := before_next regs startLine endLine p x r hp hs hn
      obtain ⟨h3, h4⟩ := ih x q r1 r' post h1 (by omega) h2.symm
      refine ⟨?_, h4⟩
      rw [h3, hb, List.reverse_cons, List.append_assoc]; rfl

theorem total_take_step (pre : List (Place × PReg)) (k : Nat) :
    total (pre.take (k + 1)) - total (pre.take k) ≤ 1 ∧ -1 ≤ total (pre.take (k + 1)) - total (pre.take k) := by
  by_cases hk : k < pre.length
  · rw [← List.take_append_getElem hk, total_append, total_cons, total_nil]
    have := delta_bounds (pre[k]).2
    split <;> omega
  · rw [List.take_of_length_le (by omega), List.take_of_length_le (by omega)]; omega

theorem stays_positive (pre : List (Place × PReg)) (h : ∀ k, k ≤ pre.length → 1 + total (pre.take k) ≠ 0) :
    ∀ k, k ≤ pre.length → 0 ≤ total (pre.take k) := by
  intro k
  induction k with
  | zero => intro _; simp [total_nil]
  | succ k ih =>
    intro hk
    have h1 := ih (by omega)
    have h2 := h (k + 1) hk
    have h3 := total_take_step pre k
    omega

/-- C24: partners are mutual. If the search from an opening region `p` finds `q`, then `q` is a closing region and the search from
`q` (with a range that reaches up to `p`) finds `p`. -/
theorem C24_partners_are_mutual (regs : Int → List PReg) (startLine endLine : Int) (p q : Place) (r : PReg)
    (hp : regAt regs p = some r) (hr : r.hasRegion = true) (hst : r.isStart = true) (hen : r.isEnd = false) (hs : startLine ≤ p.line)
    (h : Partner (after regs endLine p) 1 q) :
    (∃ r', regAt regs q = some r' ∧ r'.hasRegion = true ∧ r'.isEnd = true ∧ r'.isStart = false) ∧
      Partner (before regs startLine q) (-1) p := by
  obtain ⟨pre, r', post, h1, h2, h3, h4⟩ := h
  obtain ⟨hb, hq⟩ := before_after regs startLine endLine pre p q r r' post hp hs h1
  have hpos := stays_positive pre h4
  have hfull := hpos pre.length (Nat.le_refl _)
  rw [List.take_length] at hfull
  rw [total_append, total_cons, total_nil, if_pos h2] at h3
  simp only at h3
  have hd := delta_bounds r'
  have hd' : delta r' = -1 := by omega
  have htot : total pre = 0 := by omega
  refine ⟨⟨r', hq, h2, ?_⟩, ?_⟩
  · unfold delta at hd'
    cases hs1 : r'.isStart <;> cases he1 : r'.isEnd <;> rw [hs1, he1] at hd' <;> simp at hd' ⊢
  · refine ⟨pre.reverse, r, before regs startLine p, hb, hr, ?_, ?_⟩
    · rw [total_append, total_reverse, htot, total_cons, total_nil, if_pos hr]
      simp only [delta, hst, hen]; simp
    · intro k hk
      rw [List.length_reverse] at hk
      have e1 : total (pre.reverse.take k) = total pre - total (pre.take (pre.length - k)) := by
        have := List.take_append_drop (pre.length - k) pre
        have h5 : total pre = total (pre.take (pre.length - k)) + total (pre.drop (pre.length - k)) := by
          rw [← total_append, this]
        rw [List.take_reverse, total_reverse]
        omega
      rw [e1, htot]
      have := hpos (pre.length - k) (by omega)
      omega

/-- well nested sequences: regions that are no pair regions, and pairs around well nested sequences -/
inductive Nested : List (Place × PReg) → Prop where
  | nil : Nested []
  | other {x l} : x.2.hasRegion = false ∨ (x.2.isStart = false ∧ x.2.isEnd = false) → Nested l → Nested (x :: l)
  | pair {o body c l} : o.2.hasRegion = true → o.2.isStart = true → o.2.isEnd = false → Nested body →
      c.2.hasRegion = true → c.2.isEnd = true → c.2.isStart = false → Nested l → Nested (o :: (body ++ c :: l))

theorem nested_total {l : List (Place × PReg)} (h : Nested l) : total l = 0 ∧ ∀ k, 0 ≤ total (l.take k) := by
  induction h with
  | nil => exact ⟨rfl, fun k => by simp [total_nil]⟩
  | @other x l hx _ ih =>
    have hz : (if x.2.hasRegion then delta x.2 else 0) = 0 := by
      rcases hx with hx | ⟨h1, h2⟩
      · rw [if_neg (by simp [hx])]
      · simp [delta, h1, h2]
    refine ⟨by rw [total_cons, hz, ih.1]; rfl, fun k => ?_⟩
    cases k with
    | zero => simp [total_nil]
    | succ k => rw [List.take_succ_cons, total_cons, hz]; have := ih.2 k; omega
  | @pair o body c l h1 h2 h3 _ h4 h5 h6 _ ih1 ih2 =>
    have ho : (if o.2.hasRegion then delta o.2 else 0) = 1 := by rw [if_pos h1]; simp [delta, h2, h3]
    have hc : (if c.2.hasRegion then delta c.2 else 0) = -1 := by rw [if_pos h4]; simp [delta, h5, h6]
    refine ⟨by rw [total_cons, total_append, total_cons, ho, hc, ih1.1, ih2.1]; rfl, fun k => ?_⟩
    cases k with
    | zero => simp [total_nil]
    | succ k =>
      rw [List.take_succ_cons, total_cons, ho, List.take_append, total_append]
      have e1 := ih1.2 k
      by_cases hk : k ≤ body.length
      · rw [show k - body.length = 0 by omega, List.take_zero, total_nil]; omega
      · obtain ⟨j, hj⟩ : ∃ j, k - body.length = j + 1 := ⟨k - body.length - 1, by omega⟩
        rw [hj, List.take_succ_cons, total_cons, hc]
        have := ih2.2 j
        omega

/-- C24: in a well nested text the partner of an opening is the closing that ends the well nested stretch after it. -/
theorem C24_finds_the_matching_bracket (body post : List (Place × PReg)) (q : Place) (r : PReg) (hb : Nested body)
    (h1 : r.hasRegion = true) (h2 : r.isEnd = true) (h3 : r.isStart = false) : Partner (body ++ (q, r) :: post) 1 q := by
  obtain ⟨t1, t2⟩ := nested_total hb
  refine ⟨body, r, post, rfl, h1, ?_, ?_⟩
  · rw [total_append, total_cons, total_nil, if_pos h1, t1]
    simp [delta, h2, h3]
  · intro k _
    have := t2 k
    omega

/-- non-vacuity: `( [ ] text` / `)` over two lines, with an empty line between and a region without meaning -/
def demoRegs : Int → List PReg
  | 0 => [⟨0, 1, true, true, false⟩, ⟨1, 2, true, true, false⟩, ⟨1, 2, false, true, true⟩, ⟨2, 3, true, false, true⟩, ⟨3, 7, true, false, false⟩]
  | 2 => [⟨0, 4, true, false, false⟩, ⟨4, 5, true, false, true⟩]
  | _ => []

example : searchPair demoRegs 20 0 0 0 5 = some (⟨0, 0⟩, .at ⟨2, 1⟩) := by decide +kernel

example : searchPair demoRegs 20 2 5 0 5 = some (⟨2, 1⟩, .at ⟨0, 0⟩) := by decide +kernel

example : Partner (after demoRegs 5 ⟨0, 0⟩) 1 ⟨2, 1⟩ := by
  rw [← scan_some _ _ _ (by omega)]
  decide

/-! ## C35: delivery of events -/

/-- registrations in force after a sequence of operations, newest last: specification by counting. `before` is what is registered. -/
def registered (ops : List HOp) : List Nat :=
  ops.foldl (fun hs op => match op with | .add h => hs ++ [h] | .remove h => hs.erase h | .event _ => hs) []

theorem hrun_snoc (ops : List HOp) (op : HOp) : hrun (ops ++ [op]) = hstep (hrun ops) op := by
  simp [hrun, List.foldl_append]

theorem registered_snoc (ops : List HOp) (op : HOp) :
    registered (ops ++ [op]) = match op with | .add h => registered ops ++ [h] | .remove h => (registered ops).erase h | .event _ => registered ops := by
  simp [registered, List.foldl_append]

theorem reverse_ind {α : Type} {P : List α → Prop} (h0 : P []) (h1 : ∀ l a, P l → P (l ++ [a])) (l : List α) : P l := by
  rw [← List.reverse_reverse l]
  induction l.reverse with
  | nil => exact h0
  | cons a l ih => rw [List.reverse_cons]; exact h1 _ _ ih

theorem hrun_handlers (ops : List HOp) : (hrun ops).1 = registered ops := by
  induction ops using reverse_ind with
  | h0 => rfl
  | h1 ops op ih =>
    rw [hrun_snoc, registered_snoc]
    cases op <;> simp [hstep, ih]

/-- C35: an event is delivered to the line store and then to the handlers registered at that moment, in the order of registration;
operations on the list deliver nothing, and earlier deliveries stay. -/
theorem C35_delivery (ops : List HOp) :
    (∀ e, (hrun (ops ++ [.event e])).2 = (hrun ops).2 ++ (Recv.store, e) :: (registered ops).map fun h => (Recv.handler h, e)) ∧
    (∀ h, (hrun (ops ++ [.add h])).2 = (hrun ops).2) ∧ (∀ h, (hrun (ops ++ [.remove h])).2 = (hrun ops).2) := by
  refine ⟨fun e => ?_, fun h => ?_, fun h => ?_⟩
  · rw [hrun_snoc, hstep, hrun_handlers]
  · rw [hrun_snoc, hstep]
  · rw [hrun_snoc, hstep]

/-- how often `h` is registered: additions minus effective removals -/
def regCount (h : Nat) (ops : List HOp) : Nat :=
  ops.foldl (fun n op => match op with
    | .add h' => if h' = h then n + 1 else n
    | .remove h' => if h' = h then n - 1 else n
    | .event _ => n) 0

/-- C35: a handler hears an event once per registration in force: adding it counts one more, removing one less (never below none),
and other handlers' registrations do not matter. -/
theorem C35_once_per_registration (ops : List HOp) (e : Event) (h : Nat) :
    ((hrun (ops ++ [.event e])).2.drop (hrun ops).2.length).count (Recv.handler h, e) = regCount h ops := by
  have hc : ∀ ops : List HOp, (registered ops).count h = regCount h ops := by
    intro ops
    induction ops using reverse_ind with
    | h0 => rfl
    | h1 ops op ih =>
      rw [registered_snoc]
      unfold regCount at ih ⊢
      rw [List.foldl_append]
      cases op with
      | add h' =>
        simp only [List.foldl_cons, List.foldl_nil, List.count_append, ih, List.count_cons, List.count_nil]
        by_cases hh : h' = h <;> simp [hh]
      | remove h' =>
        simp only [List.foldl_cons, List.foldl_nil, List.count_erase, ih]
        by_cases hh : h' = h
        · simp [hh]
        · have : ¬ h = h' := fun x => hh x.symm
          simp [hh]
      | event e => simpa using ih
  rw [(C35_delivery ops).1 e, List.drop_left, List.count_cons]
  rw [← hc ops]
  have hmap : ∀ l : List Nat, (l.map fun h' => (Recv.handler h', e)).count (Recv.handler h, e) = l.count h := by
    intro l
    induction l with
    | nil => rfl
    | cons x l ih =>
      simp only [List.map_cons, List.count_cons, ih]
      by_cases hx : x = h <;> simp [hx]
  rw [hmap]
  simp

/-- C35: removing a handler takes away its first registration and keeps the order of the rest. -/
theorem C35_remove_first (ops : List HOp) (h : Nat) :
    (h ∉ registered ops → registered (ops ++ [.remove h]) = registered ops) ∧
    (∀ a b, registered ops = a ++ h :: b → h ∉ a → registered (ops ++ [.remove h]) = a ++ b) := by
  refine ⟨fun hn => ?_, fun a b he hn => ?_⟩
  · rw [registered_snoc]; exact List.erase_of_not_mem hn
  · rw [registered_snoc]
    simp only [he]
    rw [List.erase_append_right _ hn]
    simp

example : (hrun [.add 1, .add 2, .add 1, .remove 1, .event ⟨0, [5]⟩]).2 =
    [(.store, ⟨0, [5]⟩), (.handler 2, ⟨0, [5]⟩), (.handler 1, ⟨0, [5]⟩)] := by decide

/-! ## C50: the sample for type detection -/

/-- the first `m` lines, each with a line feed -/
def fullLines (line : Nat → Option (List Nat)) (m : Nat) : List Nat :=
  (List.range m).flatMap fun i => ((line i).getD []) ++ [10]

/-- the number of characters of the first `m` lines -/
def charsOf (line : Nat → Option (List Nat)) (m : Nat) : Nat := ((List.range m).map fun i => ((line i).getD []).length).sum

/-- the sample is either all of the first `K` lines (or fewer, if the text is shorter), or it is cut so that it has exactly `chooseLen`
characters besides the line feeds -/
def IsSample (line : Nat → Option (List Nat)) (K : Nat) (chooseLen : Int) (s : List Nat) : Prop :=
  (∃ m, m ≤ K ∧ (∀ i, i < m → line i ≠ none) ∧ (m = K ∨ line m = none) ∧ (m ≠ 0 → (charsOf line m : Int) < chooseLen) ∧
    s = fullLines line m) ∨
  (∃ m l, m < K ∧ (∀ i, i < m → line i ≠ none) ∧ line m = some l ∧ (m ≠ 0 → (charsOf line m : Int) < chooseLen) ∧
    chooseLen - charsOf line m ≤ l.length ∧ s = fullLines line m ++ l.take (chooseLen - charsOf line m).toNat ++ [10])

theorem fullLines_succ (line : Nat → Option (List Nat)) (m : Nat) (l : List Nat) (h : line m = some l) :
    fullLines line (m + 1) = fullLines line m ++ l ++ [10] := by
  simp [fullLines, List.range_succ, h]

theorem charsOf_succ (line : Nat → Option (List Nat)) (m : Nat) (l : List Nat) (h : line m = some l) :
    charsOf line (m + 1) = charsOf line m + l.length := by
  simp [charsOf, List.range_succ, h]

theorem sampleLoop_spec (line : Nat → Option (List Nat)) (chooseLen : Int) (k : Nat) : ∀ i, (∀ j, j < i → line j ≠ none) →
    (i ≠ 0 → (charsOf line i : Int) < chooseLen) →
    IsSample line (i + k) chooseLen (sampleLoop line chooseLen k i (charsOf line i) (fullLines line i)) := by
  induction k with
  | zero =>
    intro i h1 h2
    exact Or.inl ⟨i, by omega, h1, Or.inl rfl, h2, rfl⟩
  | succ k ih =>
    intro i h1 h2
    rw [sampleLoop]
    cases hl : line i with
    | none => exact Or.inl ⟨i, by omega, h1, Or.inr hl, h2, rfl⟩
    | some l =>
      simp only
      by_cases hc : chooseLen - (charsOf line i : Int) > (l.length : Int)
      · rw [if_pos hc, if_neg (by omega)]
        have := ih (i + 1) (by
          intro j hj
          by_cases he : j = i
          · subst he; rw [hl]; simp
          · exact h1 j (by omega)) (by intro _; rw [charsOf_succ _ _ _ hl]; push_cast; omega)
        rw [charsOf_succ _ _ _ hl, fullLines_succ _ _ _ hl] at this
        rw [show i + (k + 1) = i + 1 + k by omega]
        simp only [Int.toNat_natCast, List.take_length]
        push_cast at this
        exact this
      · rw [if_neg hc, if_pos (by omega)]
        exact Or.inr ⟨i, l, by omega, h1, hl, h2, by omega, rfl⟩

/-- C50: the text shown to type detection. -/
theorem C50_sample (line : Nat → Option (List Nat)) (chooseStr chooseLen : Int) :
    IsSample line chooseStr.toNat chooseLen (sampleLoop line chooseLen chooseStr.toNat 0 0 []) := by
  have := sampleLoop_spec line chooseLen chooseStr.toNat 0 (by intro j hj; omega) (by intro h; exact absurd rfl h)
  rw [Nat.zero_add] at this
  exact this

theorem chooseCh_fixed (line : Nat → Option (List Nat)) (detect : List Nat → Nat) (params : Nat → Option Int × Option Int) (fuel : Nat) :
    ∀ s l t, chooseCh line detect params fuel s l = some t →
      ∃ s' l' sample, IsSample line s'.toNat l' sample ∧ detect sample = t ∧
        (∀ x, (params t).1 = some x → x = s') ∧ (∀ x, (params t).2 = some x → x = l') := by
  induction fuel with
  | zero => intro s l t h; simp [chooseCh] at h
  | succ fuel ih =>
    intro s l t h
    rw [chooseCh] at h
    split at h
    · exact ih _ _ _ h
    · rename_i hc
      simp only [Option.some.injEq] at h
      rw [not_or] at hc
      obtain ⟨h1, h2⟩ := hc
      rw [Decidable.not_not] at h1 h2
      subst h
      refine ⟨s, l, _, C50_sample line s l, rfl, ?_, ?_⟩
      · intro x hx; rw [hx] at h1; exact h1
      · intro x hx; rw [hx] at h2; exact h2

/-- C50 (partial): if detection ends, the type was chosen from a sample of the size that type itself asks for. Missing: it need not
end, see the violation. -/
theorem C50_type_fits_its_sample_partial (line : Nat → Option (List Nat)) (detect : List Nat → Nat)
    (params : Nat → Option Int × Option Int) (default : Option Nat) (fuel : Nat) (t : Nat)
    (h : chooseType line detect params default fuel = some t) :
    ∃ s l sample, IsSample line s.toNat l sample ∧ detect sample = t ∧
      (∀ x, (params t).1 = some x → x = s) ∧ (∀ x, (params t).2 = some x → x = l) :=
  chooseCh_fixed line detect params fuel _ _ t h

/-- C50: if all types that set a parameter agree on it, two rounds are enough. -/
theorem C50_ends_if_types_agree (line : Nat → Option (List Nat)) (detect : List Nat → Nat) (params : Nat → Option Int × Option Int)
    (default : Option Nat) (a b : Int) (h : ∀ t, params t = (some a, some b)) :
    ∃ t, chooseType line detect params default 2 = some t := by
  unfold chooseType
  generalize (((default.map params).bind (·.1)).getD 4) = s
  generalize (((default.map params).bind (·.2)).getD 800) = l
  rw [chooseCh]
  simp only [h, Option.getD_some]
  split
  · rw [chooseCh]
    simp only [h, Option.getD_some]
    rw [if_neg (by omega)]
    exact ⟨_, rfl⟩
  · exact ⟨_, rfl⟩

/-- C50, false: two types that ask for samples of different size, each chosen on the other's sample: detection recurses forever. -/
theorem C50_violated_endless (fuel : Nat) :
    chooseType (fun _ => some [97]) (fun s => if s.length = 4 then 1 else 2) (fun t => (some (if t = 1 then 1 else 2), none)) (some 2) fuel = none := by
  unfold chooseType
  have key : ∀ fuel, (chooseCh (fun _ => some [97]) (fun s => if s.length = 4 then 1 else 2) (fun t => (some (if t = 1 then 1 else 2), none)) fuel 2 800 = none ∧
      chooseCh (fun _ => some [97]) (fun s => if s.length = 4 then 1 else 2) (fun t => (some (if t = 1 then 1 else 2), none)) fuel 1 800 = none) := by
    intro fuel
    induction fuel with
    | zero => exact ⟨rfl, rfl⟩
    | succ fuel ih =>
      constructor
      · rw [chooseCh]
        simp [sampleLoop]
        exact ih.2
      · rw [chooseCh]
        simp [sampleLoop]
        exact ih.1
  exact (key fuel).1

example : chooseType (fun i => if i < 3 then some [97, 98] else none) (fun s => s.length) (fun t => if t = 9 then (some 2, none) else (none, none))
    none 3 = some 6 := by decide

end Verif.Editor
