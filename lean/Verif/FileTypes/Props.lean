import Verif.FileTypes.Spec
/-! Theorems about file types. -/
namespace Verif.FileTypes

/-! ## C20: parameters -/

theorem find_update (P : Params) (n m : Nat) (f : Param → Param) :
    find (update P n f) m = if m = n then (find P m).map f else find P m := by
  induction P with
  | nil => simp [update, find]
  | cons a r ih =>
    obtain ⟨k, p⟩ := a
    simp only [update]
    by_cases hk : k = n
    · rw [if_pos hk]
      by_cases hm : m = n
      · subst hm; subst hk; simp [find]
      · have : ¬ k = m := fun e => hm (by rw [← e, hk])
        simp [find, this, hm]
    · rw [if_neg hk]
      by_cases hm : k = m
      · subst hm; simp [find, hk]
      · have h1 : find ((k, p) :: update r n f) m = find (update r n f) m := by simp [find, hm]
        have h2 : find ((k, p) :: r) m = find r m := by simp [find, hm]
        rw [h1, h2, ih]

theorem find_append (P : Params) (n : Nat) (p : Param) (m : Nat) (h : find P n = none) :
    find (P ++ [(n, p)]) m = if m = n then some p else find P m := by
  induction P with
  | nil => by_cases hm : m = n <;> simp [find, hm, eq_comm]
  | cons a r ih =>
    obtain ⟨k, q⟩ := a
    by_cases hk : k = n
    · subst hk; simp [find] at h
    · have h' : find r n = none := by simpa [find, hk] using h
      by_cases hm : k = m
      · subst hm; simp [find, hk]
      · have h1 : find (((k, q) :: r) ++ [(n, p)]) m = find (r ++ [(n, p)]) m := by simp [find, hm]
        have h2 : find ((k, q) :: r) m = find r m := by simp [find, hm]
        rw [h1, h2, ih h']

/-- the model's view of a parameter -/
def toView (p : Option Param) : View := p.map fun p => (p.value, p.user, p.descr)

theorem toView_isSome (p : Option Param) : (toView p).isSome = p.isSome := by cases p <;> rfl

theorem step_view (P : Params) (o : POp) (n : Nat) :
    toView (find ((pstep P o).getD P) n) = viewStep n (toView (find P n)) o := by
  cases o with
  | add m v =>
    simp only [pstep, Option.getD_some, addParam, viewStep]
    by_cases hs : (find P m).isSome = true
    · rw [if_pos hs]
      by_cases hm : m = n
      · subst hm; rw [if_pos rfl]
        cases hf : find P m with
        | none => rw [hf] at hs; cases hs
        | some p => rfl
      · rw [if_neg hm]
    · rw [if_neg hs]
      have hn : find P m = none := by simpa using hs
      rw [find_append _ _ _ _ hn]
      by_cases hm : n = m
      · subst hm; simp [hn, toView]
      · have : ¬ m = n := fun e => hm e.symm
        simp [hm, this]
  | setUser m v =>
    simp only [pstep, viewStep]
    by_cases hs : (find P m).isSome = true
    · rw [if_pos hs, Option.getD_some, find_update]
      by_cases hm : n = m
      · subst hm; rw [if_pos rfl, if_pos rfl]; cases find P n <;> rfl
      · have : ¬ m = n := fun e => hm e.symm
        rw [if_neg hm, if_neg this]
    · rw [if_neg hs]
      have hn : find P m = none := by simpa using hs
      by_cases hm : m = n
      · subst hm; simp [hn, toView]
      · simp [hm]
  | setDefault m v =>
    cases v with
    | none => rfl
    | some v =>
      simp only [pstep, viewStep]
      by_cases hs : (find P m).isSome = true
      · rw [if_pos hs, Option.getD_some, find_update]
        by_cases hm : n = m
        · subst hm; rw [if_pos rfl, if_pos rfl]; cases find P n <;> rfl
        · have : ¬ m = n := fun e => hm e.symm
          rw [if_neg hm, if_neg this]
      · rw [if_neg hs]
        have hn : find P m = none := by simpa using hs
        by_cases hm : m = n
        · subst hm; simp [hn, toView]
        · simp [hm]
  | setDescr m v =>
    simp only [pstep, viewStep]
    by_cases hs : (find P m).isSome = true
    · rw [if_pos hs, Option.getD_some, find_update]
      by_cases hm : n = m
      · subst hm; rw [if_pos rfl, if_pos rfl]; cases find P n <;> rfl
      · have : ¬ m = n := fun e => hm e.symm
        rw [if_neg hm, if_neg this]
    · rw [if_neg hs]
      have hn : find P m = none := by simpa using hs
      by_cases hm : m = n
      · subst hm; simp [hn, toView]
      · simp [hm]

theorem run_view (ops : List POp) (P : Params) (n : Nat) :
    toView (find (prun P ops) n) = ops.foldl (viewStep n) (toView (find P n)) := by
  induction ops generalizing P with
  | nil => rfl
  | cons o r ih => simp only [prun, List.foldl_cons]; rw [ih, step_view]

/-- C20. After any history of calls, every query about a parameter gives what its own history says: the value is the user
value if one is set and else the default, unknown parameters have none of the three; calls for other parameters (and calls
that throw) have no effect. -/
theorem C20_parameters (ops : List POp) (n : Nat) :
    getDefault (prun [] ops) n = (viewOf n ops).map (·.1) ∧
    getUser (prun [] ops) n = (viewOf n ops).bind (·.2.1) ∧
    getDescr (prun [] ops) n = (viewOf n ops).bind (·.2.2) ∧
    getValue (prun [] ops) n = (viewOf n ops).map (fun v => v.2.1.getD v.1) := by
  have h := run_view ops [] n
  have h0 : toView (find [] n) = none := rfl
  rw [h0] at h
  unfold viewOf
  rw [← h]
  unfold getDefault getUser getDescr getValue toView
  cases find (prun [] ops) n with
  | none => exact ⟨rfl, rfl, rfl, rfl⟩
  | some p => refine ⟨rfl, rfl, rfl, ?_⟩; cases hu : p.user <;> simp [hu]

/-- C20. A setter throws exactly for an unknown parameter (or a null default) and then changes nothing. -/
theorem C20_throws (ops : List POp) (n : Nat) (v : Option Nat) :
    (pstep (prun [] ops) (.setUser n v) = none ↔ getDefault (prun [] ops) n = none) ∧
    (pstep (prun [] ops) (.setDescr n v) = none ↔ getDefault (prun [] ops) n = none) ∧
    (pstep (prun [] ops) (.setDefault n v) = none ↔ v = none ∨ getDefault (prun [] ops) n = none) := by
  unfold getDefault
  refine ⟨?_, ?_, ?_⟩
  · simp only [pstep]; cases find (prun [] ops) n <;> simp
  · simp only [pstep]; cases find (prun [] ops) n <;> simp
  · cases v <;> simp only [pstep] <;> cases find (prun [] ops) n <;> simp

/-- C20. Resetting the user value brings the default back, whatever was set before. -/
theorem C20_reset (ops : List POp) (n : Nat) :
    getValue (prun [] (ops ++ [.setUser n none])) n = getDefault (prun [] ops) n := by
  rw [(C20_parameters (ops ++ [POp.setUser n none]) n).2.2.2, (C20_parameters ops n).1]
  unfold viewOf
  rw [List.foldl_append]
  simp only [List.foldl_cons, List.foldl_nil, viewStep, if_true]
  cases ops.foldl (viewStep n) none <;> rfl

theorem prun_append (P : Params) (a b : List POp) : prun P (a ++ b) = prun (prun P a) b := by
  induction a generalizing P with
  | nil => rfl
  | cons o r ih => exact ih _

theorem enum_update (P : Params) (n : Nat) (f : Param → Param) : enumParams (update P n f) = enumParams P := by
  unfold enumParams
  induction P with
  | nil => rfl
  | cons a r ih =>
    obtain ⟨k, p⟩ := a
    simp only [update]
    split <;> simp [ih]

/-- C20. The listing contains every known parameter exactly once. -/
theorem C20_listing (ops : List POp) :
    (enumParams (prun [] ops)).Nodup ∧ ∀ n, n ∈ enumParams (prun [] ops) ↔ viewOf n ops ≠ none := by
  have hmem : ∀ (P : Params) (n : Nat), n ∈ enumParams P ↔ find P n ≠ none := by
    intro P n
    unfold enumParams find
    induction P with
    | nil => simp
    | cons a r ih =>
      obtain ⟨k, p⟩ := a
      by_cases hk : k = n
      · simp [hk]
      · have hk' : ¬ n = k := fun e => hk e.symm
        simp only [List.map_cons, List.mem_cons, hk', false_or, List.find?_cons, hk, decide_false]
        exact ih
  constructor
  · have : ∀ (ops : List POp) (P : Params), (enumParams P).Nodup → (enumParams (prun P ops)).Nodup := by
      intro ops
      induction ops with
      | nil => intro P h; exact h
      | cons o r ih =>
        intro P h
        apply ih
        cases o with
        | add n v =>
          simp only [pstep, Option.getD_some, addParam]
          split
          · exact h
          · rename_i hs
            have hn : find P n = none := by simpa using hs
            have hnot : n ∉ enumParams P := fun hh => (hmem P n).1 hh hn
            unfold enumParams at *
            rw [List.map_append, List.nodup_append]
            refine ⟨h, by simp, ?_⟩
            intro a ha b hb e
            simp only [List.map_cons, List.map_nil, List.mem_singleton] at hb
            subst e; subst hb
            exact hnot ha
        | setUser n v => simp only [pstep]; split <;> simp [enum_update, h]
        | setDefault n v =>
          cases v with
          | none => simp [pstep, h]
          | some v => simp only [pstep]; split <;> simp [enum_update, h]
        | setDescr n v => simp only [pstep]; split <;> simp [enum_update, h]
    exact this ops [] (by simp [enumParams])
  · intro n
    rw [hmem]
    have h := run_view ops [] n
    have h0 : toView (find [] n) = none := rfl
    rw [h0] at h
    unfold viewOf
    rw [← h]
    cases find (prun [] ops) n <;> simp [toView]

/-- two parameters, one with a user value, a failing call -/
example : getValue (prun [] [.add 1 10, .add 2 20, .setUser 1 (some 11), .setUser 3 (some 9), .add 1 99]) 1 = some 11 ∧
    getValue (prun [] [.add 1 10, .add 2 20, .setUser 1 (some 11), .setUser 3 (some 9), .add 1 99]) 3 = none ∧
    getDefault (prun [] [.add 1 10, .setUser 1 (some 11), .add 1 99]) 1 = some 10 := by decide

/-! ## C21: detection -/

/-- state of the loop after the types before index `i`, when no alternative is requested -/
structure Best (delta : Int) (ps : List Int) (s : Pick) : Prop where
  no    : s.no = 0
  empty : ps = [] → s.best = none
  some_ : ps ≠ [] → ∃ i, s.best = some i ∧ ps[i]? = some s.max ∧
    (∀ (j : Nat) (p : Int), ps[j]? = some p → j < i → p < s.max) ∧ (∀ p ∈ ps, p ≤ s.max + delta)

theorem best_step {delta : Int} (hd : 0 ≤ delta) {ps : List Int} {s : Pick} (h : Best delta ps s) (p : Int) :
    Best delta (ps ++ [p]) (pickStep delta s ps.length p) := by
  have hn : pickNext delta s ps.length p = s := by
    unfold pickNext; rw [if_neg (by rw [h.no]; omega)]
  unfold pickStep
  rw [hn]
  unfold pickBest
  by_cases he : ps = []
  · have hb := h.empty he
    rw [if_pos (Or.inr hb)]
    subst he
    refine ⟨h.no, by simp, fun _ => ⟨0, by simp, by simp, ?_, ?_⟩⟩
    · intro j p _ hj; omega
    · intro q hq; simp at hq; subst hq; show q ≤ q + delta; omega
  · obtain ⟨i, h1, h2, h3, h4⟩ := h.some_ he
    by_cases hc : p - s.max > delta
    · rw [if_pos (Or.inl hc)]
      refine ⟨h.no, by simp, fun _ => ⟨ps.length, rfl, by simp, ?_, ?_⟩⟩
      · intro j q hj hlt
        rw [List.getElem?_append_left hlt] at hj
        have := h4 q (List.mem_of_getElem? hj)
        show q < p
        omega
      · intro q hq
        show q ≤ p + delta
        rcases List.mem_append.1 hq with hq | hq
        · have := h4 q hq; omega
        · simp at hq; omega
    · rw [if_neg (by rw [h1]; simp; omega)]
      have hi : i < ps.length := (List.getElem?_eq_some_iff.1 h2).1
      refine ⟨h.no, by simp, fun _ => ⟨i, h1, by rw [List.getElem?_append_left hi]; exact h2, ?_, ?_⟩⟩
      · intro j q hj hlt
        rw [List.getElem?_append_left (by omega)] at hj
        exact h3 j q hj hlt
      · intro q hq
        rcases List.mem_append.1 hq with hq | hq
        · exact h4 q hq
        · simp at hq; omega

theorem best_loop {delta : Int} (hd : 0 ≤ delta) (r : List Int) : ∀ (ps : List Int) (s : Pick), Best delta ps s →
    Best delta (ps ++ r) (pickLoop delta s ps.length r) := by
  induction r with
  | nil => intro ps s h; simpa [pickLoop] using h
  | cons p r ih =>
    intro ps s h
    have h1 := best_step hd h p
    have := ih (ps ++ [p]) _ h1
    simpa [pickLoop, List.append_assoc] using this

/-- C21. With at least one registered type, detection returns a type: every earlier type scores strictly less, and no type
scores more by more than the tolerance. -/
theorem C21_choice (delta : Int) (hd : 0 ≤ delta) (ps : List Int) (hne : ps ≠ []) :
    ∃ (i : Nat) (m : Int), choose delta ps 0 = some i ∧ ps[i]? = some m ∧
      (∀ (j : Nat) (p : Int), ps[j]? = some p → j < i → p < m) ∧ (∀ p ∈ ps, p ≤ m + delta) := by
  have h := best_loop hd ps [] ⟨none, 0, 0⟩ ⟨rfl, by simp, by simp⟩
  simp only [List.nil_append, List.length_nil] at h
  obtain ⟨i, h1, h2, h3, h4⟩ := h.some_ hne
  exact ⟨i, _, by unfold choose; simp only [h.no]; simpa using h1, h2, h3, h4⟩

/-- C21. When scores that differ do so by more than the tolerance, the result is the first type with the highest score. -/
theorem C21_first_maximum (delta : Int) (hd : 0 ≤ delta) (ps : List Int) (hne : ps ≠ [])
    (hsep : ∀ p ∈ ps, ∀ q ∈ ps, p < q → p + delta < q) :
    ∃ (i : Nat) (m : Int), choose delta ps 0 = some i ∧ ps[i]? = some m ∧
      (∀ (j : Nat) (p : Int), ps[j]? = some p → j < i → p < m) ∧ (∀ p ∈ ps, p ≤ m) := by
  obtain ⟨i, m, h1, h2, h3, h4⟩ := C21_choice delta hd ps hne
  refine ⟨i, m, h1, h2, h3, ?_⟩
  intro p hp
  have hm := List.mem_of_getElem? h2
  have := h4 p hp
  rcases Int.lt_or_le m p with hlt | hle
  · have := hsep m hm p hp hlt; omega
  · exact hle

/-- C21. Without registered types there is no result. -/
theorem C21_none (delta : Int) (n : Nat) : choose delta [] n = none := by
  unfold choose; cases n <;> simp [pickLoop]

/-- C21. A type's score is the sum of the weights of its matching rules; rules on a missing input count nothing. -/
theorem C21_score (cs : List Chooser) (fn ct : Option Nat) :
    getPriority cs fn ct =
      ((cs.filter fun c => match (if c.isFileName then fn else ct) with
        | some s => c.re s
        | none => false).map (·.prio)).sum := by
  have : ∀ (cs : List Chooser) (a : Int), cs.foldl (fun acc c => if c.isFileName then acc + c.calc fn else acc + c.calc ct) a =
      a + ((cs.filter fun c => match (if c.isFileName then fn else ct) with
        | some s => c.re s
        | none => false).map (·.prio)).sum := by
    intro cs
    induction cs with
    | nil => intro a; simp
    | cons c r ih =>
      intro a
      simp only [List.foldl_cons]
      rw [ih]
      cases hfn : c.isFileName with
      | true =>
        cases fn with
        | none => simp [Chooser.calc, hfn]
        | some s => cases hr : c.re s <;> simp [Chooser.calc, hfn, hr] <;> omega
      | false =>
        cases ct with
        | none => simp [Chooser.calc, hfn]
        | some s => cases hr : c.re s <;> simp [Chooser.calc, hfn, hr] <;> omega
  unfold getPriority
  rw [this]; simp

/-- C21, the full claim is false in two ways: (1) when no type scores, the first registered type is returned; -/
theorem C21_violated_no_score : choose 1 [0, 0, 0] 0 = some 0 := by decide

/-- (2) asking for the second candidate can return a type that does not score at all (types 0 and 2 score 3000, type 1
nothing; `typeNo` 1 returns type 1). -/
theorem C21_violated_typeNo : choose 1 [3000, 0, 3000] 0 = some 0 ∧ choose 1 [3000, 0, 3000] 1 = some 1 := by decide

theorem typeNo_loop {delta s : Int} (hd : 0 < delta) (k : Nat) : ∀ (n i : Nat) (b : Nat),
    pickLoop delta ⟨some b, s, k⟩ i (List.replicate n s) =
      ⟨some (if n = 0 ∨ k = 0 then b else if n ≤ k then i + n - 1 else i + k - 1), s, k - n⟩ := by
  induction k with
  | zero =>
    intro n
    induction n with
    | zero => intro i b; simp [pickLoop]
    | succ n ih =>
      intro i b
      simp only [List.replicate_succ, pickLoop]
      have : pickStep delta ⟨some b, s, 0⟩ i s = ⟨some b, s, 0⟩ := by
        unfold pickStep pickBest pickNext; simp; omega
      rw [this, ih]; simp
  | succ k ih =>
    intro n i b
    cases n with
    | zero => simp [pickLoop]
    | succ n =>
      simp only [List.replicate_succ, pickLoop]
      have : pickStep delta ⟨some b, s, k + 1⟩ i s = ⟨some i, s, k⟩ := by
        have h1 : pickNext delta ⟨some b, s, k + 1⟩ i s = ⟨some i, s, k⟩ := by
          unfold pickNext
          rw [if_pos (show 0 < k + 1 ∧ s - s < delta by omega)]
          rfl
        unfold pickStep
        rw [h1]
        unfold pickBest
        rw [if_neg (by simp; omega)]
      rw [this, ih]
      congr 1
      · congr 1
        split <;> split <;> (try split) <;> (try split) <;> omega
      · omega

/-- C21 partial: when all types have the same positive score, `typeNo` counts them (0 is the first), and a number that is
too big gives nothing. The general claim (skipping the types that score less) fails, see `C21_violated_typeNo`. -/
theorem C21_typeNo_partial (delta s : Int) (hd : 0 < delta) (hs : delta < s) (n k : Nat) (hn : 0 < n) :
    choose delta (List.replicate n s) k = if k < n then some k else none := by
  obtain ⟨n, rfl⟩ : ∃ m, n = m + 1 := ⟨n - 1, by omega⟩
  unfold choose
  simp only [List.replicate_succ, pickLoop]
  have : pickStep delta ⟨none, 0, k⟩ 0 s = ⟨some 0, s, k⟩ := by
    have h1 : pickNext delta ⟨none, 0, k⟩ 0 s = ⟨none, 0, k⟩ := by
      unfold pickNext; rw [if_neg (show ¬ (0 < k ∧ s - 0 < delta) by omega)]
    unfold pickStep
    rw [h1]
    simp [pickBest]
  rw [this, typeNo_loop hd]
  simp only
  by_cases hk : k < n + 1
  · rw [if_pos hk, if_neg (by omega)]
    by_cases h0 : n = 0 ∨ k = 0
    · rw [if_pos h0]; congr 1; omega
    · rw [if_neg h0]; congr 1; split <;> omega
  · rw [if_neg hk, if_pos (by omega)]

example : choose 1 [1000, 3000, 2000, 3000] 0 = some 1 := by decide

/-! ## C45: detection from the text -/

/-- number of characters of the first lines -/
def chars (ls : List (List Nat)) : Nat := (ls.map List.length).sum

/-- C45. What detection is given: either the first `k` lines (or all there are), whole and each followed by a newline, having
fewer than `chooseLen` characters; or the lines up to the one at which `chooseLen` is reached, that one cut off there. -/
theorem C45_gathered_text (chooseLen k : Nat) (lines : List (List Nat)) :
    (gather chooseLen k 0 lines = ((lines.take k).map (· ++ [10])).flatten ∧ (chars (lines.take k) < chooseLen ∨ k = 0 ∨ lines = [])) ∨
    (∃ m l, m < k ∧ lines[m]? = some l ∧ chars (lines.take m) ≤ chooseLen ∧ chooseLen ≤ chars (lines.take (m + 1)) ∧
      gather chooseLen k 0 lines =
        ((lines.take m).map (· ++ [10])).flatten ++ l.take (chooseLen - chars (lines.take m)) ++ [10]) := by
  have : ∀ (k total : Nat) (lines : List (List Nat)), total ≤ chooseLen → 
    (gather chooseLen k total lines = ((lines.take k).map (· ++ [10])).flatten ∧ (total + chars (lines.take k) < chooseLen ∨ k = 0 ∨ lines = [])) ∨
    (∃ m l, m < k ∧ lines[m]? = some l ∧ total + chars (lines.take m) ≤ chooseLen ∧ chooseLen ≤ total + chars (lines.take (m + 1)) ∧
      gather chooseLen k total lines =
        ((lines.take m).map (· ++ [10])).flatten ++ l.take (chooseLen - (total + chars (lines.take m))) ++ [10]) := by
    intro k
    induction k with
    | zero => intro total lines _; left; simp [gather]
    | succ k ih =>
      intro total lines ht
      cases lines with
      | nil => left; simp [gather]
      | cons l r =>
        simp only [gather]
        by_cases hc : (chooseLen : Int) - total > l.length
        · simp only [hc, if_true]
          rw [if_neg (by omega)]
          have hcast : (total : Int) + (l.length : Int) = ((total + l.length : Nat) : Int) := by omega
          rw [hcast]
          have hl : l.take (l.length : Int).toNat = l := by simp
          rw [hl]
          rcases ih (total + l.length) r (by omega) with ⟨h1, h2⟩ | ⟨m, l', h1, h2, h3, h4, h5⟩
          · left
            refine ⟨by rw [h1]; simp, Or.inl ?_⟩
            simp only [chars, List.take_succ_cons, List.map_cons, List.sum_cons] at *
            rcases h2 with h2 | h2 | h2
            · omega
            · subst h2; simp; omega
            · subst h2; simp; omega
          · right
            refine ⟨m + 1, l', by omega, by simpa using h2, ?_, ?_, ?_⟩
            · simp only [chars, List.take_succ_cons, List.map_cons, List.sum_cons] at *; omega
            · simp only [chars, List.take_succ_cons, List.map_cons, List.sum_cons] at *; omega
            · rw [h5]
              have : total + l.length + chars (r.take m) = total + chars ((l :: r).take (m + 1)) := by
                simp only [chars, List.take_succ_cons, List.map_cons, List.sum_cons]; omega
              rw [this]
              simp
        · simp only [hc, if_false]
          rw [if_pos (by omega)]
          right
          refine ⟨0, l, by omega, by simp, by simp [chars]; omega, by simp [chars]; omega, ?_⟩
          have : ((chooseLen : Int) - (total : Int)).toNat = chooseLen - (total + chars ([] : List (List Nat))) := by
            simp [chars]
          simp only [List.take_zero, List.map_nil, List.flatten_nil, List.nil_append, List.append_nil, this]
  have h := this k 0 lines (by omega)
  simpa using h

/-- C45. If detection from the text returns a type, that type was detected on the amount of text it asks for itself. -/
theorem C45_consistent (detect : List Nat → Nat) (ask : Nat → Nat × Int → Nat × Int) (lines : List (List Nat)) (fuel : Nat)
    (q : Nat × Int) (t : Nat) (h : chooseCh detect ask lines fuel q = some t) :
    ∃ q', ask t q' = q' ∧ t = detect (gather q'.2 q'.1 0 lines) := by
  induction fuel generalizing q with
  | zero => simp [chooseCh] at h
  | succ fuel ih =>
    simp only [chooseCh] at h
    split at h
    · exact ih _ h
    · rename_i hn
      cases h
      exact ⟨q, by simpa using hn, rfl⟩

/-- C45. If no type asks for another amount of text than type-independent defaults, the first detection decides. -/
theorem C45_immediate (detect : List Nat → Nat) (lines : List (List Nat)) (fuel : Nat) (q : Nat × Int) :
    chooseCh detect (fun _ q => q) lines (fuel + 1) q = some (detect (gather q.2 q.1 0 lines)) := by
  simp [chooseCh]

/-- C45, the full claim is false: detection need not end. Type 0, detected on one line, asks for two lines; type 1, detected on
two lines, asks for one. -/
theorem C45_violated_endless (fuel : Nat) :
    chooseCh (fun t => if t.length ≤ 2 then 0 else 1) (fun t q => if t = 0 then (2, q.2) else (1, q.2)) [[97], [98]] fuel
      (1, 200) = none := by
  have : ∀ fuel, chooseCh (fun t => if t.length ≤ 2 then 0 else 1) (fun t q => if t = 0 then (2, q.2) else (1, q.2))
      [[97], [98]] fuel (1, 200) = none ∧
      chooseCh (fun t => if t.length ≤ 2 then 0 else 1) (fun t q => if t = 0 then (2, q.2) else (1, q.2))
      [[97], [98]] fuel (2, 200) = none := by
    intro fuel
    induction fuel with
    | zero => exact ⟨rfl, rfl⟩
    | succ fuel ih =>
      constructor
      · have hg : gather (200 : Int) 1 0 [[97], [98]] = [97, 10] := by decide
        simp only [chooseCh, hg]
        exact ih.2
      · have hg : gather (200 : Int) 2 0 [[97], [98]] = [97, 10, 98, 10] := by decide
        simp only [chooseCh, hg]
        exact ih.1
  exact (this fuel).1

example : gather 3 5 0 [[97, 98], [99, 100], [101]] = [97, 98, 10, 99, 10] := by decide

/-! ## C40: registration -/

theorem run_append (R : Reg) (a b : List ROp) : R.run (a ++ b) = (R.run a).run b := by
  induction a generalizing R with
  | nil => rfl
  | cons o r ih => exact ih _

/-- invariant relating the registry to the list of registrations -/
structure RInv (R : Reg) (l : List (Nat × Bool)) : Prop where
  hash  : R.hash.map (fun f => (f.name, f.isPackage)) = l
  names : (l.map (·.1)).Nodup
  vec   : R.vec = R.hash.filter (fun f => !f.isPackage)
  uids  : (R.hash.map (·.uid)).Nodup
  fresh : ∀ f ∈ R.hash, f.uid < R.next
  own   : ∀ s ∈ R.schemes, ∃ f ∈ R.hash, f.uid = s.2

theorem eraseP_eq_filter_of_nodup {α β : Type} [DecidableEq β] (f : α → β) (x : β) : ∀ (l : List α), (l.map f).Nodup →
    l.eraseP (fun a => decide (f a = x)) = l.filter (fun a => decide (f a ≠ x)) := by
  intro l
  induction l with
  | nil => intro _; rfl
  | cons a r ih =>
    intro h
    rw [List.map_cons, List.nodup_cons] at h
    by_cases ha : f a = x
    · rw [List.eraseP_cons_of_pos (by simpa using ha), List.filter_cons]
      simp only [ha, ne_eq, not_true, decide_false, Bool.false_eq_true, if_false]
      symm
      rw [List.filter_eq_self]
      intro b hb
      have : f b ≠ x := by
        intro e; apply h.1; rw [ha, ← e]; exact List.mem_map_of_mem hb
      simp [this]
    · rw [List.eraseP_cons_of_neg (by simpa using ha), List.filter_cons]
      simp [ha, ih h.2]

theorem eraseSchemes_eq (uid : Nat) : ∀ (fuel : Nat) (l : List (Nat × Nat)), (l.filter (·.2 = uid)).length ≤ fuel →
    eraseSchemes uid fuel l = l.filter (·.2 ≠ uid) := by
  intro fuel
  induction fuel with
  | zero =>
    intro l h
    have h0 : l.filter (·.2 = uid) = [] := List.eq_nil_of_length_eq_zero (by omega)
    simp only [eraseSchemes]
    symm; rw [List.filter_eq_self]
    intro a ha
    have := List.filter_eq_nil_iff.1 h0 a ha
    simpa using this
  | succ fuel ih =>
    intro l h
    simp only [eraseSchemes]
    cases hf : l.findIdx? (·.2 = uid) with
    | none =>
      simp only
      symm; rw [List.filter_eq_self]
      intro a ha
      have := List.findIdx?_eq_none_iff.1 hf a ha
      simpa using this
    | some i =>
      obtain ⟨hi, hp, hb⟩ := List.findIdx?_eq_some_iff_getElem.1 hf
      simp only
      have hsplit : l = l.take i ++ l[i] :: l.drop (i + 1) := by
        rw [← List.drop_eq_getElem_cons hi, List.take_append_drop]
      have he : l.eraseIdx i = l.take i ++ l.drop (i + 1) := List.eraseIdx_eq_take_drop_succ l i
      have hp' : l[i].2 = uid := by simpa using hp
      rw [ih _ (by
        rw [he]
        conv at h => lhs; rw [hsplit]
        simp only [List.filter_append, List.filter_cons, hp', decide_true, if_true, List.length_append, List.length_cons] at h ⊢
        omega)]
      rw [he]
      conv => rhs; rw [hsplit, List.filter_append, List.filter_cons]
      simp only [hp', ne_eq, not_true, decide_false, Bool.false_eq_true, if_false, List.filter_append]

theorem hash_find {l : List FT} (n : Nat) (hn : (l.map (·.name)).Nodup) {f : FT} (hf : f ∈ l) (he : f.name = n) :
    l.find? (fun g => decide (g.name = n)) = some f := by
  induction l with
  | nil => cases hf
  | cons a r ih =>
    rw [List.map_cons, List.nodup_cons] at hn
    rcases List.mem_cons.1 hf with rfl | hf
    · simp [he]
    · have : a.name ≠ n := by
        intro e; apply hn.1; rw [e, ← he]; exact List.mem_map_of_mem hf
      simp [List.find?_cons, this, ih hn.2 hf]

theorem nodup_names {R : Reg} {l : List (Nat × Bool)} (h : RInv R l) : (R.hash.map (·.name)).Nodup := by
  have := h.names
  rw [← h.hash, List.map_map] at this
  exact this

theorem proto_inv {R : Reg} {l : List (Nat × Bool)} (h : RInv R l) (n : Nat) (p : Bool) :
    RInv (R.addPrototype n p) (l.filter (fun x => x.1 ≠ n) ++ [(n, p)]) := by
  -- after the removal of an older version
  have hmid : ∃ R', R.forget n = R' ∧
      RInv R' (l.filter (fun x => x.1 ≠ n)) ∧ (∀ f ∈ R'.hash, f.name ≠ n) ∧ R'.next = R.next := by
    unfold Reg.forget
    cases hg : R.get n with
    | none =>
      refine ⟨R, rfl, ?_, ?_, rfl⟩
      · have hl : l.filter (fun x => decide (x.1 ≠ n)) = l := by
          rw [List.filter_eq_self]
          intro a ha
          rw [← h.hash] at ha
          obtain ⟨f, hf, rfl⟩ := List.mem_map.1 ha
          have := List.find?_eq_none.1 hg f hf
          simpa using this
        rw [hl]; exact h
      · intro f hf
        have := List.find?_eq_none.1 hg f hf
        simpa using this
    | some old =>
      have hom : old ∈ R.hash := List.mem_of_find?_eq_some hg
      have hon : old.name = n := by simpa using List.find?_some hg
      have hnn := nodup_names h
      have hh : R.hash.eraseP (fun f => decide (f.name = old.name)) = R.hash.filter (fun f => decide (f.name ≠ n)) := by
        rw [hon]; exact eraseP_eq_filter_of_nodup (fun f : FT => f.name) n R.hash hnn
      have huid : ∀ f ∈ R.hash, f.uid = old.uid → f = old := by
        intro f hf he
        have hnd := h.uids
        clear hg hh hnn
        generalize R.hash = hl at hf hom hnd
        clear h
        induction hl with
        | nil => cases hf
        | cons a r ih =>
          rw [List.map_cons, List.nodup_cons] at hnd
          rcases List.mem_cons.1 hf with rfl | hf' <;> rcases List.mem_cons.1 hom with rfl | ho'
          · rfl
          · exact absurd (by rw [he]; exact List.mem_map_of_mem ho') hnd.1
          · exact absurd (by rw [← he]; exact List.mem_map_of_mem hf') hnd.1
          · exact ih hf' ho' hnd.2
      have hv : R.vec.eraseP (fun f => decide (f.uid = old.uid)) =
          (R.hash.filter (fun f => decide (f.name ≠ n))).filter (fun f => !f.isPackage) := by
        have hnd : (R.vec.map (fun f : FT => f.uid)).Nodup := by
          rw [h.vec]
          exact List.Nodup.sublist (List.Sublist.map _ List.filter_sublist) h.uids
        rw [eraseP_eq_filter_of_nodup (fun f : FT => f.uid) old.uid R.vec hnd, h.vec, List.filter_filter, List.filter_filter]
        apply List.filter_congr
        intro f hf
        have : (f.uid ≠ old.uid) ↔ f.name ≠ n := by
          constructor
          · intro hne e
            apply hne
            have := hash_find n hnn hf e
            have h2 := hash_find n hnn hom hon
            rw [this] at h2
            cases h2; rfl
          · intro hne e
            apply hne
            rw [huid f hf e]; exact hon
        simp [this, Bool.and_comm]
      refine ⟨R.unload old, rfl, ?_, ?_, rfl⟩
      · refine ⟨?_, ?_, ?_, ?_, ?_, ?_⟩
        · show (R.hash.eraseP _).map _ = _
          rw [hh, ← h.hash, List.filter_map]
          rfl
        · exact List.Nodup.sublist (List.Sublist.map _ List.filter_sublist) h.names
        · show R.vec.eraseP _ = (R.hash.eraseP _).filter _
          rw [hv, hh]
        · show ((R.hash.eraseP _).map _).Nodup
          exact List.Nodup.sublist (List.Sublist.map _ List.eraseP_sublist) h.uids
        · intro f hf; exact h.fresh f (List.mem_of_mem_eraseP hf)
        · intro s hs
          have hs' : s ∈ eraseSchemes old.uid R.schemes.length R.schemes := hs
          rw [eraseSchemes_eq _ _ _ (List.length_filter_le _ _)] at hs'
          obtain ⟨hs1, hs2⟩ := List.mem_filter.1 hs'
          obtain ⟨f, hf, he⟩ := h.own s hs1
          have hne : s.2 ≠ old.uid := by simpa using hs2
          have hfn : f.name ≠ n := by
            intro e
            have h1 := hash_find n hnn hf e
            have h2 := hash_find n hnn hom hon
            rw [h1] at h2; cases h2
            exact hne he.symm
          refine ⟨f, ?_, he⟩
          show f ∈ R.hash.eraseP _
          rw [hh]
          exact List.mem_filter.2 ⟨hf, by simpa using hfn⟩
      · intro f hf
        have hf' : f ∈ R.hash.eraseP _ := hf
        rw [hh] at hf'
        simpa using (List.mem_filter.1 hf').2
  obtain ⟨R', e, hi, hne, hnext⟩ := hmid
  unfold Reg.addPrototype
  simp only [e]
  refine ⟨?_, ?_, ?_, ?_, ?_, ?_⟩
  · simp [hi.hash]
  · rw [List.map_append, List.nodup_append]
    refine ⟨hi.names, by simp, ?_⟩
    intro a ha b hb e
    simp only [List.map_cons, List.map_nil, List.mem_singleton] at hb
    subst e; subst hb
    obtain ⟨x, hx, hxe⟩ := List.mem_map.1 ha
    have := (List.mem_filter.1 hx).2
    simp at this
    exact this hxe
  · simp only [List.filter_append, hi.vec]
    cases p <;> simp
  · rw [List.map_append, List.nodup_append]
    refine ⟨hi.uids, by simp, ?_⟩
    intro a ha b hb e
    simp only [List.map_cons, List.map_nil, List.mem_singleton] at hb
    subst e; subst hb
    obtain ⟨x, hx, hxe⟩ := List.mem_map.1 ha
    have := hi.fresh x hx
    omega
  · intro f hf
    rcases List.mem_append.1 hf with hf | hf
    · have := hi.fresh f hf; show f.uid < R'.next + 1; omega
    · simp at hf; subst hf; show R'.next < R'.next + 1; omega
  · intro s hs
    obtain ⟨f, hf, he⟩ := hi.own s hs
    exact ⟨f, List.mem_append_left _ hf, he⟩

theorem scheme_inv {R : Reg} {l : List (Nat × Bool)} (h : RInv R l) (s t : Nat) : RInv (R.addScheme s t) l := by
  unfold Reg.addScheme
  cases hg : R.get t with
  | none => exact h
  | some ft =>
    simp only
    split
    · exact h
    · refine ⟨h.hash, h.names, h.vec, h.uids, h.fresh, ?_⟩
      intro x hx
      rcases List.mem_append.1 hx with hx | hx
      · exact h.own x hx
      · simp at hx; subst hx
        exact ⟨ft, List.mem_of_find?_eq_some hg, rfl⟩

theorem run_inv (ops : List ROp) : RInv (Reg.empty.run ops) (registered ops) := by
  have : ∀ (ops : List ROp) (R : Reg) (l : List (Nat × Bool)), RInv R l →
      RInv (R.run ops) (ops.foldl (fun acc o => match o with
        | .proto n p => acc.filter (fun x => x.1 ≠ n) ++ [(n, p)]
        | .scheme _ _ => acc) l) := by
    intro ops
    induction ops with
    | nil => intro R l h; exact h
    | cons o r ih =>
      intro R l h
      cases o with
      | proto n p => exact ih _ _ (proto_inv h n p)
      | scheme s t => exact ih _ _ (scheme_inv h s t)
  exact this ops _ _ ⟨rfl, by simp, rfl, by simp [Reg.empty], by simp [Reg.empty], by simp [Reg.empty]⟩

/-- C40. After any history of registrations the list shown to the user (`enumerateFileTypes`) is: every registered type that
is not a package, once per name, in the order of the latest registration of each name. -/
theorem C40_listing (ops : List ROp) :
    (Reg.empty.run ops).vec.map (·.name) = ((registered ops).filter (fun x => !x.2)).map (·.1) ∧
    ((Reg.empty.run ops).vec.map (·.name)).Nodup := by
  have h := run_inv ops
  have h1 : (Reg.empty.run ops).vec.map (·.name) = ((registered ops).filter (fun x => !x.2)).map (·.1) := by
    rw [h.vec, ← h.hash, List.filter_map, List.map_map]; rfl
  refine ⟨h1, ?_⟩
  rw [h1]
  exact List.Nodup.sublist (List.Sublist.map _ List.filter_sublist) h.names

/-- C40. Lookup by name finds a type exactly if one is registered under that name (packages included), and it is the object
that is listed. -/
theorem C40_lookup (ops : List ROp) (n : Nat) :
    ((Reg.empty.run ops).get n).map (fun f => (f.name, f.isPackage)) = (registered ops).find? (fun x => x.1 = n) ∧
    (∀ f, (Reg.empty.run ops).get n = some f → f.isPackage = false → f ∈ (Reg.empty.run ops).vec) ∧
    (∀ f ∈ (Reg.empty.run ops).vec, (Reg.empty.run ops).get f.name = some f) := by
  have h := run_inv ops
  refine ⟨?_, ?_, ?_⟩
  · rw [← h.hash, List.find?_map]; rfl
  · intro f hf hp
    rw [h.vec]
    exact List.mem_filter.2 ⟨List.mem_of_find?_eq_some hf, by simp [hp]⟩
  · intro f hf
    rw [h.vec] at hf
    exact hash_find f.name (nodup_names h) (List.mem_filter.1 hf).1 rfl

/-- C40. Re-registering a type forgets the schemes of the old version: every registered scheme belongs to a registered type. -/
theorem C40_schemes (ops : List ROp) : ∀ s ∈ (Reg.empty.run ops).schemes, ∃ f ∈ (Reg.empty.run ops).hash, f.uid = s.2 :=
  (run_inv ops).own

example : (Reg.empty.run [.proto 1 false, .proto 2 true, .proto 3 false, .scheme 9 1, .proto 1 false]).vec.map (·.name) = [3, 1] ∧
    (Reg.empty.run [.proto 1 false, .proto 2 true, .proto 3 false, .scheme 9 1, .proto 1 false]).schemes = [] := by decide

/-! ## C46: the catalogue of colour schemes -/

theorem addHrd_find (C : Catalog) (h : Hrd) (cls : Nat) :
    ((addHrd C h).find? (·.1 = cls)).map (·.2) =
      if cls = h.cls then some (((C.find? (·.1 = cls)).map (·.2)).getD [] ++ [h]) else (C.find? (·.1 = cls)).map (·.2) := by
  induction C with
  | nil => by_cases hc : cls = h.cls <;> simp [addHrd, hc, eq_comm]
  | cons a r ih =>
    obtain ⟨c, l⟩ := a
    simp only [addHrd]
    by_cases hc : c = h.cls
    · rw [if_pos hc]
      by_cases h2 : cls = h.cls
      · subst h2; subst hc; simp
      · have : ¬ c = cls := fun e => h2 (by rw [← e, hc])
        simp [this, h2]
    · rw [if_neg hc]
      by_cases h2 : c = cls
      · have : ¬ cls = h.cls := fun e => hc (by rw [h2, e])
        simp [h2, this]
      · simpa [List.find?_cons, h2] using ih

theorem catalog_find (hs : List Hrd) (cls : Nat) :
    enumHrdInstances (hs.foldl addHrd []) cls =
      if (hs.filter (·.cls = cls)) = [] then none else some (hs.filter (·.cls = cls)) := by
  have : ∀ (hs : List Hrd) (C : Catalog), enumHrdInstances (hs.foldl addHrd C) cls =
      if (hs.filter (·.cls = cls)) = [] then enumHrdInstances C cls
      else some ((enumHrdInstances C cls).getD [] ++ hs.filter (·.cls = cls)) := by
    intro hs
    induction hs with
    | nil => intro C; simp
    | cons h r ih =>
      intro C
      simp only [List.foldl_cons]
      rw [ih]
      have ha := addHrd_find C h cls
      unfold enumHrdInstances at *
      rw [ha]
      by_cases hc : cls = h.cls
      · have hc' : h.cls = cls := hc.symm
        simp only [hc, if_true, List.filter_cons, decide_true]
        by_cases he : r.filter (fun x => decide (x.cls = h.cls)) = []
        · simp [he]
        · simp [he, List.append_assoc]
      · have hc' : ¬ h.cls = cls := fun e => hc e.symm
        simp [hc, hc', List.filter_cons]
  have h := this hs []
  rw [h]
  simp [enumHrdInstances]

/-- C46. The classes enumerated are those some colour scheme of the catalogue is declared with, each once (in no particular order: the map of the code is unordered). -/
theorem C46_classes (hs : List Hrd) : (enumHrdClasses (hs.foldl addHrd [])).Nodup ∧ ∀ c, c ∈ enumHrdClasses (hs.foldl addHrd []) ↔ ∃ h ∈ hs, h.cls = c := by
  have one : ∀ (C : Catalog) (h : Hrd) (c : Nat), c ∈ enumHrdClasses (addHrd C h) ↔ c ∈ enumHrdClasses C ∨ h.cls = c := by
    intro C h c
    induction C with
    | nil => simp [addHrd, enumHrdClasses, eq_comm]
    | cons x r ih =>
      obtain ⟨d, l⟩ := x
      unfold addHrd
      by_cases e : d = h.cls
      · rw [if_pos e]
        simp only [enumHrdClasses, List.map_cons, List.mem_cons]
        grind
      · rw [if_neg e]
        simp only [enumHrdClasses, List.map_cons, List.mem_cons] at ih ⊢
        grind
  have nd : ∀ (C : Catalog) (h : Hrd), (enumHrdClasses C).Nodup → (enumHrdClasses (addHrd C h)).Nodup := by
    intro C h
    induction C with
    | nil => intro _; simp [addHrd, enumHrdClasses]
    | cons x r ih =>
      obtain ⟨d, l⟩ := x
      intro hn
      have hn' : d ∉ enumHrdClasses r ∧ (enumHrdClasses r).Nodup := by
        simpa [enumHrdClasses] using hn
      unfold addHrd
      by_cases e : d = h.cls
      · rw [if_pos e]; exact hn
      · rw [if_neg e]
        show (d :: enumHrdClasses (addHrd r h)).Nodup
        rw [List.nodup_cons, one]
        exact ⟨fun hh => hh.elim hn'.1 (fun k => e k.symm), ih hn'.2⟩
  have key : ∀ (hs : List Hrd) (C : Catalog), (enumHrdClasses C).Nodup → (enumHrdClasses (hs.foldl addHrd C)).Nodup ∧
      ∀ c, c ∈ enumHrdClasses (hs.foldl addHrd C) ↔ c ∈ enumHrdClasses C ∨ ∃ h ∈ hs, h.cls = c := by
    intro hs
    induction hs with
    | nil => intro C hC; exact ⟨hC, fun c => by simp⟩
    | cons h hs ih =>
      intro C hC
      obtain ⟨a, b⟩ := ih (addHrd C h) (nd C h hC)
      refine ⟨a, fun c => ?_⟩
      rw [List.foldl_cons, b, one]
      simp only [List.mem_cons, exists_eq_or_imp]
      grind
  obtain ⟨a, b⟩ := key hs [] (by simp [enumHrdClasses])
  exact ⟨a, fun c => by rw [b]; simp [enumHrdClasses]⟩

/-- C46. After reading any catalogue, `getHrdNode` finds the first entry of that class and name, and throws exactly if there
is none; `enumHrdInstances` lists the entries of a known class in catalogue order. -/
theorem C46_catalogue (hs : List Hrd) (cls name : Nat) :
    getHrdNode (hs.foldl addHrd []) cls name = hs.find? (fun h => h.cls = cls ∧ h.name = name) ∧
    (∀ l, enumHrdInstances (hs.foldl addHrd []) cls = some l → l = hs.filter (·.cls = cls)) := by
  have h := catalog_find hs cls
  constructor
  · have h1 : getHrdNode (hs.foldl addHrd []) cls name = (enumHrdInstances (hs.foldl addHrd []) cls).bind (·.find? (·.name = name)) := by
      unfold getHrdNode enumHrdInstances
      cases (hs.foldl addHrd []).find? (·.1 = cls) <;> rfl
    have h2 : (hs.filter (·.cls = cls)).find? (·.name = name) = hs.find? (fun h => decide (h.cls = cls ∧ h.name = name)) := by
      rw [List.find?_filter]
      congr 1
      funext x
      simp
    rw [h1, h]
    split
    · rename_i he
      rw [← h2, he]; rfl
    · exact h2
  · intro l hl
    rw [h] at hl
    split at hl
    · cases hl
    · cases hl; rfl

/-- C46, the full claim is false: listing the colour schemes of a class the catalogue does not have dereferences the end
iterator. -/
theorem C46_violated_unknown_class : enumHrdInstances ([⟨1, 1, 0⟩].foldl addHrd []) 2 = none := by decide

example : getHrdNode ([⟨1, 5, 0⟩, ⟨2, 5, 1⟩, ⟨1, 6, 2⟩, ⟨1, 5, 3⟩].foldl addHrd []) 1 5 = some ⟨1, 5, 0⟩ := by decide

end Verif.FileTypes
