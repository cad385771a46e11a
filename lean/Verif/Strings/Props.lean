import Verif.Strings.Spec
/-! Theorems about strings. -/
namespace Verif.Strings

/-! ## C19: comparison -/

theorem compare_values (a b : Str) : compare a b = -1 ∨ compare a b = 0 ∨ compare a b = 1 := by
  induction a generalizing b with
  | nil => cases b <;> simp [compare]
  | cons x r ih =>
    cases b with
    | nil => simp [compare]
    | cons y t =>
      simp only [compare]
      split
      · simp
      · split
        · simp
        · exact ih t

theorem compare_lt (a b : Str) : compare a b = -1 ↔ Lex a b := by
  induction a generalizing b with
  | nil =>
    cases b with
    | nil => simp only [compare]; constructor <;> intro h <;> cases h
    | cons y t => simp [compare, Lex.nil]
  | cons x r ih =>
    cases b with
    | nil => simp only [compare]; constructor <;> intro h <;> cases h
    | cons y t =>
      simp only [compare]
      split
      · rename_i h
        simp only [true_iff]
        exact .head (by omega)
      · split
        · constructor
          · intro h; cases h
          · intro h
            cases h with
            | head h => omega
            | tail h => omega
        · have : x = y := by omega
          subst this
          rw [ih]
          constructor
          · exact .tail
          · intro h
            cases h with
            | head h => omega
            | tail h => exact h

theorem compare_eq (a b : Str) : compare a b = 0 ↔ a = b := by
  induction a generalizing b with
  | nil => cases b <;> simp [compare]
  | cons x r ih =>
    cases b with
    | nil => simp [compare]
    | cons y t =>
      simp only [compare, List.cons.injEq]
      split
      · simp; omega
      · split
        · simp; omega
        · rw [ih]
          constructor
          · intro h; exact ⟨by omega, h⟩
          · exact fun h => h.2

theorem compare_swap (a b : Str) : compare b a = - compare a b := by
  induction a generalizing b with
  | nil => cases b <;> simp [compare]
  | cons x r ih =>
    cases b with
    | nil => simp [compare]
    | cons y t =>
      simp only [compare]
      by_cases h1 : (y : Int) - x > 0
      · rw [if_pos h1, if_neg (by omega), if_pos (by omega)]
        decide
      · rw [if_neg h1]
        by_cases h2 : (y : Int) - x < 0
        · rw [if_pos h2, if_pos (by omega)]
        · rw [if_neg h2, if_neg (by omega), if_neg (by omega)]
          exact ih t

theorem lex_trans {a b c : Str} (h1 : Lex a b) (h2 : Lex b c) : Lex a c := by
  induction h1 generalizing c with
  | nil => cases h2 <;> exact .nil
  | head h =>
    cases h2 with
    | head h' => exact .head (by omega)
    | tail h' => exact .head h
  | tail h ih =>
    cases h2 with
    | head h' => exact .head h'
    | tail h' => exact .tail (ih h')

/-- C19. `compare` returns -1, 0 or 1; -1 exactly when the first string comes first in lexicographic order of the character
codes, 0 exactly for equal strings, and swapping the arguments swaps the sign. -/
theorem C19_compare (a b : Str) :
    (compare a b = -1 ∨ compare a b = 0 ∨ compare a b = 1) ∧ (compare a b = -1 ↔ Lex a b) ∧
    (compare a b = 0 ↔ a = b) ∧ compare b a = - compare a b :=
  ⟨compare_values a b, compare_lt a b, compare_eq a b, compare_swap a b⟩

/-- C19. `compare` and `operator<` are a total order: transitive, and of two strings exactly one of less, equal, greater. -/
theorem C19_total_order (a b c : Str) :
    (compare a b = -1 → compare b c = -1 → compare a c = -1) ∧ (compare a b = 0 → compare b c = 0 → compare a c = 0) ∧
    (lt a b = true ↔ compare a b = -1) ∧ ((lt a b = true ∨ a = b ∨ lt b a = true) ∧ ¬ (lt a b = true ∧ lt b a = true)) := by
  refine ⟨?_, ?_, by simp [lt], ?_, ?_⟩
  · intro h1 h2
    exact (compare_lt a c).2 (lex_trans ((compare_lt a b).1 h1) ((compare_lt b c).1 h2))
  · intro h1 h2
    rw [compare_eq] at *; rw [h1, h2]
  · simp only [lt, decide_eq_true_eq]
    have hs := compare_swap a b
    rcases compare_values a b with h | h | h
    · exact Or.inl h
    · exact Or.inr (Or.inl ((compare_eq a b).1 h))
    · right; right; rw [hs, h]
  · simp only [lt, decide_eq_true_eq]
    rintro ⟨h1, h2⟩
    have := compare_swap a b
    omega

theorem eq_iff (a b : Str) : eq a b = true ↔ a = b := by
  unfold eq
  split
  · rename_i h
    constructor
    · intro h'; cases h'
    · intro e; exact absurd (by rw [e]) h
  · rename_i h
    have hl : b.length = a.length := by simpa using h
    simp only [List.all_eq_true, List.mem_range, decide_eq_true_eq]
    constructor
    · intro hall
      apply List.ext_getElem?
      intro i
      by_cases hi : i < b.length
      · exact (hall i hi).symm
      · rw [List.getElem?_eq_none (by omega), List.getElem?_eq_none (by omega)]
    · intro e i _; rw [e]

/-- C19. `==` is equality of the texts, `!=` its negation, both agree with `compare`; equal strings have equal hash codes. -/
theorem C19_equality (a b : Str) :
    (eq a b = true ↔ a = b) ∧ ne a b = !eq a b ∧ (eq a b = true ↔ compare a b = 0) ∧
    (eq a b = true → hashCode a = hashCode b) := by
  refine ⟨eq_iff a b, ?_, by rw [eq_iff, compare_eq], fun h => by rw [(eq_iff a b).1 h]⟩
  unfold ne eq
  split
  · rfl
  · rw [Bool.eq_iff_iff]
    simp

/-- C19. The hash of a string is the number its characters write to the base 31, in 64 bits -/
theorem C19_hash_is_a_number_to_the_base_31 (s : Str) : (hashCode s).toNat = (s.foldl (fun h c => 31 * h + c) 0) % 2 ^ 64 := by
  have key : ∀ (l : Str) (u : UInt64) (n : Nat), u.toNat = n % 2 ^ 64 →
      (l.foldl (fun hc c => 31 * hc + UInt64.ofNat c) u).toNat = (l.foldl (fun h c => 31 * h + c) n) % 2 ^ 64 := by
    intro l
    induction l with
    | nil => exact fun u n h => h
    | cons c l ih =>
      intro u n h
      refine ih _ _ ?_
      rw [UInt64.toNat_add, UInt64.toNat_mul, UInt64.toNat_ofNat', h]
      show (31 * (n % 2 ^ 64) % 2 ^ 64 + c % 2 ^ 64) % 2 ^ 64 = (31 * n + c) % 2 ^ 64
      omega
  exact key s 0 0 rfl

/-- C19. Comparing without regard to case is comparing the lower case texts. -/
theorem C19_caseCompare (low : Nat → Nat) (a b : Str) : caseCompare low a b = compare (a.map low) (b.map low) := by
  induction a generalizing b with
  | nil => cases b <;> simp [caseCompare, compare]
  | cons x r ih =>
    cases b with
    | nil => simp [caseCompare, compare]
    | cons y t => simp only [caseCompare, compare, List.map_cons, ih]

theorem ignoreCase_iff (low up : Nat → Nat) (a b : Str) :
    equalsIgnoreCase low up a b = true ↔ a.map low = b.map low ∧ a.map up = b.map up := by
  unfold equalsIgnoreCase
  split
  · rename_i h
    constructor
    · intro h'; cases h'
    · rintro ⟨e, _⟩
      have := congrArg List.length e
      simp at this
      exact absurd this.symm h
  · rename_i h
    have hl : b.length = a.length := by simpa using h
    simp only [List.all_eq_true, List.mem_range, Bool.not_eq_true', Bool.or_eq_false_iff, decide_eq_false_iff_not, ne_eq,
      Decidable.not_not]
    constructor
    · intro hall
      constructor
      · apply List.ext_getElem?
        intro i
        rw [List.getElem?_map, List.getElem?_map]
        by_cases hi : i < b.length
        · exact (hall i hi).1.symm
        · rw [List.getElem?_eq_none (by omega), List.getElem?_eq_none (by omega)]
      · apply List.ext_getElem?
        intro i
        rw [List.getElem?_map, List.getElem?_map]
        by_cases hi : i < b.length
        · exact (hall i hi).2.symm
        · rw [List.getElem?_eq_none (by omega), List.getElem?_eq_none (by omega)]
    · rintro ⟨e1, e2⟩ i _
      have h1 := congrArg (·[i]?) e1
      have h2 := congrArg (·[i]?) e2
      simp only [List.getElem?_map] at h1 h2
      exact ⟨h1.symm, h2.symm⟩

/-- C19. `equalsIgnoreCase` implies that `caseCompare` finds no difference. -/
theorem C19_equalsIgnoreCase (low up : Nat → Nat) (a b : Str) (h : equalsIgnoreCase low up a b = true) :
    caseCompare low a b = 0 := by
  rw [C19_caseCompare, compare_eq]
  exact ((ignoreCase_iff low up a b).1 h).1

/-- The converse fails when two characters share their lower but not their upper case form. -/
theorem C19_violated_case_equality :
    ∃ (low up : Nat → Nat) (a b : Str), caseCompare low a b = 0 ∧ equalsIgnoreCase low up a b = false :=
  ⟨fun _ => 1, fun c => c, [2], [3], by decide, by decide⟩

example : compare [97, 98] [97, 99, 1] = -1 ∧ compare [97, 98, 1] [97, 98] = 1 := by decide

/-! ## C39: searching and replacing -/

theorem matchAt_iff (s p : Str) (i : Nat) (h : i + p.length ≤ s.length) : matchAt s p i = true ↔ p <+: s.drop i := by
  unfold matchAt
  simp only [List.all_eq_true, List.mem_range, decide_eq_true_eq]
  rw [List.prefix_iff_eq_take]
  constructor
  · intro hall
    apply List.ext_getElem?
    intro j
    by_cases hj : j < p.length
    · rw [hall j hj, List.getElem?_take, if_pos hj, List.getElem?_drop]
    · rw [List.getElem?_eq_none (by omega), List.getElem?_take, if_neg hj]
  · intro e j hj
    have := congrArg (·[j]?) e
    simp only [List.getElem?_take, if_pos hj, List.getElem?_drop] at this
    exact this

theorem indexOf_spec (s p : Str) (pos : Nat) :
    (∀ i, indexOf s p pos = some i → pos ≤ i ∧ Occurs p s i ∧ i + p.length ≤ s.length ∧ ∀ j, pos ≤ j → j < i → ¬ Occurs p s j) ∧
    (indexOf s p pos = none → ∀ i, pos ≤ i → ¬ Occurs p s i) := by
  have hocc : ∀ i, Occurs p s i → i + p.length ≤ s.length := by
    intro i h
    have := h.2.length_le
    rw [List.length_drop] at this
    have := h.1
    omega
  unfold indexOf
  by_cases hl : s.length < p.length
  · rw [if_pos hl]
    refine ⟨by simp, fun _ i _ h => ?_⟩
    have := hocc i h
    omega
  · rw [if_neg hl]
    constructor
    · intro i h
      have hmem := List.mem_of_find?_eq_some h
      rw [List.mem_range'_1] at hmem
      have hm := List.find?_some h
      have hi : i + p.length ≤ s.length := by omega
      refine ⟨hmem.1, ⟨by omega, (matchAt_iff s p i hi).1 hm⟩, hi, ?_⟩
      intro j hj hlt ho
      obtain ⟨_, as, bs, hsplit, hall⟩ := List.find?_eq_some_iff_append.1 h
      have hj2 := hocc j ho
      have hjm : j ∈ as := by
        have hjr : j ∈ List.range' pos (s.length - p.length + 1 - pos) := by
          rw [List.mem_range'_1]; omega
        rw [hsplit] at hjr
        rcases List.mem_append.1 hjr with h' | h'
        · exact h'
        · have hs : (List.range' pos (s.length - p.length + 1 - pos)).Pairwise (· < ·) := List.pairwise_lt_range'
          rw [hsplit, List.pairwise_append] at hs
          have hs2 := hs.2.1
          rw [List.pairwise_cons] at hs2
          rcases List.mem_cons.1 h' with rfl | h'
          · omega
          · have := hs2.1 j h'; omega
      have := hall j hjm
      simp only [(matchAt_iff s p j hj2).2 ho.2, Bool.not_true, Bool.false_eq_true] at this
    · intro h i hi ho
      have hi2 := hocc i ho
      have := List.find?_eq_none.1 h i (by rw [List.mem_range'_1]; omega)
      exact this ((matchAt_iff s p i hi2).2 ho.2)

/-- C39. `indexOf(str, pos)` returns the first position from `pos` on at which `str` stands, or nothing if there is none. -/
theorem C39_indexOf (s p : Str) (pos : Nat) :
    (∀ i, indexOf s p pos = some i ↔ pos ≤ i ∧ Occurs p s i ∧ ∀ j, pos ≤ j → j < i → ¬ Occurs p s j) ∧
    (indexOf s p pos = none ↔ ∀ i, pos ≤ i → ¬ Occurs p s i) := by
  obtain ⟨h1, h2⟩ := indexOf_spec s p pos
  constructor
  · intro i
    constructor
    · intro h; obtain ⟨a, b, _, c⟩ := h1 i h; exact ⟨a, b, c⟩
    · rintro ⟨a, b, c⟩
      cases hx : indexOf s p pos with
      | none => exact absurd b (h2 hx i a)
      | some k =>
        obtain ⟨a', b', _, c'⟩ := h1 k hx
        rcases Nat.lt_trichotomy k i with h | h | h
        · exact absurd b' (c k a' h)
        · rw [h]
        · exact absurd b (c' i a h)
  · constructor
    · exact h2
    · intro h
      cases hx : indexOf s p pos with
      | none => rfl
      | some k => obtain ⟨a', b', _⟩ := h1 k hx; exact absurd b' (h k a')

theorem scan_spec (c : Nat) (r : Str) (i : Nat) :
    i ≤ scan c r i ∧ scan c r i ≤ i + r.length ∧ (∀ j, j < scan c r i - i → r[j]? ≠ some c) ∧
    (scan c r i < i + r.length → r[scan c r i - i]? = some c) := by
  induction r generalizing i with
  | nil => simp [scan]
  | cons x r ih =>
    simp only [scan]
    split
    · rename_i hx
      obtain ⟨h1, h2, h3, h4⟩ := ih (i + 1)
      refine ⟨by omega, by simp only [List.length_cons]; omega, ?_, ?_⟩
      · intro j hj
        cases j with
        | zero => simpa using hx
        | succ j => simpa using h3 j (by omega)
      · intro hlt
        simp only [List.length_cons] at hlt
        have := h4 (by omega)
        have he : scan c r (i + 1) - i = (scan c r (i + 1) - (i + 1)) + 1 := by omega
        rw [he]; simpa using this
    · rename_i hx
      simp only [ne_eq, Decidable.not_not] at hx
      refine ⟨by omega, by omega, by intro j hj; omega, by intro _; simp [hx]⟩

/-- C39. `indexOf(c, pos)` for a position inside the string (or at its end) returns the first position of the character from
there on. -/
theorem C39_indexOfChar_partial (s : Str) (c pos : Nat) (hp : pos ≤ s.length) :
    (∀ i, indexOfChar s c pos = some i → pos ≤ i ∧ s[i]? = some c ∧ ∀ j, pos ≤ j → j < i → s[j]? ≠ some c) ∧
    (indexOfChar s c pos = none → ∀ j, pos ≤ j → s[j]? ≠ some c) := by
  unfold indexOfChar
  by_cases hlt : pos < s.length
  · simp only [hlt, if_true]
    obtain ⟨h1, h2, h3, h4⟩ := scan_spec c (s.drop pos) pos
    rw [List.length_drop] at h2 h4
    constructor
    · intro i hi
      split at hi
      · cases hi
      · cases hi
        rename_i hne
        have h5 := h4 (by omega)
        rw [List.getElem?_drop] at h5
        refine ⟨h1, by rw [← h5]; congr 1; omega, ?_⟩
        intro j hj hji
        have := h3 (j - pos) (by omega)
        rw [List.getElem?_drop] at this
        rwa [show pos + (j - pos) = j by omega] at this
    · intro hn j hj
      split at hn
      · rename_i he
        by_cases hjl : j < s.length
        · have := h3 (j - pos) (by omega)
          rw [List.getElem?_drop] at this
          rwa [show pos + (j - pos) = j by omega] at this
        · rw [List.getElem?_eq_none (by omega)]; simp
      · cases hn
  · have : pos = s.length := by omega
    subst this
    simp only [Nat.lt_irrefl, if_false, if_true]
    refine ⟨by simp, fun _ j hj => by rw [List.getElem?_eq_none hj]; simp⟩

/-- C39, the missing part is false: searching a character from a position beyond the end "finds" it there. -/
theorem C39_violated_indexOf_beyond : indexOfChar [97, 98] 97 3 = some 3 := by decide

theorem lastGo_spec (s : Str) (c : Nat) (k : Nat) :
    (∀ i, lastIndexOf.go s c k = some i → i < k ∧ s[i]? = some c ∧ ∀ j, i < j → j < k → s[j]? ≠ some c) ∧
    (lastIndexOf.go s c k = none → ∀ j, j < k → s[j]? ≠ some c) := by
  induction k with
  | zero => simp [lastIndexOf.go]
  | succ k ih =>
    simp only [lastIndexOf.go]
    split
    · rename_i hne
      constructor
      · intro i hi
        obtain ⟨a, b, d⟩ := ih.1 i hi
        refine ⟨by omega, b, ?_⟩
        intro j hj hk
        by_cases e : j = k
        · subst e; exact hne
        · exact d j hj (by omega)
      · intro hn j hj
        by_cases e : j = k
        · subst e; exact hne
        · exact ih.2 hn j (by omega)
    · rename_i he
      simp only [ne_eq, Decidable.not_not] at he
      constructor
      · intro i hi; cases hi; exact ⟨by omega, he, by intro j _ _; omega⟩
      · intro hn; cases hn

/-- C39. `lastIndexOf(c)` returns the last position of the character, or nothing. -/
theorem C39_lastIndexOf (s : Str) (c : Nat) :
    (∀ i, lastIndexOf s c none = some i → s[i]? = some c ∧ ∀ j, i < j → s[j]? ≠ some c) ∧
    (lastIndexOf s c none = none → c ∉ s) := by
  unfold lastIndexOf
  simp only [Option.getD_none, Nat.lt_irrefl, gt_iff_lt, if_false]
  obtain ⟨h1, h2⟩ := lastGo_spec s c s.length
  constructor
  · intro i hi
    obtain ⟨a, b, d⟩ := h1 i hi
    refine ⟨b, fun j hj => ?_⟩
    by_cases hjl : j < s.length
    · exact d j hj hjl
    · rw [List.getElem?_eq_none (by omega)]; simp
  · intro hn hm
    obtain ⟨j, hj, he⟩ := List.mem_iff_getElem.1 hm
    exact h2 hn j hj (by rw [List.getElem?_eq_getElem hj, he])

/-- C39. `startsWith(p, pos)` holds exactly if `p` stands at `pos` (the empty string stands everywhere). -/
theorem C39_startsWith (s p : Str) (pos : Nat) : startsWith s p pos = true ↔ p = [] ∨ Occurs p s pos := by
  unfold startsWith
  simp only [List.all_eq_true, List.mem_range]
  constructor
  · intro h
    by_cases hp : p = []
    · exact Or.inl hp
    · right
      have hpos : 0 < p.length := List.length_pos_iff.2 hp
      have hlast := h (p.length - 1) (by omega)
      split at hlast
      · cases hlast
      · rename_i hl
        have hle : pos + p.length ≤ s.length := by omega
        refine ⟨by omega, (matchAt_iff s p pos hle).1 ?_⟩
        unfold matchAt
        simp only [List.all_eq_true, List.mem_range, decide_eq_true_eq]
        intro j hj
        have := h j hj
        split at this
        · cases this
        · simpa using this
  · rintro (h | h) j hj
    · subst h; simp at hj
    · have hle := h.2.length_le
      rw [List.length_drop] at hle
      rw [if_neg (by omega)]
      have h1 := h.1
      have := (matchAt_iff s p pos (by omega)).2 h.2
      unfold matchAt at this
      simp only [List.all_eq_true, List.mem_range, decide_eq_true_eq] at this
      simpa using this j hj

theorem replaceAll_skip (p new : Str) : ∀ (k : Nat) (r : Str), k ≤ r.length → (∀ j, j < k → ¬ p <+: r.drop j) →
    replaceAll p new r = r.take k ++ replaceAll p new (r.drop k) := by
  intro k
  induction k with
  | zero => intro r _ _; simp
  | succ k ih =>
    intro r hk h
    cases r with
    | nil => simp at hk
    | cons c t =>
      have h0 : ¬ p <+: c :: t := by simpa using h 0 (by omega)
      rw [replaceAll, if_neg (by
        rintro ⟨_, hp⟩
        exact h0 (List.isPrefixOf_iff_prefix.1 hp))]
      simp only [List.length_cons] at hk
      rw [ih t (by omega) (fun j hj => by simpa using h (j + 1) (by omega))]
      simp

theorem replaceLoop_spec (s p new : Str) (hp : p ≠ []) (fuel : Nat) : ∀ (e : Nat) (out : Str), e ≤ s.length →
    s.length - e < fuel → replaceLoop s p new fuel e e out = some (out ++ replaceAll p new (s.drop e)) := by
  have hpos : 0 < p.length := List.length_pos_iff.2 hp
  induction fuel with
  | zero => intro e out _ h; omega
  | succ fuel ih =>
    intro e out he hf
    simp only [replaceLoop]
    obtain ⟨h1, h2⟩ := indexOf_spec s p e
    cases hx : indexOf s p e with
    | none =>
      have hno := h2 hx
      have hskip : replaceAll p new (s.drop e) = s.drop e := by
        have := replaceAll_skip p new (s.drop e).length (s.drop e) (Nat.le_refl _) (by
          intro j hj hpre
          rw [List.length_drop] at hj
          rw [List.drop_drop] at hpre
          exact hno (e + j) (by omega) ⟨by omega, hpre⟩)
        rw [this, List.take_length, List.drop_length]
        simp [replaceAll]
      simp only
      rw [hskip]
      split
      · unfold substr
        rw [if_pos (by omega)]
        simp only [Option.map_some]
        rw [List.take_of_length_le (by simp)]
      · rw [List.drop_eq_nil_of_le (by omega)]; simp
    | some i =>
      obtain ⟨g1, g2, g3, g4⟩ := h1 i hx
      simp only
      unfold substr
      rw [if_pos (by omega)]
      simp only [Option.bind_some]
      rw [ih (i + p.length) _ (by omega) (by omega)]
      rw [replaceAll_skip p new (i - e) (s.drop e) (by rw [List.length_drop]; omega) (by
        intro j hj hpre
        rw [List.drop_drop] at hpre
        exact g4 (e + j) (by omega) (by omega) ⟨by omega, hpre⟩)]
      rw [List.drop_drop, show e + (i - e) = i by omega]
      have hne : s.drop i ≠ [] := by
        intro hnil
        have := congrArg List.length hnil
        rw [List.length_drop, List.length_nil] at this
        omega
      obtain ⟨c, t, hct⟩ := List.exists_cons_of_ne_nil hne
      have hpre := g2.2
      have hdd : s.drop (i + p.length) = (s.drop i).drop p.length := by rw [List.drop_drop]
      rw [hdd, hct] 
      rw [hct] at hpre
      conv => rhs; rw [replaceAll, if_pos ⟨hp, List.isPrefixOf_iff_prefix.2 hpre⟩]
      simp [List.append_assoc]

/-- C39. Replacing a non-empty pattern replaces all its non-overlapping occurrences, left to right, and terminates. -/
theorem C39_findAndReplace (s p new : Str) (hp : p ≠ []) :
    findAndReplace (s.length + 1) s p new = some (replaceAll p new s) := by
  unfold findAndReplace
  rw [replaceLoop_spec s p new hp _ 0 [] (by omega) (by omega)]
  simp

/-- C39, false for the empty pattern: the loop never ends. -/
theorem C39_violated_empty_pattern (s new : Str) (fuel : Nat) : findAndReplace fuel s [] new = none := by
  unfold findAndReplace
  have : ∀ (fuel : Nat) (out : Str), replaceLoop s [] new fuel 0 0 out = none := by
    intro fuel
    induction fuel with
    | zero => intro out; rfl
    | succ fuel ih =>
      intro out
      have hx : indexOf s [] 0 = some 0 := by
        rw [(C39_indexOf s [] 0).1]
        exact ⟨by omega, ⟨by omega, List.nil_prefix⟩, by intro j _ h; omega⟩
      simp only [replaceLoop, hx, substr]
      simpa using ih _
  exact this fuel []

/-! ### trim -/

theorem takeWhile_length_dropWhile (ws : Nat → Bool) (s : Str) : s.drop (s.takeWhile ws).length = s.dropWhile ws := by
  induction s with
  | nil => rfl
  | cons c r ih =>
    rw [List.takeWhile_cons, List.dropWhile_cons]
    cases ws c with
    | true => simpa using ih
    | false => rfl

theorem dropWhile_nil_iff (ws : Nat → Bool) (s : Str) : s.dropWhile ws = [] ↔ ∀ c ∈ s, ws c = true := by
  induction s with
  | nil => simp
  | cons c r ih =>
    rw [List.dropWhile_cons]
    cases hc : ws c with
    | true => simp [ih, hc]
    | false => simp [hc]

/-- C39, `trim` is right whenever at least two characters remain (or none). -/
theorem C39_trim_partial (ws : Nat → Bool) (s : Str) (h : (strip ws s).length ≠ 1) : trim ws s = strip ws s := by
  unfold trim
  simp only
  rw [takeWhile_length_dropWhile]
  by_cases hall : ∀ c ∈ s, ws c = true
  · have h1 : s.dropWhile ws = [] := by
      rw [dropWhile_nil_iff]; exact hall
    unfold strip
    rw [h1]; simp
  · have hd : s.dropWhile ws ≠ [] := by
      intro e; exact hall ((dropWhile_nil_iff _ _).1 e)
    -- the white space at the end is that of the part left
    have hrev : s.reverse.takeWhile ws = (s.dropWhile ws).reverse.takeWhile ws := by
      have hs : s = s.takeWhile ws ++ s.dropWhile ws := List.takeWhile_append_dropWhile.symm
      conv => lhs; rw [hs, List.reverse_append]
      rw [List.takeWhile_append]
      split
      · rename_i hfull
        exfalso
        have hlen := congrArg List.length (List.takeWhile_append_dropWhile (p := ws) (l := (s.dropWhile ws).reverse))
        rw [List.length_append, hfull] at hlen
        have hnil : (s.dropWhile ws).reverse.dropWhile ws = [] := List.eq_nil_of_length_eq_zero (by omega)
        have hmem := (dropWhile_nil_iff _ _).1 hnil
        obtain ⟨c, t, hct⟩ := List.exists_cons_of_ne_nil hd
        have hc : ws c = true := hmem c (by rw [hct]; simp)
        have := List.head_dropWhile_not ws hd
        simp only [hct, List.head_cons] at this
        rw [hc] at this; cases this
      · rfl
    rw [hrev]
    generalize htw : (s.dropWhile ws) = d at *
    have hlen : s.length = (s.takeWhile ws).length + d.length := by
      rw [← htw, ← List.length_append, List.takeWhile_append_dropWhile]
    have hst : strip ws s = d.take (d.length - (d.reverse.takeWhile ws).length) := by
      unfold strip
      rw [htw, ← takeWhile_length_dropWhile, List.reverse_drop, List.reverse_reverse, List.length_reverse]
    have hle : (d.reverse.takeWhile ws).length ≤ d.length := by
      have := (List.takeWhile_sublist ws (l := d.reverse)).length_le
      simpa using this
    rw [hst] at h ⊢
    rw [List.length_take] at h
    generalize (d.reverse.takeWhile ws).length = k at *
    generalize (s.takeWhile ws).length = l at *
    congr 1
    split <;> omega

/-- C39, false otherwise: a string with a single visible character is trimmed to nothing. -/
theorem C39_violated_trim : trim (· == 32) [32, 97, 32] = [] ∧ strip (· == 32) [32, 97, 32] = [97] := by decide

example : trim (· == 32) [32, 97, 32, 98, 32] = [97, 32, 98] ∧
    findAndReplace 9 [97, 97, 97, 98] [97, 97] [120] = some [120, 97, 98] ∧ indexOf [97, 98, 97, 98] [97, 98] 1 = some 2 := by decide

/-! ## C47: building -/

/-- the array is as large as the object believes -/
structure WF (o : Obj) : Prop where
  buf : o.buf.length = o.alloc
  len : o.len ≤ o.alloc

theorem text_length {o : Obj} (h : WF o) : o.text.length = o.len := by
  unfold Obj.text
  rw [List.length_take, h.buf]
  have := h.len
  omega

theorem grow_spec {o : Obj} {size n : Nat} (h : WF o) (h1 : n ≤ o.len) (h2 : n ≤ size) :
    ∃ o', o.grow size n = some o' ∧ o'.buf.length = size ∧ o'.alloc = size ∧ o'.len = o.len ∧ o'.buf.take n = o.text.take n := by
  have hb := h.buf
  have hl := h.len
  refine ⟨{ o with buf := o.buf.take n ++ List.replicate (size - n) 0, alloc := size }, by
    unfold Obj.grow; rw [if_pos ⟨by omega, h2⟩], ?_, rfl, rfl, ?_⟩
  · simp only [List.length_append, List.length_take, List.length_replicate]; omega
  · show (o.buf.take n ++ List.replicate (size - n) 0).take n = _
    unfold Obj.text
    rw [List.take_append_of_le_length (by rw [List.length_take]; omega), List.take_take, List.take_take]
    congr 1
    omega

theorem copyLoop_spec (src : Obj) (base : Nat) : ∀ (n i : Nat) (o : Obj), base ≤ i → i - base + n ≤ src.buf.length →
    i + n ≤ o.buf.length →
    ∃ o', copyLoop src 0 base n i o = some o' ∧ o'.buf.length = o.buf.length ∧ o'.alloc = o.alloc ∧ o'.len = o.len ∧
      o'.buf.take (i + n) = o.buf.take i ++ (src.buf.drop (i - base)).take n := by
  intro n
  induction n with
  | zero => intro i o _ _ _; exact ⟨o, rfl, rfl, rfl, rfl, by simp⟩
  | succ n ih =>
    intro i o hb hs ho
    simp only [copyLoop, Nat.zero_add]
    have hr : i - base < src.buf.length := by omega
    rw [show src.read (i - base) = some src.buf[i - base] from by unfold Obj.read; simp [hr]]
    simp only [Option.bind_some]
    unfold Obj.write
    rw [if_pos (by omega)]
    simp only [Option.bind_some]
    obtain ⟨o', h1, h2, h3, h4, h5⟩ := ih (i + 1) { o with buf := o.buf.set i src.buf[i - base] } (by omega) (by omega)
      (by simp only [List.length_set]; omega)
    refine ⟨o', h1, by rw [h2]; simp, h3, h4, ?_⟩
    rw [show i + (n + 1) = i + 1 + n by omega, h5]
    have e1 : (o.buf.set i src.buf[i - base]).take (i + 1) = o.buf.take i ++ [src.buf[i - base]] := by
      have hi : i < o.buf.length := by omega
      rw [List.take_add_one, List.take_set_of_le (Nat.le_refl i), List.getElem?_set_self hi]
      rfl
    have e2 : (src.buf.drop (i - base)).take (n + 1) = src.buf[i - base] :: (src.buf.drop (i - base + 1)).take n := by
      rw [List.drop_eq_getElem_cons hr, List.take_succ_cons]
    rw [e1, e2, show i + 1 - base = i - base + 1 by omega]
    simp

theorem append_spec {o : Obj} (h : WF o) (s : Str) (m : Option Nat) :
    ∃ o', o.append (Obj.ofStr s) 0 m = some o' ∧ WF o' ∧ o'.text = o.text ++ s.take (m.getD s.length) := by
  unfold Obj.append
  simp only
  have hsl : (Obj.ofStr s).len = s.length := rfl
  rw [hsl]
  generalize hk : min (m.getD s.length) s.length = k
  have hks : s.take (m.getD s.length) = s.take k := by
    rw [← hk, List.take_eq_take_min]
  rw [hks]
  have hkle : k ≤ s.length := by omega
  have hroom : ∃ o1, (if o.alloc < o.len + k then o.grow ((o.len + k) * 2) o.len else some o) = some o1 ∧
      o1.buf.length = o1.alloc ∧ o.len + k ≤ o1.alloc ∧ o1.len = o.len ∧ o1.buf.take o.len = o.text := by
    split
    · obtain ⟨o', h1, h2, h3, h4, h5⟩ := grow_spec (size := (o.len + k) * 2) h (Nat.le_refl o.len) (by omega)
      refine ⟨o', h1, by omega, by omega, h4, ?_⟩
      rw [h5]
      unfold Obj.text
      rw [List.take_take]; simp
    · exact ⟨o, rfl, h.buf, by omega, rfl, rfl⟩
  obtain ⟨o1, e1, hb, hr, hl, ht⟩ := hroom
  rw [e1]
  simp only [Option.bind_some]
  rw [hl, show o.len + k - o.len = k by omega]
  obtain ⟨o2, f1, f2, f3, f4, f5⟩ := copyLoop_spec (Obj.ofStr s) o.len k o.len o1 (Nat.le_refl _)
    (by simp only [Nat.sub_self, Nat.zero_add]; exact hkle) (by omega)
  rw [f1]
  refine ⟨_, rfl, ⟨by show o2.buf.length = o2.alloc; omega, by show o.len + k ≤ o2.alloc; omega⟩, ?_⟩
  show o2.buf.take (o.len + k) = _
  rw [f5, ht]
  simp [Obj.ofStr]

theorem setLength_spec {o : Obj} (h : WF o) (n : Nat) :
    ∃ o', o.setLength n = some o' ∧ WF o' ∧ o'.len = n ∧ o'.text.take (min o.len n) = o.text.take n := by
  unfold Obj.setLength
  have hl := h.len
  split
  · obtain ⟨o', h1, h2, h3, h4, h5⟩ := grow_spec (size := n * 2) (n := min o.len n) h (by omega) (by omega)
    rw [h1]
    refine ⟨_, rfl, ⟨by show o'.buf.length = o'.alloc; omega, by show n ≤ o'.alloc; omega⟩, rfl, ?_⟩
    show (o'.buf.take n).take _ = _
    rw [List.take_take, show min (min o.len n) n = min o.len n by omega, h5]
    rw [List.take_eq_take_min (l := o.text) (i := n), text_length h, Nat.min_comm]
  · refine ⟨_, rfl, ⟨h.buf, by show n ≤ o.alloc; omega⟩, rfl, ?_⟩
    show (o.buf.take n).take _ = (o.buf.take o.len).take n
    rw [List.take_take, List.take_take]
    congr 1
    omega

theorem appendChar_spec {o : Obj} (h : WF o) (c : Nat) :
    ∃ o', o.appendChar c = some o' ∧ WF o' ∧ o'.text = o.text ++ [c] := by
  unfold Obj.appendChar
  obtain ⟨o1, h1, h2, h3, h4⟩ := setLength_spec h (o.len + 1)
  rw [h1]
  simp only [Option.bind_some]
  have hb := h2.buf
  have hl := h2.len
  unfold Obj.write
  rw [if_pos (by omega)]
  refine ⟨_, rfl, ⟨by simp only [List.length_set]; exact hb, hl⟩, ?_⟩
  show (o1.buf.set (o1.len - 1) c).take o1.len = _
  rw [h3, show o.len + 1 - 1 = o.len by omega, List.take_add_one, List.take_set_of_le (Nat.le_refl _)]
  have e : o1.buf.take o.len = o.text := by
    rw [show min o.len (o.len + 1) = o.len by omega] at h4
    unfold Obj.text at h4
    rw [h3, List.take_take, show min o.len (o.len + 1) = o.len by omega] at h4
    rw [h4, List.take_take]
    unfold Obj.text
    congr 1
    omega
  have hi : o.len < o1.buf.length := by omega
  rw [e, List.getElem?_set_self hi]
  rfl

/-- C47. Any sequence of building operations – appending characters, strings and prefixes of strings, shortening, assigning,
trimming – never accesses the string's array outside its allocation and produces exactly the expected text. -/
theorem C47_building (ws : Nat → Bool) (ops : List BOp) : ∀ (o : Obj), WF o →
    (∀ (pre : List BOp) (n : Nat) (post : List BOp), ops = pre ++ .setLength n :: post →
      n ≤ (pre.foldl (textStep ws) o.text).length) →
    ∃ o', o.run ws ops = some o' ∧ WF o' ∧ o'.text = ops.foldl (textStep ws) o.text := by
  induction ops with
  | nil => intro o h _; exact ⟨o, rfl, h, rfl⟩
  | cons a r ih =>
    intro o h hset
    have hstep : ∃ o1, o.step ws a = some o1 ∧ WF o1 ∧ o1.text = textStep ws o.text a := by
      cases a with
      | appendChar c => exact appendChar_spec h c
      | append s =>
        obtain ⟨o1, h1, h2, h3⟩ := append_spec h s none
        exact ⟨o1, h1, h2, by rw [h3]; simp [textStep]⟩
      | appendPart s n => exact append_spec h s (some n)
      | setLength n =>
        have hn := hset [] n r rfl
        simp only [List.foldl_nil, text_length h] at hn
        obtain ⟨o1, h1, h2, h3, h4⟩ := setLength_spec h n
        refine ⟨o1, h1, h2, ?_⟩
        rw [show min o.len n = n by omega] at h4
        show o1.text = o.text.take n
        rw [← h4, List.take_of_length_le (by rw [text_length h2, h3]; omega)]
      | assign s =>
        refine ⟨⟨s, s.length, s.length⟩, ?_, ⟨rfl, Nat.le_refl _⟩, ?_⟩
        · simp [Obj.step, Obj.ofStr, Obj.assign]
        · simp [Obj.text, textStep]
      | trim =>
        refine ⟨⟨Strings.trim ws o.text, (Strings.trim ws o.text).length, (Strings.trim ws o.text).length⟩, ?_,
          ⟨rfl, Nat.le_refl _⟩, ?_⟩
        · simp only [Obj.step]
          rw [if_pos (by rw [h.buf]; exact h.len)]
        · simp [Obj.text, textStep]
    obtain ⟨o1, h1, h2, h3⟩ := hstep
    obtain ⟨o2, g1, g2, g3⟩ := ih o1 h2 (by
      intro pre n post e
      have := hset (a :: pre) n post (by rw [e]; rfl)
      simpa [h3] using this)
    exact ⟨o2, by simp only [Obj.run, h1, Option.bind_some, g1], g2, by rw [g3, h3]; rfl⟩

theorem empty_wf : WF Obj.empty := ⟨rfl, Nat.le_refl _⟩

/-- C47, false for the general `append(s, start, maxlen)`: with a start inside the other string it reads past its end. -/
theorem C47_violated_append_start : Obj.empty.append (Obj.ofStr [97, 98, 99]) 2 none = none := by decide

/-- C47, false for `setLength` beyond the current length: the text then shows stale characters of the array. -/
theorem C47_violated_setLength_grows :
    (Obj.empty.run (fun _ => false) [.append [97, 98, 99], .setLength 1, .setLength 3]).map (·.text) = some [97, 98, 99] := by
  decide

example : (Obj.empty.run (· == 32) [.append [32, 97], .appendChar 98, .appendPart [99, 100] 1, .setLength 3, .trim]).map (·.text) =
    some [97, 98] := by decide

end Verif.Strings
