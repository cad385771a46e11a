import Verif.Io.Model
import Verif.Strings.Props

/-!
# Locations (C36)
-/
namespace Verif.Io
open Verif.Strings

/-! ## Specification -/

/-- a path separator -/
def Sep (c : Nat) : Prop := c = SLASH ∨ c = BACKSLASH

/-- `loc` is a directory part (empty, or ending with a separator) followed by a file name -/
def Splits (loc dir file : Str) : Prop := loc = dir ++ file ∧ (∀ c ∈ file, ¬ Sep c) ∧ (dir = [] ∨ ∃ d c, dir = d ++ [c] ∧ Sep c)

/-- an absolute location: it begins with a separator, or a colon ends a scheme or drive name shorter than ten characters -/
def Absolute (p : Str) : Prop := (∃ c r, p = c :: r ∧ Sep c) ∨ ∃ a r, p = a ++ COLON :: r ∧ a.length < 10

/-! ## Lemmas -/

theorem last_split {s : Str} {c i : Nat} (h : lastIndexOf s c none = some i) : i < s.length ∧ s = s.take i ++ c :: s.drop (i + 1) ∧ c ∉ s.drop (i + 1) := by
  obtain ⟨h1, h2⟩ := (C39_lastIndexOf s c).1 i h
  obtain ⟨hi, he⟩ := List.getElem?_eq_some_iff.1 h1
  refine ⟨hi, ?_, fun hm => ?_⟩
  · rw [← he, List.getElem_cons_drop, List.take_append_drop]
  · obtain ⟨j, hj, he'⟩ := List.mem_iff_getElem.1 hm
    rw [List.length_drop] at hj
    rw [List.getElem_drop] at he'
    exact h2 (i + 1 + j) (by omega) (List.getElem?_eq_some_iff.2 ⟨by omega, he'⟩)

/-- the last place of a character, from a division at it -/
theorem last_of_split {a b : Str} {c : Nat} (h : c ∉ b) : lastIndexOf (a ++ c :: b) c none = some a.length := by
  cases hl : lastIndexOf (a ++ c :: b) c none with
  | none => exact absurd (by simp) ((C39_lastIndexOf _ c).2 hl)
  | some i =>
    obtain ⟨h1, h2⟩ := (C39_lastIndexOf _ c).1 i hl
    have hlt := (List.getElem?_eq_some_iff.1 h1).1
    congr 1
    have g1 : ¬ i < a.length := by
      intro hi
      exact h2 a.length hi (by simp)
    have g2 : ¬ a.length < i := by
      intro hi
      obtain ⟨k, rfl⟩ : ∃ k, i = a.length + 1 + k := ⟨i - a.length - 1, by omega⟩
      apply h
      rw [List.getElem?_append_right (by omega), show a.length + 1 + k - a.length = k + 1 by omega, List.getElem?_cons_succ] at h1
      exact List.mem_of_getElem? h1
    omega

theorem not_mem_of_none {s : Str} {c : Nat} (h : lastIndexOf s c none = none) : c ∉ s := (C39_lastIndexOf s c).2 h

theorem split_unique {loc d1 f1 d2 f2 : Str} (h1 : Splits loc d1 f1) (h2 : Splits loc d2 f2) : d1 = d2 := by
  obtain ⟨e1, n1, o1⟩ := h1
  obtain ⟨e2, n2, o2⟩ := h2
  have key : ∀ (d1 f1 d2 f2 : Str), d1 ++ f1 = d2 ++ f2 → (∀ c ∈ f1, ¬ Sep c) → (d2 = [] ∨ ∃ d c, d2 = d ++ [c] ∧ Sep c) → d2.length ≤ d1.length := by
    intro d1 f1 d2 f2 he hn ho
    rcases ho with rfl | ⟨d, c, rfl, hc⟩
    · simp
    · by_cases hl : (d ++ [c]).length ≤ d1.length
      · exact hl
      · exfalso
        simp only [List.length_append, List.length_cons, List.length_nil] at hl
        have : (d1 ++ f1)[d.length]? = some c := by rw [he]; simp
        rw [List.getElem?_append_right (by omega)] at this
        exact hn c (List.mem_of_getElem? this) hc
  have := key d1 f1 d2 f2 (e1 ▸ e2) n1 o2
  have := key d2 f2 d1 f1 (e2 ▸ e1) n2 o1
  exact (List.append_inj (e1.symm.trans e2) (by omega)).1

theorem root_split (base : Str) : rootPos base ≤ base.length ∧ Splits base (base.take (rootPos base)) (base.drop (rootPos base)) := by
  have key : ∀ i c, Sep c → i < base.length → base = base.take i ++ c :: base.drop (i + 1) → (∀ c ∈ base.drop (i + 1), ¬ Sep c) →
      i + 1 ≤ base.length ∧ Splits base (base.take (i + 1)) (base.drop (i + 1)) := by
    intro i c hc hi he hn
    refine ⟨hi, (List.take_append_drop _ _).symm, hn, Or.inr ⟨base.take i, c, ?_, hc⟩⟩
    have : base[i]? = some c := by rw [he]; rw [List.getElem?_append_right (by simp; omega)]; simp [Nat.min_eq_left (Nat.le_of_lt hi)]
    rw [List.take_add_one, this]; rfl
  unfold rootPos
  cases h1 : lastIndexOf base SLASH none with
  | none =>
    cases h2 : lastIndexOf base BACKSLASH none with
    | none =>
      refine ⟨by simp [later], by simp [later], ?_, Or.inl (by simp [later])⟩
      intro c hc hs
      simp only [later, List.drop_zero] at hc
      rcases hs with rfl | rfl
      · exact not_mem_of_none h1 hc
      · exact not_mem_of_none h2 hc
    | some j =>
      obtain ⟨hj, he, hn⟩ := last_split h2
      refine key j BACKSLASH (Or.inr rfl) hj he fun c hc hs => ?_
      rcases hs with rfl | rfl
      · exact not_mem_of_none h1 (List.mem_of_mem_drop hc)
      · exact hn hc
  | some i =>
    obtain ⟨hi, he, hn⟩ := last_split h1
    cases h2 : lastIndexOf base BACKSLASH none with
    | none =>
      refine key i SLASH (Or.inl rfl) hi he fun c hc hs => ?_
      rcases hs with rfl | rfl
      · exact hn hc
      · exact not_mem_of_none h2 (List.mem_of_mem_drop hc)
    | some j =>
      obtain ⟨hj, he', hn'⟩ := last_split h2
      have mono : ∀ (a b : Nat) (c : Nat), a ≤ b → c ∈ base.drop (b + 1) → c ∈ base.drop (a + 1) := by
        intro a b c hab hm
        rw [show b + 1 = (a + 1) + (b - a) by omega, ← List.drop_drop] at hm
        exact List.mem_of_mem_drop hm
      by_cases hgt : j > i
      · simp only [later, if_pos hgt]
        refine key j BACKSLASH (Or.inr rfl) hj he' fun c hc hs => ?_
        rcases hs with rfl | rfl
        · exact hn (mono i j _ (by omega) hc)
        · exact hn' hc
      · simp only [later, if_neg hgt]
        refine key i SLASH (Or.inl rfl) hi he fun c hc hs => ?_
        rcases hs with rfl | rfl
        · exact hn hc
        · exact hn' (mono j i _ (by omega) hc)

/-! ## C36 -/

/-- Every location has exactly one directory part. -/
theorem C36_directory (loc : Str) : ∃ dir file, Splits loc dir file ∧ ∀ d f, Splits loc d f → d = dir :=
  ⟨_, _, (root_split loc).2, fun _ _ h => split_unique h (root_split loc).2⟩

/-- Resolving against a base replaces what follows the base's last separator; no read outside the string. -/
theorem C36_resolve (base rel dir file : Str) (h : Splits base dir file) : getAbsolutePath base rel = some (dir ++ rel) := by
  obtain ⟨h1, h2⟩ := root_split base
  rw [split_unique h h2]
  unfold getAbsolutePath substr
  rw [if_pos (by omega)]
  simp

theorem relative_iff (p : Str) : isRelative p = true ↔ ¬ Absolute p := by
  have colon : earlyColon p = true ↔ ∃ a r, p = a ++ COLON :: r ∧ a.length < 10 := by
    obtain ⟨g1, g2⟩ := C39_indexOfChar_partial p COLON 0 (by omega)
    unfold earlyColon
    constructor
    · intro h
      cases hi : indexOfChar p COLON 0 with
      | none => rw [hi] at h; cases h
      | some i =>
        rw [hi] at h
        obtain ⟨-, h2, -⟩ := g1 i hi
        obtain ⟨hl, he⟩ := List.getElem?_eq_some_iff.1 h2
        have h : i < 10 := of_decide_eq_true h
        refine ⟨p.take i, p.drop (i + 1), ?_, by simp; omega⟩
        rw [← he, List.getElem_cons_drop, List.take_append_drop]
    · rintro ⟨a, r, he, hl⟩
      have hc : p[a.length]? = some COLON := by rw [he]; simp
      cases hi : indexOfChar p COLON 0 with
      | none => exact absurd hc (g2 hi _ (by omega))
      | some i =>
        obtain ⟨-, -, h3⟩ := g1 i hi
        have : i ≤ a.length := by
          by_cases hh : a.length < i
          · exact absurd hc (h3 _ (by omega) hh)
          · omega
        exact decide_eq_true (by omega)
  have first : ∀ c, indexOfChar p c 0 = some 0 ↔ ∃ r, p = c :: r := by
    intro c
    cases p with
    | nil => simp [indexOfChar]
    | cons x r =>
      simp only [indexOfChar, List.length_cons, Nat.zero_lt_succ, if_true, List.drop_zero, scan]
      by_cases hx : x = c
      · subst hx; simp
      · simp only [hx, ne_eq, not_false_eq_true, if_true, List.cons.injEq, false_and, exists_false, iff_false]
        have : ∀ (l : Str) k, k ≤ scan c l k := by
          intro l
          induction l with
          | nil => intro k; simp [scan]
          | cons y t ih => intro k; rw [scan]; split; exact Nat.le_trans (Nat.le_succ k) (ih (k + 1)); exact Nat.le_refl k
        have := this r (0 + 1)
        split
        · simp
        · intro h'; simp only [Option.some.injEq] at h'; omega
  unfold isRelative Absolute
  by_cases hcol : earlyColon p = true
  · rw [if_pos hcol]
    have := colon.1 hcol
    exact ⟨fun h => (by cases h), fun h => absurd (Or.inr this) h⟩
  · rw [if_neg hcol]
    have hn := mt colon.2 hcol
    simp only [hn, or_false]
    by_cases hf : (∃ r, p = SLASH :: r) ∨ ∃ r, p = BACKSLASH :: r
    · have : (decide (indexOfChar p SLASH 0 = some 0) || decide (indexOfChar p BACKSLASH 0 = some 0)) = true := by
        simp only [Bool.or_eq_true, decide_eq_true_eq, first]; exact hf
      rw [if_pos this]
      simp only [Bool.false_eq_true, false_iff, Classical.not_not]
      rcases hf with ⟨r, h⟩ | ⟨r, h⟩
      · exact ⟨_, r, h, Or.inl rfl⟩
      · exact ⟨_, r, h, Or.inr rfl⟩
    · have : ¬ (decide (indexOfChar p SLASH 0 = some 0) || decide (indexOfChar p BACKSLASH 0 = some 0)) = true := by
        simp only [Bool.or_eq_true, decide_eq_true_eq, first]; exact hf
      rw [if_neg this]
      simp only [true_iff]
      rintro ⟨c, r, h, rfl | rfl⟩
      · exact hf (Or.inl ⟨r, h⟩)
      · exact hf (Or.inr ⟨r, h⟩)

theorem starts_iff (s p : Str) : startsWith s p 0 = true ↔ p <+: s := by
  rw [C39_startsWith]
  unfold Occurs
  constructor
  · rintro (rfl | h)
    · exact List.nil_prefix
    · simpa using h.2
  · intro h
    exact Or.inr ⟨by omega, by simpa using h⟩

/-- Opening a location that is not a "file:" URL: an absolute one, or any without a base, is kept; a relative one is put behind the base's
directory. -/
theorem C36_location (path : Str) (base : Option Str) (hp : ¬ fileP <+: path) :
    fileLocation path base = match base with
      | none => some path
      | some b => if isRelative path then getAbsolutePath b path else some path := by
  have h : ∀ t, startsWith path (fileP ++ t) 0 = false := by
    intro t
    cases hs : startsWith path (fileP ++ t) 0 with
    | false => rfl
    | true => exact absurd (List.IsPrefix.trans (List.prefix_append _ _) ((starts_iff _ _).1 hs)) hp
  unfold fileLocation
  rw [h, h, show startsWith path fileP 0 = false by simpa using h []]
  cases base <;> simp

theorem C36_absolute_is_kept (path : Str) (base : Option Str) (hp : ¬ fileP <+: path) (ha : base = none ∨ Absolute path) :
    fileLocation path base = some path := by
  rw [C36_location path base hp]
  cases base with
  | none => rfl
  | some b =>
    have : isRelative path = false := by
      cases h : isRelative path with
      | false => rfl
      | true => exact absurd (ha.resolve_left (by simp)) ((relative_iff _).1 h)
    simp [this]

theorem C36_relative_is_resolved (path base dir file : Str) (hp : ¬ fileP <+: path) (hr : ¬ Absolute path) (hs : Splits base dir file) :
    fileLocation path (some base) = some (dir ++ path) := by
  rw [C36_location path _ hp]
  simp only [(relative_iff path).2 hr, if_true]
  exact C36_resolve base path dir file hs

/-- A "file:" URL: the prefix with up to two slashes is dropped, and the rest is made absolute unless a drive name stands before it. -/
theorem C36_file_url (path rest : Str) (base : Option Str) (n : Nat) (hn : n ≤ 2) (h : path = fileP ++ List.replicate n SLASH ++ rest)
    (hr : n < 2 → ¬ ∃ r, rest = SLASH :: r) :
    fileLocation path base = some (addSlash rest) := by
  have hne : ∀ k, 1 ≤ k → k + n ≤ 2 → ¬ fileP ++ List.replicate (n + k) SLASH <+: path := by
    intro k hk1 hk2 ⟨t, ht⟩
    rw [h, show n + k = n + (k - 1 + 1) by omega, ← List.replicate_append_replicate, List.replicate_succ] at ht
    simp only [List.append_assoc] at ht
    have := List.append_cancel_left (List.append_cancel_left ht)
    exact hr (by omega) ⟨_, this.symm⟩
  unfold fileLocation
  rcases (by omega : n = 0 ∨ n = 1 ∨ n = 2) with rfl | rfl | rfl
  · rw [if_neg (by rw [starts_iff]; exact hne 2 (by omega) (by omega)), if_neg (by rw [starts_iff]; exact hne 1 (by omega) (by omega)),
      if_pos (by rw [starts_iff]; exact ⟨rest, by simp [h]⟩)]
    simp [tail, h, fileP]
  · rw [if_neg (by rw [starts_iff]; exact hne 1 (by omega) (by omega)), if_pos (by rw [starts_iff]; exact ⟨rest, by simp [h]⟩)]
    simp [tail, h, fileP]
  · rw [if_pos (by rw [starts_iff]; exact ⟨rest, by simp [h]⟩)]
    simp [tail, h, fileP]

end Verif.Io
