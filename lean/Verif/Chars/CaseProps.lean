import Verif.Chars.Props
import Verif.RegExp.Quick
/-!
# C82: upper and lower case
-/
namespace Verif.Chars
open Verif.RegExp Verif.CharClass

/-! ## Specification -/

/-- characters of 16 bits -/
def Units (t : Text) : Prop := ∀ c ∈ t, c < 65536

/-- the characters whose upper case has another lower case than they: the micro sign, the dotless i, the long s, Greek symbols, the final sigma, letters with
iota subscript -/
def Odd (c : Nat) : Prop :=
  c ∈ [0xb5, 0x131, 0x17f, 0x345, 0x3c2, 0x3d0, 0x3d1, 0x3d5, 0x3d6, 0x3f0, 0x3f1, 0x3f2, 0x3f5, 0x1e9b, 0x1fb3, 0x1fbc, 0x1fbe, 0x1fc3, 0x1fcc, 0x1ff3, 0x1ffc] ∨
  0x1f80 ≤ c ∧ c ≤ 0x1faf

/-- Roman numerals and letters in circles -/
def RomanOrCircled (c : Nat) : Prop := 0x2160 ≤ c ∧ c ≤ 0x217f ∨ 0x24b6 ≤ c ∧ c ≤ 0x24e9

instance (c : Nat) : Decidable (RomanOrCircled c) := inferInstanceAs (Decidable (0x2160 ≤ c ∧ c ≤ 0x217f ∨ 0x24b6 ≤ c ∧ c ≤ 0x24e9))

/-- capital letters with iota below, and the iota itself -/
def Iota (c : Nat) : Prop := c = 0x345 ∨ 0x1f88 ≤ c ∧ c ≤ 0x1f8e ∨ 0x1f98 ≤ c ∧ c ≤ 0x1f9e ∨ 0x1fa8 ≤ c ∧ c ≤ 0x1fae

/-- letters with iota below -/
def IotaBelow (c : Nat) : Prop := 0x1f80 ≤ c ∧ c ≤ 0x1faf ∨ c = 0x1fb3 ∨ c = 0x1fc3 ∨ c = 0x1ff3

/-! ## Proofs -/

theorem odd_iff (c : Nat) : inRanges unlike c = true ↔ Odd c := by
  simp only [inRanges, unlike, List.any_cons, List.any_nil, Bool.or_eq_true, Bool.and_eq_true, Nat.ble_eq, Bool.or_false, Odd, List.mem_cons, List.not_mem_nil,
    or_false]
  omega

theorem roman_iff (c : Nat) : inRanges swapped c = true ↔ RomanOrCircled c := by
  simp only [inRanges, swapped, List.any_cons, List.any_nil, Bool.or_eq_true, Bool.and_eq_true, Nat.ble_eq, Bool.or_false, RomanOrCircled]

def lowTwice : List (Nat × Nat) := [(0x345, 0x345), (0x1f88, 0x1f8e), (0x1f98, 0x1f9e), (0x1fa8, 0x1fae), (0x2160, 0x217f), (0x24b6, 0x24e9)]
def upTwice : List (Nat × Nat) := [(0x1f80, 0x1faf), (0x1fb3, 0x1fb3), (0x1fc3, 0x1fc3), (0x1ff3, 0x1ff3), (0x2160, 0x217f), (0x24b6, 0x24e9)]

theorem check_twice : allR (fun e => bit CASELESS (ridx e) ||
    allR (fun c => (Nat.beq (flower (flower c)) (flower c) != inRanges lowTwice c) && (Nat.beq (fupper (fupper c)) (fupper c) != inRanges upTwice c) &&
      Nat.beq (ftitle (ftitle c)) (ftitle c)) 4 (Nat.mul 16 e)) 12 0 = true := by decide +kernel

theorem low_cased : (lowTwice.all fun r => (List.range (r.2 + 1 - r.1)).all fun i => !bit CASELESS (ridx ((r.1 + i) / 16))) = true := by decide +kernel
theorem up_cased : (upTwice.all fun r => (List.range (r.2 + 1 - r.1)).all fun i => !bit CASELESS (ridx ((r.1 + i) / 16))) = true := by decide +kernel

theorem twice {c : Nat} (hc : c < 65536) : (flower (flower c) = flower c ↔ inRanges lowTwice c = false) ∧
    (fupper (fupper c) = fupper c ↔ inRanges upTwice c = false) ∧ ftitle (ftitle c) = ftitle c := by
  have := by_rows check_twice (fun c hc hr h1 h2 h3 => by
    rw [h1, h2, h3, h1, h2, h3, not_ranges low_cased hr, not_ranges up_cased hr, Nat.beq_refl]; rfl) hc
  simp only [Bool.and_eq_true, bne_iff_ne, ne_eq] at this
  obtain ⟨⟨h1, h2⟩, h3⟩ := this
  refine ⟨?_, ?_, Nat.eq_of_beq_eq_true h3⟩
  · rw [← Nat.beq_eq]; grind
  · rw [← Nat.beq_eq]; grind

def titleLow : List (Nat × Nat) :=
  [(0xb5, 0xb5), (0x131, 0x131), (0x17f, 0x17f), (0x3c2, 0x3c2), (0x3d0, 0x3d1), (0x3d5, 0x3d6), (0x3f0, 0x3f2), (0x3f5, 0x3f5), (0x1e9b, 0x1e9b),
   (0x1f80, 0x1f87), (0x1f90, 0x1f97), (0x1fa0, 0x1fa7), (0x1fb3, 0x1fb3), (0x1fbe, 0x1fbe), (0x1fc3, 0x1fc3), (0x1ff3, 0x1ff3)]
def titleUp : List (Nat × Nat) := [(0x1f80, 0x1f87), (0x1f90, 0x1f97), (0x1fa0, 0x1fa7), (0x1fb3, 0x1fb3), (0x1fc3, 0x1fc3), (0x1ff3, 0x1ff3)]
def lowUp : List (Nat × Nat) :=
  [(0x130, 0x130), (0x3f4, 0x3f4), (0x1f88, 0x1f8f), (0x1f98, 0x1f9f), (0x1fa8, 0x1faf), (0x1fbc, 0x1fbc), (0x1fcc, 0x1fcc), (0x1ffc, 0x1ffc),
   (0x2126, 0x2126), (0x212a, 0x212b), (0x2160, 0x217f), (0x24b6, 0x24e9)]

theorem check_title : allR (fun e => bit CASELESS (ridx e) ||
    allR (fun c => (Nat.beq (flower (ftitle c)) (flower c) != inRanges titleLow c) && (Nat.beq (fupper (ftitle c)) (fupper c) != inRanges titleUp c) &&
      (Nat.beq (fupper (flower c)) (fupper c) != inRanges lowUp c)) 4 (Nat.mul 16 e)) 12 0 = true := by decide +kernel

theorem titleLow_cased : (titleLow.all fun r => (List.range (r.2 + 1 - r.1)).all fun i => !bit CASELESS (ridx ((r.1 + i) / 16))) = true := by decide +kernel
theorem titleUp_cased : (titleUp.all fun r => (List.range (r.2 + 1 - r.1)).all fun i => !bit CASELESS (ridx ((r.1 + i) / 16))) = true := by decide +kernel
theorem lowUp_cased : (lowUp.all fun r => (List.range (r.2 + 1 - r.1)).all fun i => !bit CASELESS (ridx ((r.1 + i) / 16))) = true := by decide +kernel

theorem titles {c : Nat} (hc : c < 65536) : (flower (ftitle c) = flower c ↔ inRanges titleLow c = false) ∧
    (fupper (ftitle c) = fupper c ↔ inRanges titleUp c = false) ∧ (fupper (flower c) = fupper c ↔ inRanges lowUp c = false) := by
  have := by_rows check_title (fun c hc hr h1 h2 h3 => by
    rw [h3, h1, h2, not_ranges titleLow_cased hr, not_ranges titleUp_cased hr, not_ranges lowUp_cased hr, Nat.beq_refl]; rfl) hc
  simp only [Bool.and_eq_true, bne_iff_ne, ne_eq] at this
  obtain ⟨⟨h1, h2⟩, h3⟩ := this
  refine ⟨?_, ?_, ?_⟩
  · rw [← Nat.beq_eq]; grind
  · rw [← Nat.beq_eq]; grind
  · rw [← Nat.beq_eq]; grind

/-- **C82 (partial)**: the case functions are defined for all 16 bit characters, give 16 bit characters, and on ASCII they are what they are -/
theorem C82_the_case_functions_are_defined {c : Nat} (hc : c < 65536) : ∃ l u t, toLowerCase c = some l ∧ toUpperCase c = some u ∧ toTitleCase c = some t ∧
    l < 65536 ∧ u < 65536 ∧ t < 65536 ∧
    (c < 128 → l = (if 65 ≤ c ∧ c ≤ 90 then c + 32 else c) ∧ u = (if 97 ≤ c ∧ c ≤ 122 then c - 32 else c) ∧ t = u) :=
  ⟨_, _, _, toLowerCase_fast hc, toUpperCase_fast hc, toTitleCase_fast hc, (small hc).1, (small hc).2.1, (small hc).2.2, fun h =>
    ⟨(ascii_case h).1, (ascii_case h).2.1, (ascii_case h).2.2.1.trans (ascii_case h).2.1.symm⟩⟩

/-- **C82 (partial)**: the laws of case, with all of their exceptions. Title case of title case is the same; lower case of lower case is the same except for capital
letters with iota below, Roman numerals and circled letters; so for upper case; the lower case of the upper case is the lower case except for the characters
`Odd`, Roman numerals and circled letters. -/
theorem C82_the_laws_of_case {c l u t : Nat} (hc : c < 65536) (hl : toLowerCase c = some l) (hu : toUpperCase c = some u) (ht : toTitleCase c = some t) :
    (toLowerCase l = some l ↔ ¬ (Iota c ∨ RomanOrCircled c)) ∧ (toUpperCase u = some u ↔ ¬ (IotaBelow c ∨ RomanOrCircled c)) ∧ toTitleCase t = some t ∧
    (toLowerCase u = some l ↔ ¬ (Odd c ∨ RomanOrCircled c)) := by
  rw [toLowerCase_fast hc] at hl
  rw [toUpperCase_fast hc] at hu
  rw [toTitleCase_fast hc] at ht
  obtain rfl := Option.some.inj hl
  obtain rfl := Option.some.inj hu
  obtain rfl := Option.some.inj ht
  obtain ⟨s1, s2, s3⟩ := small hc
  obtain ⟨t1, t2, t3⟩ := twice hc
  rw [toLowerCase_fast s1, toUpperCase_fast s2, toTitleCase_fast s3, toLowerCase_fast s2]
  simp only [Option.some.injEq, t1, t2, t3, true_and, lower_upper hc]
  refine ⟨?_, ?_, ?_⟩
  · rw [← Bool.not_eq_true]
    simp only [inRanges, lowTwice, List.any_cons, List.any_nil, Bool.or_eq_true, Bool.and_eq_true, Nat.ble_eq, Bool.or_false, RomanOrCircled, Iota]
    omega
  · rw [← Bool.not_eq_true]
    simp only [inRanges, upTwice, List.any_cons, List.any_nil, Bool.or_eq_true, Bool.and_eq_true, Nat.ble_eq, Bool.or_false, RomanOrCircled, IotaBelow]
    omega
  · rw [← Bool.not_eq_true, ← Bool.not_eq_true, odd_iff, roman_iff, not_or]

/-- the lower case letters of `Odd`, without the letters with iota below as capitals and the iota itself -/
def OddSmall (c : Nat) : Prop :=
  c ∈ [0xb5, 0x131, 0x17f, 0x3c2, 0x3d0, 0x3d1, 0x3d5, 0x3d6, 0x3f0, 0x3f1, 0x3f2, 0x3f5, 0x1e9b, 0x1fb3, 0x1fbe, 0x1fc3, 0x1ff3] ∨ 0x1f80 ≤ c ∧ c ≤ 0x1faf ∧ c % 16 < 8

/-- the small letters with iota below -/
def SmallIota (c : Nat) : Prop := 0x1f80 ≤ c ∧ c ≤ 0x1faf ∧ c % 16 < 8 ∨ c ∈ [0x1fb3, 0x1fc3, 0x1ff3]

/-- capitals that share their lower case with another capital: dotted I, Theta symbol, letters with iota below, the signs of Ohm, Kelvin and Angstrom -/
def OddCapital (c : Nat) : Prop := 0x1f80 ≤ c ∧ c ≤ 0x1faf ∧ 8 ≤ c % 16 ∨ c ∈ [0x130, 0x3f4, 0x1fbc, 0x1fcc, 0x1ffc, 0x2126, 0x212a, 0x212b]

/-- **C82 (partial)**: the title case has the same lower and upper case as the character, the lower case has the same upper case, with all exceptions -/
theorem C82_the_laws_of_title_case {c l u t : Nat} (hc : c < 65536) (hl : toLowerCase c = some l) (hu : toUpperCase c = some u) (ht : toTitleCase c = some t) :
    (toLowerCase t = some l ↔ ¬ OddSmall c) ∧ (toUpperCase t = some u ↔ ¬ SmallIota c) ∧ (toUpperCase l = some u ↔ ¬ (OddCapital c ∨ RomanOrCircled c)) := by
  rw [toLowerCase_fast hc] at hl
  rw [toUpperCase_fast hc] at hu
  rw [toTitleCase_fast hc] at ht
  obtain rfl := Option.some.inj hl
  obtain rfl := Option.some.inj hu
  obtain rfl := Option.some.inj ht
  obtain ⟨s1, s2, s3⟩ := small hc
  obtain ⟨t1, t2, t3⟩ := titles hc
  rw [toLowerCase_fast s3, toUpperCase_fast s3, toUpperCase_fast s1]
  simp only [Option.some.injEq, t1, t2, t3]
  refine ⟨?_, ?_, ?_⟩ <;> rw [← Bool.not_eq_true] <;>
    simp only [inRanges, titleLow, titleUp, lowUp, List.any_cons, List.any_nil, Bool.or_eq_true, Bool.and_eq_true, Nat.ble_eq, Bool.or_false, OddSmall, SmallIota,
      OddCapital, RomanOrCircled, List.mem_cons, List.not_mem_nil, or_false] <;> omega

def digraphs : List (Nat × Nat) := [(0x1c4, 0x1cc), (0x1f1, 0x1f3)]
def titleKept : List (Nat × Nat) :=
  [(0x345, 0x345), (0x1f88, 0x1f8f), (0x1f98, 0x1f9f), (0x1fa8, 0x1faf), (0x1fbc, 0x1fbc), (0x1fcc, 0x1fcc), (0x1ffc, 0x1ffc), (0x2160, 0x217f), (0x24b6, 0x24e9)]

theorem check_title_is : allR (fun e => bit CASELESS (ridx e) ||
    allR (fun c => if inRanges digraphs c then Nat.beq (ftitle c) (Nat.mul (Nat.div (Nat.succ c) 3) 3)
      else if inRanges titleKept c then Nat.beq (ftitle c) c else Nat.beq (ftitle c) (fupper c)) 4 (Nat.mul 16 e)) 12 0 = true := by decide +kernel

theorem digraphs_cased : (digraphs.all fun r => (List.range (r.2 + 1 - r.1)).all fun i => !bit CASELESS (ridx ((r.1 + i) / 16))) = true := by decide +kernel

theorem title_is {c : Nat} (hc : c < 65536) : ftitle c = if inRanges digraphs c then (c + 1) / 3 * 3 else if inRanges titleKept c then c else fupper c := by
  have := by_rows check_title_is (fun c hc hr h1 h2 h3 => by
    rw [h2, h3, not_ranges digraphs_cased hr, Nat.beq_refl]; simp) hc
  split at this
  · rename_i h; rw [if_pos h]; exact Nat.eq_of_beq_eq_true this
  · rename_i h
    rw [if_neg h]
    split at this
    · rename_i h'; rw [if_pos h']; exact Nat.eq_of_beq_eq_true this
    · rename_i h'; rw [if_neg h']; exact Nat.eq_of_beq_eq_true this

/-- a letter made of two, the form in title case of which is `m` -/
def Digraph (c m : Nat) : Prop := m ∈ [0x1c5, 0x1c8, 0x1cb, 0x1f2] ∧ m ≤ c + 1 ∧ c ≤ m + 1

/-- **C82 (partial)**: the title case is the upper case, except for the letters made of two, which have a form of their own, and capitals with iota below, Roman
numerals and circled letters, which are left alone -/
theorem C82_the_title_case_is_the_upper_case_or {c u t : Nat} (hc : c < 65536) (hu : toUpperCase c = some u) (ht : toTitleCase c = some t) :
    (∀ m, Digraph c m → t = m) ∧ ((∀ m, ¬ Digraph c m) →
      t = if (0x1f80 ≤ c ∧ c ≤ 0x1faf ∧ 8 ≤ c % 16) ∨ c ∈ [0x345, 0x1fbc, 0x1fcc, 0x1ffc] ∨ RomanOrCircled c then c else u) := by
  rw [toUpperCase_fast hc] at hu
  rw [toTitleCase_fast hc] at ht
  obtain rfl := Option.some.inj hu
  obtain rfl := Option.some.inj ht
  rw [title_is hc]
  have hd : inRanges digraphs c = true ↔ 0x1c4 ≤ c ∧ c ≤ 0x1cc ∨ 0x1f1 ≤ c ∧ c ≤ 0x1f3 := by
    simp only [inRanges, digraphs, List.any_cons, List.any_nil, Bool.or_eq_true, Bool.and_eq_true, Nat.ble_eq, Bool.or_false]
  have hk : inRanges titleKept c = true ↔ (0x1f80 ≤ c ∧ c ≤ 0x1faf ∧ 8 ≤ c % 16) ∨ c ∈ [0x345, 0x1fbc, 0x1fcc, 0x1ffc] ∨ RomanOrCircled c := by
    simp only [inRanges, titleKept, List.any_cons, List.any_nil, Bool.or_eq_true, Bool.and_eq_true, Nat.ble_eq, Bool.or_false, RomanOrCircled, List.mem_cons,
      List.not_mem_nil, or_false]
    omega
  constructor
  · rintro m ⟨h1, h2, h3⟩
    simp only [List.mem_cons, List.not_mem_nil, or_false] at h1
    rw [if_pos (hd.2 (by omega))]
    omega
  · intro h
    have h1 := h 0x1c5
    have h2 := h 0x1c8
    have h3 := h 0x1cb
    have h4 := h 0x1f2
    simp only [Digraph, List.mem_cons, List.not_mem_nil, or_false, true_or, or_true, true_and, not_and, Nat.not_le] at h1 h2 h3 h4
    rw [if_neg (fun e => by have := hd.1 e; omega)]
    by_cases e : inRanges titleKept c = true
    · rw [if_pos e, if_pos (hk.1 e)]
    · rw [if_neg e, if_neg (fun e' => e (hk.2 e'))]

theorem same_upper {a b : Nat} (ha : a < 65536) (hb : b < 65536) (oa : ¬ Odd a) (ob : ¬ Odd b) (h : fupper a = fupper b) : flower a = flower b := by
  rw [← odd_iff, Bool.not_eq_true] at oa ob
  obtain ⟨a1, a2⟩ := swapped_upper ha
  obtain ⟨b1, b2⟩ := swapped_upper hb
  rw [h, b2] at a2
  cases hs : inRanges swapped a with
  | true => rw [a1 hs, b1 (a2.trans hs), h]
  | false => rw [← (lower_upper ha).2 ⟨oa, hs⟩, ← (lower_upper hb).2 ⟨ob, a2.trans hs⟩, h]

theorem caseEq_cons {a b : Nat} (ha : a < 65536) (hb : b < 65536) (s t : Text) :
    caseEq (a :: s) (b :: t) = if flower a = flower b then caseEq s t else some false := by
  rw [caseEq, toLowerCase_fast ha, toLowerCase_fast hb, Option.bind_some, Option.bind_some]
  by_cases h : flower a = flower b
  · rw [if_pos h.symm, if_pos h]
  · rw [if_neg (Ne.symm h), if_neg h]

theorem caseEq_fast : ∀ {s t : Text}, Units s → Units t → caseEq s t = some (decide (s.map flower = t.map flower))
  | [], [], _, _ => by simp [caseEq]
  | [], _ :: _, _, _ => by simp [caseEq]
  | _ :: _, [], _, _ => by simp [caseEq]
  | a :: s, b :: t, h1, h2 => by
    rw [caseEq_cons (h1 a List.mem_cons_self) (h2 b List.mem_cons_self)]
    by_cases h : flower a = flower b
    · rw [if_pos h, caseEq_fast (fun c hc => h1 c (List.mem_cons_of_mem _ hc)) (fun c hc => h2 c (List.mem_cons_of_mem _ hc))]
      simp [h]
    · rw [if_neg h]; simp [h]

theorem sameLoop_fast : ∀ {s t : Text}, Units s → Units t → s.length = t.length →
    sameLoop s t = some (decide (s.map flower = t.map flower ∧ s.map fupper = t.map fupper))
  | [], [], _, _, _ => by simp [sameLoop]
  | [], _ :: _, _, _, h => by simp at h
  | _ :: _, [], _, _, h => by simp at h
  | a :: s, b :: t, h1, h2, h => by
    have ha := h1 a List.mem_cons_self
    have hb := h2 b List.mem_cons_self
    rw [sameLoop, toLowerCase_fast ha, toLowerCase_fast hb, toUpperCase_fast ha, toUpperCase_fast hb]
    simp only [Option.bind_some]
    rw [sameLoop_fast (fun c hc => h1 c (List.mem_cons_of_mem _ hc)) (fun c hc => h2 c (List.mem_cons_of_mem _ hc)) (by simpa using h)]
    by_cases h3 : flower a = flower b
    · by_cases h4 : fupper a = fupper b
      · simp [h3, h4]
      · simp [h3, h4, Ne.symm h4]
    · simp [h3, Ne.symm h3]

theorem map_fast {f : Nat → Option Nat} {g : Nat → Nat} (h : ∀ c, c < 65536 → f c = some (g c)) {s t : Text} (hs : Units s) (ht : Units t) :
    s.map f = t.map f ↔ s.map g = t.map g := by
  have e : ∀ s : Text, Units s → s.map f = (s.map g).map some := by
    intro s hs
    rw [List.map_map]
    exact List.map_congr_left fun c hc => h c (hs c hc)
  rw [e s hs, e t ht]
  exact List.map_inj_right fun a b => Option.some.inj

/-- **C82 (partial)**: two texts are the same without case if and only if their lower cases are (comparing words of expressions, names) or if their lower cases and
their upper cases are (`equalsIgnoreCase`); so both are equivalences, and the second implies the first -/
theorem C82_comparing_without_case {s t : Text} (hs : Units s) (ht : Units t) :
    caseEq s t = some (decide (s.map toLowerCase = t.map toLowerCase)) ∧
    equalsIgnoreCase s t = some (decide (s.map toLowerCase = t.map toLowerCase ∧ s.map toUpperCase = t.map toUpperCase)) := by
  constructor
  · rw [caseEq_fast hs ht]
    congr 1
    exact decide_eq_decide.2 (map_fast (fun c => toLowerCase_fast) hs ht).symm
  · rw [equalsIgnoreCase]
    by_cases h : t.length = s.length
    · rw [if_neg (by simpa using h), sameLoop_fast hs ht h.symm]
      congr 1
      exact decide_eq_decide.2 (and_congr (map_fast (fun c => toLowerCase_fast) hs ht).symm (map_fast (fun c => toUpperCase_fast) hs ht).symm)
    · rw [if_pos h]
      have : s.map toLowerCase ≠ t.map toLowerCase := fun e => h (by simpa using (congrArg List.length e).symm)
      simp [this]

/-- the assumptions C29, C31, C56, C80 and C81 make for the flag `i` hold of the built-in functions, except for the characters `Odd` -/
theorem C82_what_the_matcher_assumes_of_case_partial : CaseOn legacyChars (fun c => c < 65536 ∧ ¬ Odd c) := by
  have key : ∀ a b, a < 65536 ∧ ¬ Odd a → b < 65536 ∧ ¬ Odd b → legacyChars.upper a = legacyChars.upper b → legacyChars.lower a = legacyChars.lower b := by
    intro a b ha hb h
    rw [upper_fast ha.1, upper_fast hb.1] at h
    rw [lower_fast ha.1, lower_fast hb.1]
    exact same_upper ha.1 hb.1 ha.2 hb.2 h
  refine ⟨key, rfl, fun a b s t _ h1 h2 => ?_⟩
  have ha := h1 a List.mem_cons_self
  have hb := h2 b List.mem_cons_self
  have e : legacyChars.caseEq (a :: s) (b :: t) = (if flower a = flower b then caseEq s t else some false).getD false := by
    show (caseEq (a :: s) (b :: t)).getD false = _
    rw [caseEq_cons ha.1 hb.1]
  rw [e]
  have k := key a b ha hb
  rw [lower_fast ha.1, lower_fast hb.1] at k ⊢
  by_cases h : flower a = flower b
  · rw [if_pos h]
    exact ⟨fun h' => ⟨.inl h, h'⟩, fun h' => h'.2⟩
  · rw [if_neg h]
    refine ⟨fun h' => (by cases h'), fun h' => ?_⟩
    rcases h'.1 with h'' | h''
    · exact (h h'').elim
    · exact (h (k h'')).elim

/-- **C82 (partial)**: C31 with the built-in functions. The first test of an expression does not change the answer of a search, with or without the flag `i`, if the text and
the expression have only 16 bit characters, none of them `Odd` if the flag is set -/
theorem C82_the_first_test_is_invisible_with_the_built_in_tables_partial (x : RegExp.Expr) (a : Args) (hml : x.flags.multiLine = false) (hu : Units a.text)
    (hl : Units (letters x.body)) (ho : x.flags.ignoreCase = true → ∀ c, c ∈ a.text ∨ c ∈ letters x.body → ¬ Odd c) (h0 : 0 ≤ a.pos) (h1 : a.pos ≤ a.text.length)
    (h2 : a.eol ≤ a.text.length) : ∃ k, ∀ (fuel : Nat) (o : Obj) (mtch : Matches), k ≤ fuel →
      (parse legacyChars x fuel o a mtch).map Out.res = (parseAll legacyChars x fuel o a mtch).map Out.res ∧
      (∀ out, parse legacyChars x fuel o a mtch = some out → out.res = .ret true → parseAll legacyChars x fuel o a mtch = some out) :=
  C31_the_first_test_is_invisible_partial legacyChars x a hml (fun hi => C82_what_the_matcher_assumes_of_case_partial.mono fun c hc =>
    ⟨hc.elim (hu c) (hl c), ho hi c hc⟩) h0 h1 h2

/-! ## Concrete cases -/

/-- Cyrillic, a letter in title case (U+01C5), a digit of Devanagari, the ideographic space -/
example : Answers 0x416 (nm "Lu") ∧ Answers 0x1c5 (nm "Lt") ∧ Answers 0x967 (nm "Nd") ∧ Answers 0x3000 (nm "Zs") :=
  ⟨answers (by decide) (by decide +kernel), answers (by decide) (by decide +kernel), answers (by decide) (by decide +kernel),
    answers (by decide) (by decide +kernel)⟩

example : toLowerCase 0x416 = some 0x436 ∧ toUpperCase 0x436 = some 0x416 ∧ toTitleCase 0x1c6 = some 0x1c5 ∧ toLowerCase 0x1c4 = some 0x1c6 ∧
    caseEq [0x416, 65] [0x436, 97] = some true ∧ equalsIgnoreCase [0x416, 65] [0x436, 98] = some false := by decide +kernel

example : Units (nm "Ab") ∧ (∀ c ∈ nm "Ab", ¬ Odd c) := by
  constructor
  · intro c hc; have : ∀ c ∈ nm "Ab", c < 65536 := by decide
    exact this c hc
  · intro c hc
    have : ∀ c ∈ nm "Ab", c < 128 := by decide
    have := this c hc
    simp only [Odd, List.mem_cons, List.not_mem_nil, or_false]
    omega

/-- `{Lu}`: a name as in `C82_the_class_of_a_category_holds_its_characters` -/
example : nm "Lu" ∉ [[], nAll, nAssigned, nUnassigned, [67], [67, 110]] ∧ ∀ c ∈ nm "Lu", isGraph c = some true ∧ c ≠ 125 := by decide +kernel

/-! ## Where case is not ignored -/

def found (r : List Node) (t : Text) : Option End :=
  (parse legacyChars ⟨r, 1, 0, ⟨true, false, false⟩, true⟩ 400 Obj.new ⟨t, 0, t.length, 0, none, none⟩ noMatches).map Out.res
where noMatches : Matches := ⟨fun _ => -1, fun _ => -1, fun _ => -1, fun _ => -1⟩

/-- **C82 is violated** by Roman numerals and circled letters: the large and the small one are each other's upper and lower case, so `/Ⅰ/i` does not match the
small numeral, and `equalsIgnoreCase` tells them apart -/
theorem C82_violated_roman_numerals : toLowerCase 0x2160 = some 0x2170 ∧ toLowerCase 0x2170 = some 0x2160 ∧
    equalsIgnoreCase [0x2160] [0x2170] = some false ∧ found [.symb 0x2160] [0x2170] = some (.ret false) ∧ found [.symb 0x2160] [0x2160] = some (.ret true) := by
  decide +kernel

/-- **C82 is violated** by the long s: `/s/i` does not match it, `/(s|t)/i` does -/
theorem C82_violated_long_s : found [.symb 115] [0x17f] = some (.ret false) ∧
    found [.brackets (some 0) [.or [.symb 115], .symb 116]] [0x17f] = some (.ret true) := by decide +kernel

/-- **C82 is violated** by the micro sign and μ: they have the same upper case; a single letter ignores the difference, a word does not -/
theorem C82_violated_micro : found [.or [.symb 0xb5], .symb 97] [0x3bc] = some (.ret true) ∧ found [.or [.word [0xb5, 97]], .symb 97] [0x3bc, 97] = some (.ret false) := by
  decide +kernel

/-- **C82 is violated** with the flag `i` by `\l`: `[\l]` accepts capital letters, `\l` does not match them -/
theorem C82_violated_lower_case_class : (match createLegacy legacyCtx legacyTables true (nm "[\\l]") with
      | some (.ok cc _) => cc.inClass 65
      | _ => false) = true ∧ isLowerCase 65 = some false := by decide +kernel

/-- above 16 bits the tables are read behind their ends -/
theorem C82_outside_16_bits : toLowerCase 0x10000 = none ∧ isLetter 0x10000 = none := by decide +kernel

end Verif.Chars
