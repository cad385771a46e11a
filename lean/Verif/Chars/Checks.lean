import Verif.Chars.Packed
/-!
# Checks of the tables, over all characters

Every check runs over all of the 65536 characters, in the kernel.
-/
namespace Verif.Chars

/-- all numbers from `s` to `s + 2 ^ k - 1` -/
def allR (P : Nat → Bool) : Nat → Nat → Bool
  | 0, s => P s
  | k + 1, s => allR P k s && allR P k (s + 2 ^ k)

theorem allR_get {P : Nat → Bool} : ∀ {k s : Nat}, allR P k s = true → ∀ c, s ≤ c → c < s + 2 ^ k → P c = true
  | 0, s, h, c, h1, h2 => by
    obtain rfl : c = s := by simp at h2; omega
    exact h
  | k + 1, s, h, c, h1, h2 => by
    rw [allR, Bool.and_eq_true] at h
    rw [Nat.pow_succ] at h2
    by_cases hc : c < s + 2 ^ k
    · exact allR_get h.1 c h1 hc
    · exact allR_get h.2 c (by omega) (by omega)

theorem all_get {P : Nat → Bool} (h : allR P 16 0 = true) {c : Nat} (hc : c < 65536) : P c = true := allR_get h c (Nat.zero_le c) (by simpa using hc)

/-- `charProp` for the kernel -/
def fprop (c : Nat) : Nat := Nat.mod (Nat.shiftRight INFO (Nat.mul 32 (Nat.add (Nat.mul (Nat.mod (Nat.shiftRight IDX (Nat.mul 16 (Nat.div c 16))) 65536) 16) (Nat.mod c 16)))) 4294967296

theorem idxInfo_rows : ∀ a ∈ idxInfo.flatten, a < 352 := by
  have k : ∀ r ∈ idxInfo, ∀ a ∈ r, a < 352 := by decide +kernel
  exact fun a h => (List.mem_flatten.1 h).elim fun r hr => k r hr.1 a hr.2

theorem elem_idx {i : Nat} (h : i < 4096) : elem idxInfo i = some ((IDX >>> (16 * i)) % 65536) := by
  rw [elem, pack_get (w := 16) idxInfo_small (by rw [idxInfo_len]; exact h), IDX_pack]

theorem elem_info {i : Nat} (h : i < 5632) : elem info i = some ((INFO >>> (32 * i)) % 4294967296) := by
  rw [elem, pack_get (w := 32) info_small (by rw [info_len]; exact h), INFO_pack]

theorem charProp_fast {c : Nat} (h : c < 65536) : charProp c = some (fprop c) := by
  have h1 : c >>> 4 < 4096 := by rw [Nat.shiftRight_eq_div_pow]; omega
  have h2 : (IDX >>> (16 * (c >>> 4))) % 65536 < 352 := idxInfo_rows _ (List.mem_of_getElem? (elem_idx h1))
  rw [charProp, elem_idx h1, Option.bind_some, Nat.shiftLeft_eq, elem_info (by omega), show c >>> 4 = c / 16 from Nat.shiftRight_eq_div_pow c 4]
  rfl

def ridx (e : Nat) : Nat := Nat.mod (Nat.shiftRight IDX (Nat.mul 16 e)) 65536
def cell (r i : Nat) : Nat := Nat.mod (Nat.shiftRight INFO (Nat.mul 32 (Nat.add (Nat.mul r 16) i))) 4294967296
def bit (n i : Nat) : Bool := Nat.beq (Nat.mod (Nat.shiftRight n i) 2) 1

theorem fprop_cell (c : Nat) : fprop c = cell (ridx (c / 16)) (c % 16) := rfl

theorem ridx_lt {e : Nat} (h : e < 4096) : ridx e < 352 := idxInfo_rows _ (List.mem_of_getElem? (elem_idx h))

theorem fprop_lt (c : Nat) : fprop c < 4294967296 := Nat.mod_lt _ (by decide)

/-! ## Rows without case -/

/-- rows of `info` whose characters have no case -/
def CASELESS : Nat := 0xfefffffffffffffffffff87fffffffcefffe001fffffffffffffffffffffffffffffffffe00006ff0000010f

theorem caseless_rows : allR (fun r => !bit CASELESS r || allR (fun i => Nat.beq (Nat.shiftRight (cell r i) 15) 0 && !Nat.beq (Nat.mod (cell r i) 32) 7) 4 0) 9 0 =
    true := by decide +kernel

theorem caseless {c : Nat} (hc : c < 65536) (h : bit CASELESS (ridx (c / 16)) = true) : fprop c >>> 15 = 0 ∧ fprop c % 32 ≠ 7 := by
  have h1 := ridx_lt (e := c / 16) (by omega)
  have h2 := allR_get caseless_rows _ (Nat.zero_le _) (show ridx (c / 16) < 0 + 2 ^ 9 by omega)
  rw [h] at h2
  simp only [Bool.not_true, Bool.false_or] at h2
  have h3 := allR_get h2 (c % 16) (Nat.zero_le _) (by omega)
  rw [← fprop_cell, Bool.and_eq_true, Bool.not_eq_true'] at h3
  exact ⟨Nat.eq_of_beq_eq_true h3.1, Nat.ne_of_beq_eq_false h3.2⟩

def flower (c : Nat) : Nat :=
  let p := fprop c
  if Nat.beq (Nat.mod p 32) 4 then c else if Nat.beq (Nat.mod p 32) 7 then Nat.succ c else Nat.mod (Nat.sub (Nat.add c 65536) (Nat.shiftRight p 16)) 65536

def fupper (c : Nat) : Nat :=
  let p := fprop c
  if Nat.beq (Nat.mod p 32) 8 then c else if Nat.beq (Nat.mod p 32) 7 then Nat.pred c else Nat.mod (Nat.sub (Nat.add c 65536) (Nat.shiftRight p 16)) 65536

def ftitle (c : Nat) : Nat :=
  let p := fprop c
  if Nat.beq (Nat.mod (Nat.shiftRight p 15) 2) 1 then
    (if Nat.beq (Nat.mod p 32) 8 then Nat.succ c else if Nat.beq (Nat.mod p 32) 4 then Nat.pred c else c)
  else if Nat.beq (Nat.mod p 32) 4 then Nat.mod (Nat.sub (Nat.add c 65536) (Nat.shiftRight p 16)) 65536 else c

theorem if_beq {α : Type} (a b : Nat) (x y : α) : (if Nat.beq a b = true then x else y) = if a = b then x else y := by
  by_cases h : a = b
  · rw [if_pos h, if_pos (by rw [h]; exact Nat.beq_refl b)]
  · rw [if_neg h, if_neg (by rw [Nat.beq_eq]; exact h)]

theorem toLowerCase_fast {c : Nat} (h : c < 65536) : toLowerCase c = some (flower c) := by
  rw [toLowerCase, charProp_fast h, Option.map_some, flower]
  simp only [if_beq]
  rfl

theorem toUpperCase_fast {c : Nat} (h : c < 65536) : toUpperCase c = some (fupper c) := by
  rw [toUpperCase, charProp_fast h, Option.map_some, fupper]
  simp only [if_beq]
  rfl

theorem toTitleCase_fast {c : Nat} (h : c < 65536) : toTitleCase c = some (ftitle c) := by
  rw [toTitleCase, charProp_fast h, Option.map_some, ftitle]
  simp only [if_beq, hasTitle, beq_iff_eq]
  rfl

/-- the law holds in every row with case, by the table; in the others it is asked -/
theorem by_rows {P : Nat → Bool} (h : allR (fun e => bit CASELESS (ridx e) || allR P 4 (Nat.mul 16 e)) 12 0 = true)
    
    (h2 : ∀ c, c < 65536 → bit CASELESS (ridx (c / 16)) = true → flower c = c → fupper c = c → ftitle c = c → P c = true) {c : Nat} (hc : c < 65536) : P c = true := by
  have h1 := allR_get h (c / 16) (Nat.zero_le _) (by omega)
  rw [Bool.or_eq_true] at h1
  rcases h1 with h1 | h1
  · obtain ⟨a, b⟩ := caseless hc h1
    have a' : fprop c >>> 16 = 0 := by
      rw [Nat.shiftRight_eq_div_pow] at a ⊢
      omega
    have e : Nat.mod (Nat.sub (Nat.add c 65536) (Nat.shiftRight (fprop c) 16)) 65536 = c := by
      show (c + 65536 - fprop c >>> 16) % 65536 = c
      rw [a']; omega
    have t : Nat.mod (Nat.shiftRight (fprop c) 15) 2 ≠ 1 := by show (fprop c >>> 15) % 2 ≠ 1; rw [a]; decide
    have b' : Nat.mod (fprop c) 32 ≠ 7 := b
    refine h2 c hc h1 ?_ ?_ ?_
    · simp only [flower, if_beq]
      rw [if_neg b', e, ite_self]
    · simp only [fupper, if_beq]
      rw [if_neg b', e, ite_self]
    · simp only [ftitle, if_beq]
      rw [if_neg t, e, ite_self]
  · exact allR_get h1 c (by have : Nat.mul 16 (c / 16) = 16 * (c / 16) := rfl; omega) (by have : Nat.mul 16 (c / 16) = 16 * (c / 16) := rfl; omega)

/-! ## The laws of case -/

/-- is in one of the ranges -/
def inRanges (l : List (Nat × Nat)) (c : Nat) : Bool := l.any fun r => Nat.ble r.1 c && Nat.ble c r.2

/-- characters whose upper case has another lower case -/
def unlike : List (Nat × Nat) :=
  [(0xb5, 0xb5), (0x131, 0x131), (0x17f, 0x17f), (0x345, 0x345), (0x3c2, 0x3c2), (0x3d0, 0x3d1), (0x3d5, 0x3d6), (0x3f0, 0x3f2), (0x3f5, 0x3f5),
   (0x1e9b, 0x1e9b), (0x1f80, 0x1faf), (0x1fb3, 0x1fb3), (0x1fbc, 0x1fbc), (0x1fbe, 0x1fbe), (0x1fc3, 0x1fc3), (0x1fcc, 0x1fcc), (0x1ff3, 0x1ff3),
   (0x1ffc, 0x1ffc)]

/-- Roman numerals and circled letters -/
def swapped : List (Nat × Nat) := [(0x2160, 0x217f), (0x24b6, 0x24e9)]

theorem check_small : allR (fun e => bit CASELESS (ridx e) ||
    allR (fun c => Nat.blt (flower c) 65536 && Nat.blt (fupper c) 65536 && Nat.blt (ftitle c) 65536) 4 (Nat.mul 16 e)) 12 0 = true := by decide +kernel

theorem check_upper : allR (fun e => bit CASELESS (ridx e) ||
    allR (fun c => Nat.beq (flower (fupper c)) (flower c) != (inRanges unlike c || inRanges swapped c)) 4 (Nat.mul 16 e)) 12 0 = true := by decide +kernel

theorem check_swapped : allR (fun e => bit CASELESS (ridx e) ||
    allR (fun c => (if inRanges swapped c then Nat.beq (flower c) (fupper c) && inRanges swapped (fupper c) else !inRanges swapped (fupper c)))
      4 (Nat.mul 16 e)) 12 0 = true := by decide +kernel

theorem ranges_cased {l : List (Nat × Nat)}
    (h : (l.all fun r => (List.range (r.2 + 1 - r.1)).all fun i => !bit CASELESS (ridx ((r.1 + i) / 16))) = true) {c : Nat} (hc : inRanges l c = true) :
    bit CASELESS (ridx (c / 16)) = false := by
  rw [inRanges, List.any_eq_true] at hc
  obtain ⟨r, hr, h1⟩ := hc
  rw [Bool.and_eq_true] at h1
  have h2 := Nat.le_of_ble_eq_true h1.1
  have h3 := Nat.le_of_ble_eq_true h1.2
  have h4 := List.all_eq_true.1 (List.all_eq_true.1 h r hr) (c - r.1) (List.mem_range.2 (by omega))
  rw [Nat.add_sub_cancel' h2] at h4
  simpa using h4

theorem not_ranges {l : List (Nat × Nat)}
    (h : (l.all fun r => (List.range (r.2 + 1 - r.1)).all fun i => !bit CASELESS (ridx ((r.1 + i) / 16))) = true) {c : Nat}
    (hc : bit CASELESS (ridx (c / 16)) = true) : inRanges l c = false := by
  cases hr : inRanges l c with
  | false => rfl
  | true => rw [ranges_cased h hr] at hc; cases hc

theorem unlike_cased : (unlike.all fun r => (List.range (r.2 + 1 - r.1)).all fun i => !bit CASELESS (ridx ((r.1 + i) / 16))) = true := by decide +kernel
theorem swapped_cased : (swapped.all fun r => (List.range (r.2 + 1 - r.1)).all fun i => !bit CASELESS (ridx ((r.1 + i) / 16))) = true := by decide +kernel

theorem small {c : Nat} (hc : c < 65536) : flower c < 65536 ∧ fupper c < 65536 ∧ ftitle c < 65536 := by
  have := by_rows check_small (fun c hc _ h1 h2 h3 => by
    rw [h1, h2, h3]
    have : Nat.blt c 65536 = true := Nat.ble_eq_true_of_le hc
    simp [this]) hc
  rw [Bool.and_eq_true, Bool.and_eq_true] at this
  exact ⟨Nat.le_of_ble_eq_true this.1.1, Nat.le_of_ble_eq_true this.1.2, Nat.le_of_ble_eq_true this.2⟩

theorem lower_upper {c : Nat} (hc : c < 65536) : flower (fupper c) = flower c ↔ inRanges unlike c = false ∧ inRanges swapped c = false := by
  have := by_rows check_upper (fun c hc hr h1 h2 h3 => by
    rw [h2, not_ranges unlike_cased hr, not_ranges swapped_cased hr, Nat.beq_refl]; rfl) hc
  rw [bne_iff_ne, ne_eq] at this
  rw [← Nat.beq_eq]
  grind

theorem swapped_upper {c : Nat} (hc : c < 65536) :
    (inRanges swapped c = true → flower c = fupper c) ∧ inRanges swapped (fupper c) = inRanges swapped c := by
  have := by_rows check_swapped (fun c hc hr h1 h2 h3 => by
    rw [h2, not_ranges swapped_cased hr]; rfl) hc
  cases h : inRanges swapped c with
  | true =>
    rw [h, if_pos rfl, Bool.and_eq_true] at this
    exact ⟨fun _ => Nat.eq_of_beq_eq_true this.1, this.2⟩
  | false =>
    rw [h, if_neg (by simp)] at this
    exact ⟨fun e => (by cases e), by simpa using this⟩

end Verif.Chars
