import Verif.Chars.Checks
/-!
# The tables of categories agree with the category of each character
-/
namespace Verif.Chars

theorem bit_testBit (n i : Nat) : bit n i = n.testBit i := by
  rw [bit, Nat.testBit_eq_decide_div_mod_eq]
  show Nat.beq ((n >>> i) % 2) 1 = _
  rw [Nat.shiftRight_eq_div_pow, Bool.eq_iff_iff, Nat.beq_eq, decide_eq_true_eq]

/-- the bits of category `k` on page `p` -/
def block (k p : Nat) : Nat :=
  Nat.mod (Nat.shiftRight CBITS (Nat.mul 32 (Nat.mod (Nat.shiftRight CIDX (Nat.mul 16 (Nat.add (Nat.mul (Nat.pred k) 256) p))) 65536)))
    0x10000000000000000000000000000000000000000000000000000000000000000

theorem idxCat_pos : ∀ a ∈ idxCat.flatten, a < 3249 := by
  have k : ∀ r ∈ idxCat, ∀ a ∈ r, a < 3249 := by decide +kernel
  exact fun a h => (List.mem_flatten.1 h).elim fun r hr => k r hr.1 a hr.2

theorem elem_idxCat {i : Nat} (h : i < 7168) : elem idxCat i = some ((CIDX >>> (16 * i)) % 65536) := by
  rw [elem, pack_get (w := 16) idxCat_small (by rw [idxCat_len]; exact h), CIDX_pack]

theorem elem_catBits {i : Nat} (h : i < 3256) : elem catBits i = some ((CBITS >>> (32 * i)) % 4294967296) := by
  rw [elem, pack_get (w := 32) catBits_small (by rw [catBits_len]; exact h), CBITS_pack]

theorem cbits_first : CBITS % 0x10000000000000000000000000000000000000000000000000000000000000000 = 0 := by decide +kernel

theorem block_eq (k p : Nat) : block k p = (CBITS >>> (32 * ((CIDX >>> (16 * ((k - 1) * 256 + p))) % 65536))) % 2 ^ 256 := rfl

theorem has_fast {k c : Nat} (h1 : 1 ≤ k) (h2 : k ≤ 28) (hc : c < 65536) : legacyTables.has k c = bit (block k (c / 256)) (c % 256) := by
  have hi : (k - 1) * 256 + c / 256 < 7168 := by omega
  have hp := idxCat_pos _ (List.mem_of_getElem? (elem_idxCat hi))
  rw [bit_testBit, block_eq]
  unfold Verif.CharClass.Tables.has legacyTables
  dsimp only
  rw [elem_idxCat hi]
  generalize (CIDX >>> (16 * ((k - 1) * 256 + c / 256))) % 65536 = pos at hp
  rw [Nat.testBit_mod_two_pow, Nat.testBit_shiftRight, decide_eq_true (by omega : c % 256 < 256), Bool.true_and]
  cases pos with
  | zero =>
    have := congrArg (fun n => n.testBit (c % 256)) cbits_first
    simp only [Nat.zero_testBit] at this
    rw [show (0x10000000000000000000000000000000000000000000000000000000000000000 : Nat) = 2 ^ 256 by decide, Nat.testBit_mod_two_pow,
      decide_eq_true (by omega : c % 256 < 256), Bool.true_and] at this
    rw [Nat.mul_zero, Nat.zero_add, this]
    rfl
  | succ pos =>
    show ((BitVec.ofNat 32 ((elem catBits (pos + 1 + c % 256 / 32)).getD 0)).getLsbD (c % 256 % 32)) = _
    rw [elem_catBits (by omega), Option.getD_some, BitVec.getLsbD_ofNat, decide_eq_true (by omega : c % 256 % 32 < 32), Bool.true_and,
      show (4294967296 : Nat) = 2 ^ 32 by decide, Nat.testBit_mod_two_pow, decide_eq_true (by omega : c % 256 % 32 < 32), Bool.true_and,
      Nat.testBit_shiftRight]
    congr 1
    omega

/-! ## The categories exclude each other -/

def union (p : Nat) : Nat → Nat
  | 0 => 0
  | k + 1 => Nat.lor (union p k) (block (Nat.succ k) p)

def disj (p : Nat) : Nat → Bool
  | 0 => true
  | k + 1 => Nat.beq (Nat.land (union p k) (block (Nat.succ k) p)) 0 && disj p k

attribute [local irreducible] block

theorem union_succ (p n : Nat) : union p (n + 1) = union p n ||| block (n + 1) p := rfl

theorem union_bit (p i : Nat) : ∀ {n k : Nat}, 1 ≤ k → k ≤ n → (block k p).testBit i = true → (union p n).testBit i = true
  | 0, k, h1, h2, _ => by omega
  | n + 1, k, h1, h2, h => by
    rw [union_succ, Nat.testBit_or, Bool.or_eq_true]
    by_cases e : k = n + 1
    · subst e; exact Or.inr h
    · exact Or.inl (union_bit p i h1 (by omega) h)

theorem disj_bit {p : Nat} : ∀ {n : Nat}, disj p n = true → ∀ {a b i : Nat}, 1 ≤ a → a < b → b ≤ n → (block a p).testBit i = true →
    (block b p).testBit i = true → False
  | 0, _, a, b, i, _, _, h3, _, _ => by omega
  | n + 1, h, a, b, i, h1, h2, h3, ha, hb => by
    rw [disj, Bool.and_eq_true] at h
    by_cases e : b = n + 1
    · subst e
      have h0 : union p n &&& block (n + 1) p = 0 := Nat.eq_of_beq_eq_true h.1
      have := congrArg (fun n => n.testBit i) h0
      rw [Nat.testBit_and, union_bit p i h1 (by omega) ha, hb] at this
      simp at this
    · exact disj_bit h.2 h1 h2 (by omega) ha hb

theorem check_disj : allR (fun p => disj p 28) 8 0 = true := by decide +kernel

/-! ## Every character is in the table of its category -/

/-- rows of one category -/
def UNIFORM : Nat := 0x1000007ff5880003a10fffe2300400000000000020400000000000000000020002090c43f0f8001403

theorem uniform_rows : allR (fun r => !bit UNIFORM r || allR (fun i => Nat.beq (Nat.mod (cell r i) 32) (Nat.mod (cell r 0) 32)) 4 0) 9 0 = true := by
  decide +kernel

def rowOk (p j r : Nat) : Bool :=
  let v := Nat.mod (cell r 0) 32
  Nat.blt v 29 && (if Nat.beq v 0 then Nat.beq (Nat.mod (Nat.shiftRight (union p 28) (Nat.mul 16 j)) 65536) 0
    else Nat.beq (Nat.mod (Nat.shiftRight (block v p) (Nat.mul 16 j)) 65536) 65535)

def cellOk (p j r i : Nat) : Bool :=
  let v := Nat.mod (cell r i) 32
  Nat.blt v 29 && (if Nat.beq v 0 then !bit (union p 28) (Nat.add (Nat.mul 16 j) i) else bit (block v p) (Nat.add (Nat.mul 16 j) i))

def entryOk (e : Nat) : Bool :=
  if bit UNIFORM (ridx e) then rowOk (Nat.div e 16) (Nat.mod e 16) (ridx e) else allR (cellOk (Nat.div e 16) (Nat.mod e 16) (ridx e)) 4 0

theorem check_entries : allR entryOk 12 0 = true := by decide +kernel

theorem rows16 {n j i : Nat} (hi : i < 16) (h : Nat.mod (Nat.shiftRight n (Nat.mul 16 j)) 65536 = 65535) : n.testBit (16 * j + i) = true := by
  have h : (n >>> (16 * j)) % 2 ^ 16 = 65535 := h
  have := congrArg (fun n => n.testBit i) h
  rw [Nat.testBit_mod_two_pow, decide_eq_true (by omega : i < 16), Bool.true_and, Nat.testBit_shiftRight] at this
  rw [this, show (65535 : Nat) = 2 ^ 16 - 1 by decide, Nat.testBit_two_pow_sub_one, decide_eq_true hi]

theorem rows16_none {n j i : Nat} (hi : i < 16) (h : Nat.mod (Nat.shiftRight n (Nat.mul 16 j)) 65536 = 0) : n.testBit (16 * j + i) = false := by
  have h : (n >>> (16 * j)) % 2 ^ 16 = 0 := h
  have := congrArg (fun n => n.testBit i) h
  rw [Nat.testBit_mod_two_pow, decide_eq_true (by omega : i < 16), Bool.true_and, Nat.testBit_shiftRight] at this
  rw [this, Nat.zero_testBit]

attribute [local irreducible] union

theorem in_its_table {c : Nat} (hc : c < 65536) : fprop c % 32 < 29 ∧ (fprop c % 32 = 0 → (union (c / 256) 28).testBit (c % 256) = false) ∧
    (fprop c % 32 ≠ 0 → (block (fprop c % 32) (c / 256)).testBit (c % 256) = true) := by
  have h := allR_get check_entries (c / 16) (Nat.zero_le _) (by omega)
  have e1 : c / 16 / 16 = c / 256 := by omega
  have e2 : 16 * (c / 16 % 16) + c % 16 = c % 256 := by omega
  have hr := ridx_lt (e := c / 16) (by omega)
  rw [entryOk] at h
  rw [← e1, ← e2]
  have hi : c % 16 < 16 := by omega
  cases hu : bit UNIFORM (ridx (c / 16)) with
  | true =>
    have hv := allR_get uniform_rows _ (Nat.zero_le _) (show ridx (c / 16) < 0 + 2 ^ 9 by omega)
    rw [hu] at hv
    simp only [Bool.not_true, Bool.false_or] at hv
    have hv := Nat.eq_of_beq_eq_true (allR_get hv (c % 16) (Nat.zero_le _) (by omega))
    rw [← fprop_cell] at hv
    have hv : fprop c % 32 = Nat.mod (cell (ridx (c / 16)) 0) 32 := hv
    rw [hu, if_pos rfl, rowOk] at h
    simp only [Bool.and_eq_true, if_beq, ← hv] at h
    have h : _ ∧ (if fprop c % 32 = 0 then Nat.beq (Nat.mod (Nat.shiftRight (union (c / 16 / 16) 28) (Nat.mul 16 (c / 16 % 16))) 65536) 0
      else Nat.beq (Nat.mod (Nat.shiftRight (block (fprop c % 32) (c / 16 / 16)) (Nat.mul 16 (c / 16 % 16))) 65536) 65535) = true := h
    obtain ⟨h1, h2⟩ := h
    refine ⟨Nat.le_of_ble_eq_true h1, fun h0 => ?_, fun h0 => ?_⟩
    · rw [if_pos h0] at h2
      exact rows16_none hi (Nat.eq_of_beq_eq_true h2)
    · rw [if_neg h0] at h2
      exact rows16 hi (Nat.eq_of_beq_eq_true h2)
  | false =>
    rw [hu, if_neg (by simp)] at h
    have h := allR_get h (c % 16) (Nat.zero_le _) (by omega)
    rw [cellOk, ← fprop_cell] at h
    simp only [Bool.and_eq_true, if_beq, bit_testBit] at h
    have h : _ ∧ (if fprop c % 32 = 0 then !(union (c / 16 / 16) 28).testBit (16 * (c / 16 % 16) + c % 16)
      else (block (fprop c % 32) (c / 16 / 16)).testBit (16 * (c / 16 % 16) + c % 16)) = true := h
    obtain ⟨h1, h2⟩ := h
    refine ⟨Nat.le_of_ble_eq_true h1, fun h0 => ?_, fun h0 => ?_⟩
    · rw [if_pos h0] at h2
      simpa using h2
    · rw [if_neg h0] at h2
      exact h2

/-- the tables of the categories hold exactly the characters of each category -/
theorem has_iff {k c : Nat} (h1 : 1 ≤ k) (h2 : k ≤ 28) (hc : c < 65536) : legacyTables.has k c = true ↔ fprop c % 32 = k := by
  rw [has_fast h1 h2 hc, bit_testBit]
  obtain ⟨i1, i2, i3⟩ := in_its_table hc
  have hd := allR_get check_disj (c / 256) (Nat.zero_le _) (by omega)
  constructor
  · intro h
    by_cases h0 : fprop c % 32 = 0
    · have := union_bit (c / 256) (c % 256) h1 h2 h
      rw [i2 h0] at this
      cases this
    · have h3 := i3 h0
      rcases Nat.lt_trichotomy (fprop c % 32) k with h4 | h4 | h4
      · exact (disj_bit hd (by omega) h4 h2 h3 h).elim
      · exact h4
      · exact (disj_bit hd h1 h4 (by omega) h h3).elim
  · rintro rfl
    exact i3 (by omega)

end Verif.Chars
