import Verif.CharClass.Spec
namespace Verif.CharClass

theorem bit_test (w : BitVec 32) (k : Nat) (hk : k < 32) : ((w &&& (1#32 <<< k)) != 0) = w.getLsbD k := by
  cases h : w.getLsbD k with
  | true =>
    have : (w &&& (1#32 <<< k)).getLsbD k = true := by simp [h, hk]
    simp only [bne_iff_ne, ne_eq]
    intro h0
    rw [h0] at this
    simp at this
  | false =>
    simp only [bne_eq_false_iff_eq]
    apply BitVec.eq_of_getLsbD_eq
    intro i hi
    by_cases hik : i = k
    · subst hik; simp [h]
    · by_cases h1 : i < k
      · simp [h1]
      · have : ¬ (i - k = 0) := by omega
        simp [h1, this]

theorem ones_bit (i : Nat) (hi : i < 32) : ones.getLsbD i = true := by
  rw [ones, BitVec.getLsbD_allOnes]; simp [hi]

theorem ones_get (i : Nat) (hi : i < 32) : ones[i] = true := by
  rw [← BitVec.getLsbD_eq_getElem hi]; exact ones_bit i hi

theorem getBit_load (b : BA) (p : Nat) : b.getBit p = (b.load (p / 32)).getLsbD (p % 32) := by
  have : p % 32 < 32 := Nat.mod_lt _ (by omega)
  unfold BA.getBit BA.load
  cases b.arr with
  | null => simp
  | full => simp only [ones_bit _ this]
  | words w => exact bit_test _ _ this

theorem maskUp_bit (k i : Nat) (_hi : i < 32) : (maskUp k).getLsbD i = decide (k ≤ i) := by
  simp only [maskUp, ones, BitVec.getLsbD_shiftLeft, BitVec.getLsbD_allOnes]
  by_cases h : k ≤ i <;> simp [h] <;> omega

theorem maskDown_bit (k i : Nat) (hk : k < 32) (_hi : i < 32) : (maskDown k).getLsbD i = decide (i ≤ k) := by
  simp only [maskDown, ones, BitVec.getLsbD_ushiftRight, BitVec.getLsbD_allOnes]
  by_cases h : i ≤ k <;> simp [h] <;> omega

theorem one_bit (k i : Nat) (hk : k < 32) : (1#32 <<< k).getLsbD i = decide (i = k) := by
  rw [BitVec.getLsbD_shiftLeft]
  by_cases h : i = k
  · subst h; simp [hk]
  · simp [h]
    omega

/-- bit `p` of a word function -/
def bit (w : Nat → BitVec 32) (p : Nat) : Bool := (w (p / 32)).getLsbD (p % 32)

theorem getBit_eq (b : BA) (p : Nat) : b.getBit p = bit b.load p := getBit_load b p

@[simp] theorem load_words (n : Nat) (w) : BA.load ⟨n, .words w⟩ = w := rfl
@[simp] theorem load_full (n : Nat) : BA.load ⟨n, .full⟩ = fun _ => ones := rfl
@[simp] theorem load_null (n : Nat) : BA.load ⟨n, .null⟩ = fun _ => 0 := rfl

theorem bit_ones (p : Nat) : bit (fun _ => ones) p = true := by
  have : p % 32 < 32 := Nat.mod_lt _ (by omega)
  simp only [bit, ones_bit _ this]
theorem bit_zero (p : Nat) : bit (fun _ => 0) p = false := by simp [bit]

theorem setBit_spec {b : BA} {pos : Nat} (h : pos < 32 * b.size) :
    ∃ b', b.setBit pos = some b' ∧ b'.size = b.size ∧ ∀ p, b'.getBit p = (decide (p = pos) || b.getBit p) := by
  have hp : pos / 32 < b.size := by omega
  have hm : pos % 32 < 32 := by omega
  unfold BA.setBit
  have key : ∀ p, bit (upd b.load (pos / 32) (b.load (pos / 32) ||| (1#32 <<< (pos % 32)))) p = (decide (p = pos) || bit b.load p) := by
    intro p
    unfold bit upd
    by_cases h1 : p / 32 = pos / 32
    · rw [if_pos h1, BitVec.getLsbD_or, one_bit _ _ hm, h1]
      have : (p % 32 = pos % 32) = (p = pos) := by apply propext; constructor <;> omega
      simp only [this]
      rw [Bool.or_comm]
    · rw [if_neg h1]
      have : p ≠ pos := by rintro rfl; exact h1 rfl
      simp [this]
  split
  · rename_i hb
    refine ⟨b, rfl, rfl, ?_⟩
    intro p
    simp [BA.getBit, hb]
  · rw [if_pos hp]
    exact ⟨_, rfl, rfl, fun p => by rw [getBit_eq, getBit_eq, load_words]; exact key p⟩

theorem clearBit_spec {b : BA} {pos : Nat} (h : pos < 32 * b.size) :
    ∃ b', b.clearBit pos = some b' ∧ b'.size = b.size ∧ ∀ p, b'.getBit p = (!decide (p = pos) && b.getBit p) := by
  have hp : pos / 32 < b.size := by omega
  have hm : pos % 32 < 32 := by omega
  unfold BA.clearBit
  have key : ∀ p, bit (upd b.load (pos / 32) (b.load (pos / 32) &&& ~~~(1#32 <<< (pos % 32)))) p = (!decide (p = pos) && bit b.load p) := by
    intro p
    have hpm : p % 32 < 32 := by omega
    unfold bit upd
    by_cases h1 : p / 32 = pos / 32
    · rw [if_pos h1, BitVec.getLsbD_and, BitVec.getLsbD_not, one_bit _ _ hm, h1]
      have : (p % 32 = pos % 32) = (p = pos) := by apply propext; constructor <;> omega
      simp only [this, hpm]
      rw [Bool.and_comm]; simp
    · rw [if_neg h1]
      have : p ≠ pos := by rintro rfl; exact h1 rfl
      simp [this]
  split
  · rename_i hb
    refine ⟨b, rfl, rfl, ?_⟩
    intro p
    simp [BA.getBit, hb]
  · rw [if_pos hp]
    exact ⟨_, rfl, rfl, fun p => by rw [getBit_eq, getBit_eq, load_words]; exact key p⟩

/-- What `addRange` really sets: up to the end of the cell in the unhandled case. -/
def addTo (s e : Nat) : Nat := if s % 32 = 0 ∧ s / 32 = e / 32 then s + 31 else e

theorem addRange_spec {b : BA} {s e : Nat} (hse : s ≤ e) (h : e < 32 * b.size) :
    ∃ b', b.addRange s e = some b' ∧ b'.size = b.size ∧
      ∀ p, p < 32 * b.size → b'.getBit p = (decide (s ≤ p ∧ p ≤ addTo s e) || b.getBit p) := by
  have hs : s / 32 < b.size := by omega
  have he : e / 32 < b.size := by omega
  unfold BA.addRange
  split
  · rename_i hb
    refine ⟨b, rfl, rfl, ?_⟩
    intro p _
    simp [BA.getBit, hb]
  · rw [if_pos ⟨hs, he⟩]
    simp only
    have hms : s % 32 < 32 := by omega
    have hme : e % 32 < 32 := by omega
    -- the words before the "all ones" shortcut
    have key : ∀ p, p < 32 * b.size → bit (fillWords
        (if s / 32 ≠ e / 32 ∧ e % 32 ≠ 31 then
          upd (if s % 32 ≠ 0 then upd b.load (s / 32) (b.load (s / 32) |||
              (if e / 32 = s / 32 then maskUp (s % 32) &&& maskDown (e % 32) else maskUp (s % 32))) else b.load) (e / 32)
            ((if s % 32 ≠ 0 then upd b.load (s / 32) (b.load (s / 32) |||
              (if e / 32 = s / 32 then maskUp (s % 32) &&& maskDown (e % 32) else maskUp (s % 32))) else b.load) (e / 32) ||| maskDown (e % 32))
        else (if s % 32 ≠ 0 then upd b.load (s / 32) (b.load (s / 32) |||
              (if e / 32 = s / 32 then maskUp (s % 32) &&& maskDown (e % 32) else maskUp (s % 32))) else b.load))
        (if s % 32 ≠ 0 then s / 32 + 1 else s / 32)
        (if s / 32 ≠ e / 32 ∧ e % 32 ≠ 31 then e / 32 else e / 32 + 1) ones) p
        = (decide (s ≤ p ∧ p ≤ addTo s e) || bit b.load p) := by
      intro p _
      have hpm : p % 32 < 32 := by omega
      unfold bit fillWords
      by_cases c1 : (if s % 32 ≠ 0 then s / 32 + 1 else s / 32) ≤ p / 32 ∧
          p / 32 < (if s / 32 ≠ e / 32 ∧ e % 32 ≠ 31 then e / 32 else e / 32 + 1)
      · rw [if_pos c1]
        have : s ≤ p ∧ p ≤ addTo s e := by
          unfold addTo
          obtain ⟨c1, c2⟩ := c1
          constructor
          · split at c1 <;> omega
          · split at c1 <;> split at c2 <;> split <;> omega
        rw [ones_bit _ hpm]; simp [this]
      · rw [if_neg c1]
        by_cases c3 : p / 32 = e / 32 ∧ (s / 32 ≠ e / 32 ∧ e % 32 ≠ 31)
        · obtain ⟨c3, c4⟩ := c3
          rw [if_pos c4]
          unfold upd
          rw [if_pos c3]
          have hb : (if s % 32 ≠ 0 then fun j => if j = s / 32 then (b.load (s / 32) |||
              (if e / 32 = s / 32 then maskUp (s % 32) &&& maskDown (e % 32) else maskUp (s % 32))) else b.load j else b.load) (e / 32)
              = b.load (e / 32) := by
            split
            · simp only; rw [if_neg (by omega)]
            · rfl
          rw [hb, BitVec.getLsbD_or, maskDown_bit _ _ hme hpm, c3]
          have : (p % 32 ≤ e % 32) = (s ≤ p ∧ p ≤ addTo s e) := by
            apply propext; unfold addTo
            rw [if_neg (by omega)]
            constructor <;> omega
          simp only [this]
          rw [Bool.or_comm]
        · have hb : (if s / 32 ≠ e / 32 ∧ e % 32 ≠ 31 then
              upd (if s % 32 ≠ 0 then upd b.load (s / 32) (b.load (s / 32) |||
              (if e / 32 = s / 32 then maskUp (s % 32) &&& maskDown (e % 32) else maskUp (s % 32))) else b.load) (e / 32)
            ((if s % 32 ≠ 0 then upd b.load (s / 32) (b.load (s / 32) |||
              (if e / 32 = s / 32 then maskUp (s % 32) &&& maskDown (e % 32) else maskUp (s % 32))) else b.load) (e / 32) ||| maskDown (e % 32))
        else (if s % 32 ≠ 0 then upd b.load (s / 32) (b.load (s / 32) |||
              (if e / 32 = s / 32 then maskUp (s % 32) &&& maskDown (e % 32) else maskUp (s % 32))) else b.load)) (p / 32)
              = (if s % 32 ≠ 0 then upd b.load (s / 32) (b.load (s / 32) |||
              (if e / 32 = s / 32 then maskUp (s % 32) &&& maskDown (e % 32) else maskUp (s % 32))) else b.load) (p / 32) := by
            split
            · rename_i h4
              conv => lhs; unfold upd
              rw [if_neg (by intro h; exact c3 ⟨h, h4⟩)]
              rfl
            · rfl
          rw [hb]
          by_cases c5 : s % 32 ≠ 0
          · rw [if_pos c5] at c1 ⊢
            unfold upd
            by_cases c6 : p / 32 = s / 32
            · rw [if_pos c6, BitVec.getLsbD_or, c6]
              have hmk : (if e / 32 = s / 32 then maskUp (s % 32) &&& maskDown (e % 32) else maskUp (s % 32)).getLsbD (p % 32)
                  = decide (s ≤ p ∧ p ≤ addTo s e) := by
                have ha : addTo s e = e := if_neg (by omega)
                rw [ha]
                split
                · rw [BitVec.getLsbD_and, maskUp_bit _ _ hpm, maskDown_bit _ _ hme hpm, ← Bool.decide_and]
                  congr 1; apply propext; constructor <;> omega
                · rw [maskUp_bit _ _ hpm]
                  congr 1; apply propext; constructor <;> omega
              rw [hmk, Bool.or_comm]
            · rw [if_neg c6]
              have : ¬ (s ≤ p ∧ p ≤ addTo s e) := by
                unfold addTo
                rw [if_neg (by omega)]
                split at c1 <;> omega
              simp [this]
          · rw [if_neg c5] at c1 ⊢
            have : ¬ (s ≤ p ∧ p ≤ addTo s e) := by
              unfold addTo
              split at c1 <;> split <;> omega
            simp [this]
    by_cases hfull : (if s % 32 ≠ 0 then s / 32 + 1 else s / 32) = 0 ∧
        (if s / 32 ≠ e / 32 ∧ e % 32 ≠ 31 then e / 32 else e / 32 + 1) = b.size
    · rw [if_pos hfull]
      refine ⟨_, rfl, rfl, ?_⟩
      intro p hp
      rw [getBit_eq, getBit_eq, load_full, bit_ones]
      have : s ≤ p ∧ p ≤ addTo s e := by
        obtain ⟨f1, f2⟩ := hfull
        unfold addTo
        split at f1 <;> split at f2 <;> split <;> omega
      simp [this]
    · rw [if_neg hfull]
      exact ⟨_, rfl, rfl, fun p hp => by rw [getBit_eq, getBit_eq, load_words]; exact key p hp⟩

theorem addTo_ok {s e : Nat} (hse : s ≤ e) (h : AddOk s e) : addTo s e = e := by
  unfold addTo
  split
  · rename_i h1
    have := h.1 h1.1 h1.2
    omega
  · rfl

theorem clearRange_spec {b : BA} {s e : Nat} (_hse : s ≤ e) (h : e < 32 * b.size) (hok : ClearOkBA s e) :
    ∃ b', b.clearRange s e = some b' ∧ b'.size = b.size ∧
      ∀ p, p < 32 * b.size → b'.getBit p = (!decide (s ≤ p ∧ p ≤ e) && b.getBit p) := by
  have hs : s / 32 < b.size := by omega
  have he : e / 32 < b.size := by omega
  obtain ⟨o1, o2, o3⟩ := hok
  unfold BA.clearRange
  split
  · rename_i hb
    refine ⟨b, rfl, rfl, ?_⟩
    intro p _
    simp [BA.getBit, hb]
  · rw [if_pos ⟨hs, he⟩]
    simp only
    have hms : s % 32 < 32 := by omega
    have hme : e % 32 < 32 := by omega
    generalize hmkd : (if e % 32 = s % 32 then maskUp (s % 32) &&& maskDown (e % 32) else maskUp (s % 32)) = mk
    have key : ∀ p, p < 32 * b.size → bit (fillWords
        (if s / 32 ≠ e / 32 ∧ e % 32 ≠ 31 then
          upd (if s % 32 ≠ 0 then upd b.load (s / 32) (b.load (s / 32) &&& ~~~mk) else b.load) (e / 32)
            ((if s % 32 ≠ 0 then upd b.load (s / 32) (b.load (s / 32) &&& ~~~mk) else b.load) (e / 32) &&& ~~~(maskDown (e % 32)))
        else (if s % 32 ≠ 0 then upd b.load (s / 32) (b.load (s / 32) &&& ~~~mk) else b.load))
        (if s % 32 ≠ 0 then s / 32 + 1 else s / 32)
        (if s / 32 ≠ e / 32 ∧ e % 32 ≠ 31 then e / 32 else e / 32 + 1) 0) p
        = (!decide (s ≤ p ∧ p ≤ e) && bit b.load p) := by
      intro p _
      have hpm : p % 32 < 32 := by omega
      unfold bit fillWords
      by_cases c1 : (if s % 32 ≠ 0 then s / 32 + 1 else s / 32) ≤ p / 32 ∧
          p / 32 < (if s / 32 ≠ e / 32 ∧ e % 32 ≠ 31 then e / 32 else e / 32 + 1)
      · rw [if_pos c1]
        have : s ≤ p ∧ p ≤ e := by
          obtain ⟨c1, c2⟩ := c1
          constructor
          · split at c1 <;> omega
          · split at c1 <;> split at c2 <;> omega
        simp [this]
      · rw [if_neg c1]
        by_cases c3 : p / 32 = e / 32 ∧ (s / 32 ≠ e / 32 ∧ e % 32 ≠ 31)
        · obtain ⟨c3, c4⟩ := c3
          rw [if_pos c4]
          unfold upd
          rw [if_pos c3]
          have hb : (if s % 32 ≠ 0 then fun j => if j = s / 32 then (b.load (s / 32) &&& ~~~mk) else b.load j else b.load) (e / 32)
              = b.load (e / 32) := by
            split
            · simp only; rw [if_neg (by omega)]
            · rfl
          rw [hb, BitVec.getLsbD_and, BitVec.getLsbD_not, maskDown_bit _ _ hme hpm, c3]
          have : (p % 32 ≤ e % 32) = (s ≤ p ∧ p ≤ e) := by
            apply propext
            constructor <;> omega
          simp only [this, hpm]
          rw [Bool.and_comm]; simp
        · have hb : (if s / 32 ≠ e / 32 ∧ e % 32 ≠ 31 then
              upd (if s % 32 ≠ 0 then upd b.load (s / 32) (b.load (s / 32) &&& ~~~mk) else b.load) (e / 32)
            ((if s % 32 ≠ 0 then upd b.load (s / 32) (b.load (s / 32) &&& ~~~mk) else b.load) (e / 32) &&& ~~~(maskDown (e % 32)))
        else (if s % 32 ≠ 0 then upd b.load (s / 32) (b.load (s / 32) &&& ~~~mk) else b.load)) (p / 32)
              = (if s % 32 ≠ 0 then upd b.load (s / 32) (b.load (s / 32) &&& ~~~mk) else b.load) (p / 32) := by
            split
            · rename_i h4
              conv => lhs; unfold upd
              rw [if_neg (by intro h; exact c3 ⟨h, h4⟩)]
              rfl
            · rfl
          rw [hb]
          by_cases c5 : s % 32 ≠ 0
          · rw [if_pos c5] at c1 ⊢
            unfold upd
            by_cases c6 : p / 32 = s / 32
            · rw [if_pos c6, BitVec.getLsbD_and, BitVec.getLsbD_not, c6]
              have hmk : mk.getLsbD (p % 32) = decide (s ≤ p ∧ p ≤ e) := by
                rw [← hmkd]
                split
                · rw [BitVec.getLsbD_and, maskUp_bit _ _ hpm, maskDown_bit _ _ hme hpm, ← Bool.decide_and]
                  congr 1; apply propext
                  have := o2 c5; have := o3 c5
                  constructor <;> omega
                · rw [maskUp_bit _ _ hpm]
                  congr 1; apply propext
                  have := o2 c5; have := o3 c5
                  constructor <;> omega
              rw [hmk, Bool.and_comm]; simp [hpm]
            · rw [if_neg c6]
              have : ¬ (s ≤ p ∧ p ≤ e) := by
                split at c1 <;> omega
              simp only [this]; simp
          · rw [if_neg c5] at c1 ⊢
            have : ¬ (s ≤ p ∧ p ≤ e) := by
              split at c1 <;> omega
            simp only [this]; simp
    by_cases hfull : (if s % 32 ≠ 0 then s / 32 + 1 else s / 32) = 0 ∧
        (if s / 32 ≠ e / 32 ∧ e % 32 ≠ 31 then e / 32 else e / 32 + 1) = b.size
    · rw [if_pos hfull]
      refine ⟨_, rfl, rfl, ?_⟩
      intro p hp
      rw [getBit_eq, getBit_eq, load_null, bit_zero]
      have : s ≤ p ∧ p ≤ e := by
        obtain ⟨f1, f2⟩ := hfull
        split at f1 <;> split at f2 <;> omega
      simp [this]
    · rw [if_neg hfull]
      exact ⟨_, rfl, rfl, fun p hp => by rw [getBit_eq, getBit_eq, load_words]; exact key p hp⟩

/-- bit of the argument pointer -/
def argBit (a : Option BA) (p : Nat) : Bool := match a with | none => false | some b => b.getBit p

theorem addBA_spec (b : BA) (a : Option BA) : (b.addBA a).size = b.size ∧
    ∀ p, (b.addBA a).getBit p = (b.getBit p || argBit a p) := by
  obtain ⟨n, arr⟩ := b
  have hp : ∀ p, p % 32 < 32 := fun p => Nat.mod_lt _ (by omega)
  cases a with
  | none => cases arr <;> simp [BA.addBA, argArr, argBit]
  | some a =>
    obtain ⟨m, ar⟩ := a
    cases arr <;> cases ar <;> simp [BA.addBA, argArr, argBit, getBit_eq, bit, ones_get, hp]

theorem clearBA_spec (b : BA) (a : Option BA) : (b.clearBA a).size = b.size ∧
    ∀ p, (b.clearBA a).getBit p = (b.getBit p && !argBit a p) := by
  obtain ⟨n, arr⟩ := b
  have hp : ∀ p, p % 32 < 32 := fun p => Nat.mod_lt _ (by omega)
  cases a with
  | none => cases arr <;> simp [BA.clearBA, argArr, argBit]
  | some a =>
    obtain ⟨m, ar⟩ := a
    cases arr <;> cases ar <;> simp [BA.clearBA, argArr, argBit, getBit_eq, bit, ones_get, hp]

theorem intersectBA_spec {b b' : BA} {a : Option BA} (h : b.intersectBA a = some b') : b'.size = b.size ∧
    ∀ p, b'.getBit p = (b.getBit p && argBit a p) := by
  obtain ⟨n, arr⟩ := b
  have hp : ∀ p, p % 32 < 32 := fun p => Nat.mod_lt _ (by omega)
  cases a with
  | none =>
    cases arr <;> simp [BA.intersectBA, argArr] at h <;> subst h <;> simp [argBit, getBit_eq, bit]
  | some a =>
    obtain ⟨m, ar⟩ := a
    cases arr <;> cases ar <;> simp [BA.intersectBA, argArr] at h <;> subst h <;>
      simp [argBit, getBit_eq, bit, ones_get, hp]

end Verif.CharClass
