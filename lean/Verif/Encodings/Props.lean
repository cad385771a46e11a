import Verif.Encodings.Spec
/-! # C18, C37, C41: encoding and decoding text -/
namespace Verif.Encodings
open Spec

theorem and3F (n : Nat) : n &&& 0x3F = n % 64 := Nat.and_two_pow_sub_one_eq_mod n 6
theorem andFF (n : Nat) : n &&& 0xFF = n % 256 := Nat.and_two_pow_sub_one_eq_mod n 8
theorem and7F (n : Nat) : n &&& 0x7F = n % 128 := Nat.and_two_pow_sub_one_eq_mod n 7
theorem shr6 (n : Nat) : n >>> 6 = n / 64 := Nat.shiftRight_eq_div_pow n 6
theorem shr7 (n : Nat) : n >>> 7 = n / 128 := Nat.shiftRight_eq_div_pow n 7
theorem shr8 (n : Nat) : n >>> 8 = n / 256 := Nat.shiftRight_eq_div_pow n 8
theorem shr12 (n : Nat) : n >>> 12 = n / 4096 := Nat.shiftRight_eq_div_pow n 12
theorem shr14 (n : Nat) : n >>> 14 = n / 16384 := Nat.shiftRight_eq_div_pow n 14
theorem shr16 (n : Nat) : n >>> 16 = n / 65536 := Nat.shiftRight_eq_div_pow n 16

/-- The encoder emits standard UTF-8 for every character of the BMP. -/
theorem toBytes_utf8 {u : Nat} (h : u < 0x10000) : toBytes .utf8 u = utf8 u := by
  unfold toBytes utf8 byte
  simp only [and3F, and7F, shr6, shr12]
  by_cases h1 : u ≤ 0x7F
  · have h1' : u < 0x80 := by omega
    simp only [h1, h1', if_true]; congr 1; omega
  · have h1' : ¬ u < 0x80 := by omega
    by_cases h2 : u ≤ 0x7FF
    · have h2' : u < 0x800 := by omega
      simp only [h1, h1', h2, h2', if_true, if_false]
      have e1 : (0xC0 + u / 64) % 256 = 0xC0 + u / 64 := by omega
      have e2 : (0x80 + u % 64) % 256 = 0x80 + u % 64 := by omega
      rw [e1, e2]
    · have h2' : ¬ u < 0x800 := by omega
      have h3 : u ≤ 0xFFFF := by omega
      simp only [h1, h1', h2, h2', h3, h, if_true, if_false]
      have e1 : (0xE0 + u / 4096) % 256 = 0xE0 + u / 4096 := by omega
      have e2 : (0x80 + u / 64 % 64) % 256 = 0x80 + u / 64 % 64 := by omega
      have e3 : (0x80 + u % 64) % 256 = 0x80 + u % 64 := by omega
      rw [e1, e2, e3]

/-- number of continuation bytes announced by every two byte lead -/
theorem lead2 : ∀ b, 0xC0 ≤ b → b < 0xE0 → nextBytes b 8 0 = 1 ∧ b &&& (0xFF >>> 3) = b - 0xC0 ∧ b >>> 7 ≠ 0 ∧ b >>> 6 ≠ 2 := by
  have h : ∀ i < 32, nextBytes (0xC0 + i) 8 0 = 1 ∧ (0xC0 + i) &&& (0xFF >>> 3) = i ∧ (0xC0 + i) >>> 7 ≠ 0 ∧ (0xC0 + i) >>> 6 ≠ 2 := by
    decide +kernel
  intro b h1 h2
  have := h (b - 0xC0) (by omega)
  rwa [show 0xC0 + (b - 0xC0) = b by omega] at this

/-- ... and by every three byte lead -/
theorem lead3 : ∀ b, 0xE0 ≤ b → b < 0xF0 → nextBytes b 8 0 = 2 ∧ b &&& (0xFF >>> 4) = b - 0xE0 ∧ b >>> 7 ≠ 0 ∧ b >>> 6 ≠ 2 := by
  have h : ∀ i < 16, nextBytes (0xE0 + i) 8 0 = 2 ∧ (0xE0 + i) &&& (0xFF >>> 4) = i ∧ (0xE0 + i) >>> 7 ≠ 0 ∧ (0xE0 + i) >>> 6 ≠ 2 := by
    decide +kernel
  intro b h1 h2
  have := h (b - 0xE0) (by omega)
  rwa [show 0xE0 + (b - 0xE0) = b by omega] at this

theorem utf8_length_pos (u : Nat) : 1 ≤ (utf8 u).length := by
  unfold utf8; split
  · simp
  · split
    · simp
    · split <;> simp

theorem decode_step {u : Nat} (h : u < 0x10000) (fuel : Nat) (s : List Nat) :
    decodeUtf8 (fuel + 1) (utf8 u ++ s) = (decodeUtf8 fuel s).map (u :: ·) := by
  unfold utf8
  by_cases h1 : u < 0x80
  · rw [if_pos h1]
    simp only [List.cons_append, List.nil_append, decodeUtf8]
    rw [if_pos (by rw [shr7]; omega)]
  · rw [if_neg h1]
    by_cases h2 : u < 0x800
    · rw [if_pos h2]
      obtain ⟨l1, l2, l3, l4⟩ := lead2 (0xC0 + u / 64) (by omega) (by omega)
      simp only [List.cons_append, List.nil_append, decodeUtf8]
      rw [if_neg l3, if_neg l4, l1]
      simp only [contBytes, and3F]
      rw [l2]
      have : ((0xC0 + u / 64 - 0xC0) <<< (1 * 6)) + (((0x80 + u % 64) % 64) <<< (0 * 6)) = u := by
        simp only [Nat.shiftLeft_eq]
        omega
      rw [this]
    · rw [if_neg h2, if_pos h]
      obtain ⟨l1, l2, l3, l4⟩ := lead3 (0xE0 + u / 4096) (by omega) (by omega)
      simp only [List.cons_append, List.nil_append, decodeUtf8]
      rw [if_neg l3, if_neg l4, l1]
      simp only [contBytes, and3F]
      rw [l2]
      have : ((0xE0 + u / 4096 - 0xE0) <<< (2 * 6)) + (((0x80 + u / 64 % 64) % 64) <<< (1 * 6)) + (((0x80 + u % 64) % 64) <<< (0 * 6)) = u := by
        simp only [Nat.shiftLeft_eq]
        omega
      rw [this]

theorem decode_encode_fuel (text : List Nat) (h : BMP text) (fuel : Nat) (hf : text.length ≤ fuel) :
    decodeUtf8 fuel (encode .utf8 text) = some text := by
  induction text generalizing fuel with
  | nil => cases fuel <;> rfl
  | cons u r ih =>
    cases fuel with
    | zero => simp at hf
    | succ fuel =>
      have hu := h u (by simp)
      simp only [encode, List.flatMap_cons]
      rw [toBytes_utf8 hu, decode_step hu]
      have := ih (fun c hc => h c (by simp [hc])) fuel (by simpa using hf)
      rw [encode] at this
      rw [this]; rfl

theorem encode_length_ge (text : List Nat) (h : BMP text) : text.length ≤ (encode .utf8 text).length := by
  induction text with
  | nil => simp
  | cons u r ih =>
    have := ih (fun c hc => h c (by simp [hc]))
    simp only [encode, List.flatMap_cons, List.length_append, List.length_cons] at this ⊢
    rw [toBytes_utf8 (h u (by simp))]
    have := utf8_length_pos u
    omega

/-- **C18 (partial)** Every text of BMP characters written in UTF-8 is standard UTF-8 and is read back unchanged, and the
reader stays inside the buffer. Missing: characters above U+FFFF (see `C18_violated_astral`). -/
theorem C18_utf8_roundtrip_partial (text : List Nat) (h : BMP text) :
    encode .utf8 text = text.flatMap utf8 ∧ decode .utf8 (encode .utf8 text) = some text := by
  constructor
  · unfold encode
    induction text with
    | nil => rfl
    | cons u r ih =>
      simp only [List.flatMap_cons]
      rw [toBytes_utf8 (h u (by simp)), ih (fun c hc => h c (by simp [hc]))]
  · exact decode_encode_fuel text h _ (encode_length_ge text h)

/-- C18. Any bytes: a byte below 80h is its own character, a continuation byte that belongs to nothing becomes a question mark, and in both cases reading goes on with the next byte -/
theorem C18_single_bytes (b : Nat) (s : List Nat) :
    (b < 0x80 → decode .utf8 (b :: s) = (decode .utf8 s).map (b :: ·)) ∧ (0x80 ≤ b → b < 0xC0 → decode .utf8 (b :: s) = (decode .utf8 s).map (63 :: ·)) := by
  refine ⟨fun h => ?_, fun h1 h2 => ?_⟩
  · show decodeUtf8 (s.length + 1) (b :: s) = _
    rw [decodeUtf8, shr7, if_pos (by omega)]
    rfl
  · show decodeUtf8 (s.length + 1) (b :: s) = _
    rw [decodeUtf8, shr7, if_neg (by omega), shr6, if_pos (by omega)]
    rfl

/-- **C18 is violated** above U+FFFF: U+10000 is written as F4 90 80 80 and read back as U+110000
(Encodings.cpp:116 shifts by 14 instead of 18). -/
theorem C18_violated_astral : encode .utf8 [0x10000] = [0xF4, 0x90, 0x80, 0x80] ∧
    utf8 0x10000 = [0xF0, 0x90, 0x80, 0x80] ∧ decode .utf8 (encode .utf8 [0x10000]) = some [0x110000] := by
  decide +kernel

/-- A truncated UTF-8 buffer makes the reader run past its end (CString.cpp:105-107). -/
theorem C18_violated_truncated_read : decode .utf8 [0x41, 0xE2, 0x82] = none := by decide +kernel

/-! ## UTF-16 and UTF-32 -/

theorem word32_le {w : Nat} (h : w < 65536) : word32 false w = w := by
  unfold word32
  simp only [Bool.false_eq_true, if_false]
  rw [if_neg (by rw [shr16]; omega)]

theorem and_FF00 (v : Nat) : v * 2 ^ 16 &&& 0xFF00 = 0 := by
  rw [← Nat.shiftLeft_eq, show (0xFF00 : Nat) = 0xFF <<< 8 by decide]
  apply Nat.eq_of_testBit_eq
  intro i
  simp only [Nat.testBit_and, Nat.testBit_shiftLeft, Nat.zero_testBit]
  by_cases q : 16 ≤ i
  · have : Nat.testBit 0xFF (i - 8) = false :=
      Nat.testBit_lt_two_pow (Nat.lt_of_lt_of_le (by decide : 0xFF < 2 ^ 8) (Nat.pow_le_pow_right (by decide) (by omega)))
    simp [this]
  · simp [q]

theorem word32_be {u w : Nat} (h : u < 65536) (hw : w = (u / 256 + u % 256 * 256) * 2 ^ 16) : word32 true w = u := by
  unfold word32
  simp only [if_true]
  rw [hw]
  generalize hv : u / 256 + u % 256 * 256 = v
  have hv2 : v < 65536 := by omega
  rw [if_neg (by rw [Nat.shiftLeft_eq]; omega)]
  have a1 : v * 2 ^ 16 &&& 0xFF = 0 := by rw [andFF]; omega
  have a3 : (v * 2 ^ 16 &&& 0xFF0000) >>> 8 = (v % 256) * 256 := by
    rw [← Nat.shiftLeft_eq, show (0xFF0000 : Nat) = 0xFF <<< 16 by decide, ← Nat.shiftLeft_and_distrib, andFF, Nat.shiftLeft_eq, shr8]
    omega
  have a4 : (v * 2 ^ 16 &&& 0xFF000000) >>> 24 = v / 256 := by
    rw [Nat.shiftRight_and_distrib]
    rw [show (0xFF000000 : Nat) >>> 24 = 0xFF by decide, andFF, Nat.shiftRight_eq_div_pow]
    have : v * 2 ^ 16 / 2 ^ 24 = v / 256 := by omega
    rw [this]
    exact Nat.mod_eq_of_lt (by omega)
  rw [a1, and_FF00, a3, a4]
  simp only [Nat.zero_shiftLeft]
  omega

/-- **C37 (partial)** UTF-16 (either byte order): every text of BMP characters is read back unchanged.
UTF-32: the same for texts of characters below U+4000. Missing: characters above U+FFFF in UTF-16 and from U+4000 in
UTF-32 (see `C37_violated_*`). -/
theorem C37_utf16_utf32_roundtrip_partial (text : List Nat) :
    (BMP text → decode .utf16 (encode .utf16 text) = some text ∧ decode .utf16be (encode .utf16be text) = some text) ∧
    ((∀ c ∈ text, c < 0x4000) → decode .utf32 (encode .utf32 text) = some text ∧ decode .utf32be (encode .utf32be text) = some text) := by
  constructor
  · intro h
    simp only [decode, Option.some.injEq]
    induction text with
    | nil => exact ⟨rfl, rfl⟩
    | cons u r ih =>
      have hu := h u (by simp)
      obtain ⟨i1, i2⟩ := ih (fun c hc => h c (by simp [hc]))
      simp only [encode, List.flatMap_cons, toBytes, List.cons_append, List.nil_append, decode16, byte, andFF, shr8] at i1 i2 ⊢
      simp only [Bool.false_eq_true, if_false, if_true]
      rw [i1, i2]
      constructor
      · congr 1; omega
      · congr 1
        have hx : u % 256 < 2 ^ 8 := Nat.mod_lt _ (by decide)
        have h1 : (u / 256 % 256 % 256 + u % 256 % 256 * 256) / 256 = u % 256 := by omega
        have h2 : (u / 256 % 256 % 256 + u % 256 % 256 * 256) % 256 = u / 256 := by omega
        rw [h1, h2, Nat.or_comm, ← Nat.shiftLeft_add_eq_or_of_lt hx, Nat.shiftLeft_eq]
        omega
  · intro h
    simp only [decode, Option.some.injEq]
    induction text with
    | nil => exact ⟨rfl, rfl⟩
    | cons u r ih =>
      have hu := h u (by simp)
      obtain ⟨i1, i2⟩ := ih (fun c hc => h c (by simp [hc]))
      simp only [encode, List.flatMap_cons, toBytes, List.cons_append, List.nil_append, decode32, byte, andFF, shr8, shr14, shr16] at i1 i2 ⊢
      rw [i1, i2]
      have e1 : u / 16384 % 256 % 256 = 0 := by omega
      have e2 : u / 65536 % 256 % 256 = 0 := by omega
      have e3 : u / 256 % 256 % 256 = u / 256 := by omega
      have e4 : u % 256 % 256 = u % 256 := by omega
      rw [e1, e2, e3, e4]
      constructor
      · rw [word32_le (w := u % 256 + u / 256 * 256 + 0 * 65536 + 0 * 16777216) (by omega)]
        have : u % 256 + u / 256 * 256 + 0 * 65536 + 0 * 16777216 = u := by omega
        rw [this]
      · rw [word32_be (u := u) (by omega) (by omega)]

/-- **C37 is violated**: in UTF-32 the character U+4E00 is read back as U+FFFD (Encodings.cpp:141, 149: `>> 14`). -/
theorem C37_violated_utf32 : decode .utf32 (encode .utf32 [0x4E00]) = some [0xFFFD] := by decide +kernel

/-- **C37 is violated**: in UTF-16 the character U+1F600 loses its upper bits (no surrogates). -/
theorem C37_violated_utf16 : decode .utf16 (encode .utf16 [0x1F600]) = some [0xF600] := by decide +kernel

/-! ## the buffer of getChars -/

theorem toBytes_length (enc : Enc) (u : Nat) : (toBytes enc u).length ≤ 4 := by
  cases enc <;> simp only [toBytes] <;> (repeat' split) <;> simp

theorem getCharsLoop_spec (enc : Enc) (n : Nat) (r : List Nat) (i localLen : Nat) (out : List Nat)
    (hn : i + r.length = n) (hout : out.length ≤ localLen) (h0 : i = 0 → out = []) :
    getCharsLoop enc n r i localLen out = some (out ++ encode enc r) := by
  induction r generalizing i localLen out with
  | nil => simp only [getCharsLoop]; rw [if_pos (by omega)]; simp [encode]
  | cons u r ih =>
    have h4 := toBytes_length enc u
    simp only [List.length_cons] at hn
    simp only [getCharsLoop]
    have hge : out.length + (toBytes enc u).length ≤
        (if out.length + (toBytes enc u).length > localLen then (if i = 0 then 8 else (localLen * n) / i + 8) else localLen) := by
      split
      · by_cases hi : i = 0
        · rw [if_pos hi, h0 hi]; simp; omega
        · rw [if_neg hi]
          have h1 : localLen ≤ localLen * n / i := by
            rw [Nat.le_div_iff_mul_le (by omega)]
            exact Nat.mul_le_mul_left _ (by omega)
          omega
      · omega
    rw [if_pos (by omega), ih (i + 1) _ _ (by omega) (by simp only [List.length_append]; exact hge) (by omega)]
    simp [encode]

/-- **C41** For every text and encoding, `getChars` never writes outside the buffer it (re)allocates, the terminating
zero included, and its content is the concatenation of the encodings of the characters. -/
theorem C41_getChars_stays_in_buffer (enc : Enc) (text : List Nat) : getChars enc text = some (encode enc text) := by
  rw [getChars, getCharsLoop_spec enc _ _ _ _ _ (by omega) (by simp) (fun _ => rfl)]
  rfl

/-! ## Concrete case: "Aé€" and a longer text -/
example : BMP [0x41, 0xE9, 0x20AC] := by intro c hc; simp at hc; omega
example : encode .utf8 [0x41, 0xE9, 0x20AC] = [0x41, 0xC3, 0xA9, 0xE2, 0x82, 0xAC] := by decide +kernel
example : getChars .utf8 [0x20AC, 0x20AC, 0x20AC, 0x20AC] = some (encode .utf8 [0x20AC, 0x20AC, 0x20AC, 0x20AC]) := by decide +kernel

end Verif.Encodings
