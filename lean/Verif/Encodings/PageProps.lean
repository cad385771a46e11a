import Verif.Encodings.Pages
import Verif.Encodings.Props
import Verif.Chars.Checks
/-!
# C85: texts in a one byte code page
-/
namespace Verif.Encodings
open Verif.Chars (allR allR_get)

/-! ## The checks, in the kernel -/

def fenc (i : Nat) : Nat := Nat.mod (Nat.shiftRight PAGES (Nat.mul 16 i)) 65536
def frev (i : Nat) : Nat := Nat.mod (Nat.shiftRight REV (Nat.mul 8 i)) 256

/-- the row of characters `w` with `w / 128 = h` in page `p / 512`, for `p = 512 e + h` -/
def frow (p : Nat) : Nat := frev p

/-- rows are inside the array -/
theorem check_rows : allR (fun p => Nat.ble (frow p) 35) 12 0 = true := by decide +kernel

/-- row 0 is empty -/
theorem check_row0 : allR (fun l => Nat.beq (frev (Nat.add 4096 l)) 0) 7 0 = true := by decide +kernel

/-- every byte that stands for a character (other than U+0000) is the one written for it -/
theorem check_back : allR (fun i => Nat.beq (fenc i) 0 ||
    Nat.beq (frev (Nat.add 4096 (Nat.add (Nat.mul (frow (Nat.add (Nat.mul 512 (Nat.div i 256)) (Nat.div (fenc i) 128))) 128) (Nat.mod (fenc i) 128)))) (Nat.mod i 256)) 11 0 = true := by
  decide +kernel

/-- every byte written for a character stands for it -/
theorem check_forth : allR (fun p => Nat.beq (frow p) 0 || allR (fun l =>
    Nat.beq (frev (Nat.add 4096 (Nat.add (Nat.mul (frow p) 128) l))) 0 ||
    Nat.beq (fenc (Nat.add (Nat.mul 256 (Nat.div p 512)) (frev (Nat.add 4096 (Nat.add (Nat.mul (frow p) 128) l))))) (Nat.add (Nat.mul 128 (Nat.mod p 512)) l)) 7 0) 12 0 = true := by
  decide +kernel

theorem arrEnc_fast {i : Nat} (h : i < 2048) : arrEnc i = some (fenc i) := by rw [arrEnc, if_pos h]; rfl
theorem arrRev_fast {i : Nat} (h : i < 8704) : arrRev i = some (frev i) := by rw [arrRev, if_pos h]; rfl

attribute [local irreducible] PAGES REV

theorem toWChar_fast {e b : Nat} (he : e < 8) (hb : b < 256) : toWChar e b = some (fenc (256 * e + b)) := arrEnc_fast (by omega)

theorem toChar_fast {e w : Nat} (he : e < 8) (hw : w < 65536) : frow (512 * e + w / 128) ≤ 35 ∧
    toChar e w = some (frev (4096 + (frow (512 * e + w / 128) * 128 + w % 128))) := by
  have h1 : 512 * e + w / 128 < 4096 := by omega
  have hr : frow (512 * e + w / 128) ≤ 35 := Nat.le_of_ble_eq_true (allR_get check_rows _ (Nat.zero_le _) (by simpa using h1))
  refine ⟨hr, ?_⟩
  have e1 : (e <<< (16 - 7)) + (w >>> 7) = 512 * e + w / 128 := by rw [Nat.shiftLeft_eq, Nat.shiftRight_eq_div_pow]; omega
  have e2 : w &&& (0xFFFF >>> (16 - 7)) = w % 128 := and7F w
  rw [toChar, e1, e2, arrRev_fast (by omega), Option.bind_some, show (8 <<< (16 - 7) : Nat) = 4096 from rfl, Nat.shiftLeft_eq]
  change frev _ ≤ 35 at hr
  rw [arrRev_fast (by omega), show frow (512 * e + w / 128) = frev (512 * e + w / 128) from rfl, Nat.add_assoc]

theorem fenc_lt (i : Nat) : fenc i < 65536 := Nat.mod_lt _ (by decide)
theorem frev_lt (i : Nat) : frev i < 256 := Nat.mod_lt _ (by decide)

/-! ## The theorems -/

/-- **C85**: in each of the eight code pages every byte stands for one character of 16 bit (or for none: 0), and that character is written as this byte -/
theorem C85_a_byte_read_is_written_back (e : Nat) (he : e < 8) (b : Nat) (hb : b < 256) :
    ∃ w, toWChar e b = some w ∧ w < 65536 ∧ (w ≠ 0 → toChar e w = some b) := by
  refine ⟨fenc (256 * e + b), toWChar_fast he hb, fenc_lt _, fun hw => ?_⟩
  have := allR_get check_back (256 * e + b) (Nat.zero_le _) (by simp; omega)
  simp only [Bool.or_eq_true] at this
  have k := Nat.eq_of_beq_eq_true (this.resolve_left (fun h => hw (Nat.eq_of_beq_eq_true h)))
  rw [(toChar_fast he (fenc_lt _)).2]
  have d1 : Nat.div (256 * e + b) 256 = e := by show (256 * e + b) / 256 = e; omega
  have d2 : Nat.mod (256 * e + b) 256 = b := by show (256 * e + b) % 256 = b; omega
  rw [d1, d2] at k
  exact congrArg some k

/-- **C85**: in each page every character of 16 bit is written as one byte: the byte that stands for it, or 0 -/
theorem C85_a_character_written_is_read_back (e : Nat) (he : e < 8) (w : Nat) (hw : w < 65536) :
    ∃ b, toChar e w = some b ∧ b < 256 ∧ (b ≠ 0 → toWChar e b = some w) := by
  obtain ⟨hr, k⟩ := toChar_fast he hw
  refine ⟨_, k, frev_lt _, fun hb => ?_⟩
  have h1 : 512 * e + w / 128 < 4096 := by omega
  have := allR_get check_forth (512 * e + w / 128) (Nat.zero_le _) (by simpa using h1)
  simp only [Bool.or_eq_true] at this
  rcases this with h | h
  · exfalso
    have h0 := Nat.eq_of_beq_eq_true h
    rw [h0] at hb
    have := Nat.eq_of_beq_eq_true (allR_get check_row0 (w % 128) (Nat.zero_le _) (by simp; omega))
    apply hb
    rw [Nat.zero_mul, Nat.zero_add]
    exact this
  · have := allR_get h (w % 128) (Nat.zero_le _) (by simp; omega)
    simp only [Bool.or_eq_true] at this
    have k := Nat.eq_of_beq_eq_true (this.resolve_left (fun h => hb (Nat.eq_of_beq_eq_true h)))
    have d1 : Nat.div (512 * e + w / 128) 512 = e := by show (512 * e + w / 128) / 512 = e; omega
    have d2 : Nat.add (Nat.mul 128 (Nat.mod (512 * e + w / 128) 512)) (w % 128) = w := by
      show 128 * ((512 * e + w / 128) % 512) + w % 128 = w; omega
    rw [d1, d2] at k
    rw [toWChar_fast he (frev_lt _)]
    exact congrArg some k

/-- so a character is written as 0 exactly when it is 0 or no byte stands for it -/
theorem C85_zero_means_not_in_the_page (e : Nat) (he : e < 8) (w : Nat) (hw : w < 65536) (h0 : w ≠ 0) :
    toChar e w = some 0 ↔ ∀ b < 256, toWChar e b ≠ some w := by
  constructor
  · intro h b hb k
    obtain ⟨w', e1, _, e2⟩ := C85_a_byte_read_is_written_back e he b hb
    rw [k] at e1; cases e1
    have := e2 h0
    rw [h] at this; cases this
    have z : toWChar e 0 = some 0 := by
      have : ∀ e < 8, toWChar e 0 = some 0 := by decide +kernel
      exact this e he
    rw [k] at z; exact h0 (Option.some.inj z)
  · intro h
    obtain ⟨b, e1, hb, e2⟩ := C85_a_character_written_is_read_back e he w hw
    by_cases hb0 : b = 0
    · rw [e1, hb0]
    · exact absurd (e2 hb0) (h b hb)

/-- no two bytes stand for the same character -/
theorem C85_different_bytes_are_different_characters (e : Nat) (he : e < 8) (a b : Nat) (ha : a < 256) (hb : b < 256) (w : Nat) (hw : w ≠ 0)
    (h1 : toWChar e a = some w) (h2 : toWChar e b = some w) : a = b := by
  obtain ⟨w1, e1, _, k1⟩ := C85_a_byte_read_is_written_back e he a ha
  obtain ⟨w2, e2, _, k2⟩ := C85_a_byte_read_is_written_back e he b hb
  rw [h1] at e1; cases e1
  rw [h2] at e2; cases e2
  have := (k1 hw).symm.trans (k2 hw)
  exact Option.some.inj this

/-- **C85**: what the pages are: all agree with ASCII; page 0 is ISO-8859-1; the Russian letters are where Windows-1251 (page 4), CP866 (page 6) and KOI8-R (page 7)
have them (KOI8-R: the order of the Latin letters that sound like them, small letters 32 before the capitals) -/
theorem C85_the_pages :
    (∀ e < 8, ∀ b < 128, toWChar e b = some b) ∧
    (∀ b < 256, toWChar 0 b = some b) ∧
    (∀ k < 64, toWChar 4 (0xC0 + k) = some (0x410 + k)) ∧ toWChar 4 0xA8 = some 0x401 ∧ toWChar 4 0xB8 = some 0x451 ∧
    (∀ k < 48, toWChar 6 (0x80 + k) = some (0x410 + k)) ∧ (∀ k < 16, toWChar 6 (0xE0 + k) = some (0x440 + k)) ∧
    toWChar 6 0xF0 = some 0x401 ∧ toWChar 6 0xF1 = some 0x451 ∧
    (List.range 32).map (fun k => toWChar 7 (0xC0 + k)) = ("юабцдефгхийклмнопярстужвьызшэщчъ".toList.map fun c => some c.toNat) ∧
    (List.range 32).map (fun k => toWChar 7 (0xE0 + k)) = ("ЮАБЦДЕФГХИЙКЛМНОПЯРСТУЖВЬЫЗШЭЩЧЪ".toList.map fun c => some c.toNat) ∧
    toWChar 5 0x80 = some 0x20AC ∧ toWChar 3 0x80 = some 0x20AC ∧ toWChar 4 0x88 = some 0x20AC := by
  decide +kernel

/-! ### Names -/

/-- the names a user may give (in any case), and what they mean: the numbers of the Unicode encodings in Encodings.h, or the page -/
def names : List (String × Int) :=
  [("UTF-8", -2), ("UTF-16", -3), ("UTF-16LE", -3), ("UTF-16BE", -4), ("UTF-32", -5), ("UTF-32LE", -5), ("UTF-32BE", -6),
   ("ASCII", 0), ("US-ASCII", 0), ("ISO-8859-1", 0), ("8859-1", 0), ("LATIN1", 0), ("ISO-8859-2", 1), ("8859-2", 1), ("LATIN2", 1),
   ("ISO-8859-3", 2), ("8859-3", 2), ("LATIN3", 2), ("CP1250", 3), ("Windows-1250", 3), ("CP1251", 4), ("Windows-1251", 4),
   ("CP1252", 5), ("Windows-1252", 5), ("CP866", 6), ("KOI8-R", 7), ("KOI-8", 7)]

/-- two texts that differ only in the case of the letters A to Z -/
def SameLetters : List Nat → List Nat → Prop
  | [], [] => True
  | x :: a, y :: b => (x = y ∨ (65 ≤ x ∧ x ≤ 90 ∧ y = x + 32) ∨ (65 ≤ y ∧ y ≤ 90 ∧ x = y + 32)) ∧ SameLetters a b
  | _, _ => False

theorem sameLetters_iff : ∀ a b : List Nat, SameLetters a b ↔ a.map lowAscii = b.map lowAscii
  | [], [] => by simp [SameLetters]
  | [], _ :: _ => by simp [SameLetters]
  | _ :: _, [] => by simp [SameLetters]
  | x :: a, y :: b => by
    have : (x = y ∨ (65 ≤ x ∧ x ≤ 90 ∧ y = x + 32) ∨ (65 ≤ y ∧ y ≤ 90 ∧ x = y + 32)) ↔ lowAscii x = lowAscii y := by
      unfold lowAscii
      split <;> split <;> omega
    rw [SameLetters, this, sameLetters_iff a b]
    simp

/-- **C85**: a name in any case gives the number of its encoding; any other text gives -1 -/
theorem C85_names (t : List Nat) :
    (∀ p ∈ names, SameLetters (p.1.toList.map Char.toNat) t → getEncodingIndex t = p.2) ∧
    ((∀ p ∈ names, ¬ SameLetters (p.1.toList.map Char.toNat) t) → getEncodingIndex t = -1) := by
  simp only [sameLetters_iff]
  constructor
  · intro p hp h
    have key : ∀ p ∈ names, ∀ q ∈ encNames, (q.1.toList.map Char.toNat).map lowAscii = (p.1.toList.map Char.toNat).map lowAscii → q.2 = p.2 := by decide +kernel
    have ex : ∀ p ∈ names, ∃ q ∈ encNames, (q.1.toList.map Char.toNat).map lowAscii = (p.1.toList.map Char.toNat).map lowAscii := by decide +kernel
    unfold getEncodingIndex
    cases hf : encNames.find? (fun q => sameName q.1 t) with
    | none =>
      obtain ⟨q, hq, e⟩ := ex p hp
      have := List.find?_eq_none.1 hf q hq
      simp only [sameName, decide_eq_true_eq] at this
      exact absurd (e.trans h) this
    | some q =>
      have h1 := List.find?_some hf
      simp only [sameName, decide_eq_true_eq] at h1
      exact key p hp q (List.mem_of_find?_eq_some hf) (h1.trans h.symm)
  · intro h
    have sub : ∀ q ∈ encNames, q ∈ names := by decide +kernel
    unfold getEncodingIndex
    cases hf : encNames.find? (fun q => sameName q.1 t) with
    | none => rfl
    | some q =>
      have h1 := List.find?_some hf
      simp only [sameName, decide_eq_true_eq] at h1
      exact absurd h1 (h q (sub q (List.mem_of_find?_eq_some hf)))

/-- **C85**: the name of every encoding is understood; numbers that are none have no name -/
theorem C85_the_name_of_an_encoding (enc : Int) :
    ((-6 ≤ enc ∧ enc ≤ 7 ∧ enc ≠ -1) → ∃ n, getEncodingName enc = some n ∧ getEncodingIndex (n.toList.map Char.toNat) = enc) ∧
    (¬ (-6 ≤ enc ∧ enc ≤ 7 ∧ enc ≠ -1) → getEncodingName enc = none) := by
  constructor
  · rintro ⟨h1, h2, h3⟩
    have : enc = -6 ∨ enc = -5 ∨ enc = -4 ∨ enc = -3 ∨ enc = -2 ∨ enc = 0 ∨ enc = 1 ∨ enc = 2 ∨ enc = 3 ∨ enc = 4 ∨ enc = 5 ∨ enc = 6 ∨ enc = 7 := by omega
    rcases this with rfl | rfl | rfl | rfl | rfl | rfl | rfl | rfl | rfl | rfl | rfl | rfl | rfl
    all_goals first
      | exact ⟨"UTF-32BE", by decide +kernel, by decide +kernel⟩
      | exact ⟨"UTF-32LE", by decide +kernel, by decide +kernel⟩
      | exact ⟨"UTF-16BE", by decide +kernel, by decide +kernel⟩
      | exact ⟨"UTF-16LE", by decide +kernel, by decide +kernel⟩
      | exact ⟨"UTF-8", by decide +kernel, by decide +kernel⟩
      | exact ⟨"8859-1", by decide +kernel, by decide +kernel⟩
      | exact ⟨"8859-2", by decide +kernel, by decide +kernel⟩
      | exact ⟨"8859-3", by decide +kernel, by decide +kernel⟩
      | exact ⟨"CP1250", by decide +kernel, by decide +kernel⟩
      | exact ⟨"CP1251", by decide +kernel, by decide +kernel⟩
      | exact ⟨"CP1252", by decide +kernel, by decide +kernel⟩
      | exact ⟨"CP866", by decide +kernel, by decide +kernel⟩
      | exact ⟨"KOI8-R", by decide +kernel, by decide +kernel⟩
  · intro h
    rw [getEncodingName, if_pos (by simp only [encNamesNum]; omega)]

/-- **C85**: `toBytes` throws exactly for numbers that are no encoding, and otherwise writes the encoding asked for: one byte of a page, or the Unicode encoding -/
theorem C85_toBytes (enc : Int) (w : Nat) (hw : w < 65536) :
    (toBytesE enc w = .throws ↔ getEncodingName enc = none) ∧
    (∀ e < 8, enc = Int.ofNat e → ∃ b, toChar e w = some b ∧ toBytesE enc w = .bytes [b]) ∧
    (enc = -2 → toBytesE enc w = .bytes (toBytes .utf8 w)) ∧ (enc = -3 → toBytesE enc w = .bytes (toBytes .utf16 w)) ∧
    (enc = -4 → toBytesE enc w = .bytes (toBytes .utf16be w)) ∧ (enc = -5 → toBytesE enc w = .bytes (toBytes .utf32 w)) ∧
    (enc = -6 → toBytesE enc w = .bytes (toBytes .utf32be w)) := by
  have pg : ∀ e < 8, ∃ b, toChar e w = some b ∧ toBytesE (Int.ofNat e) w = .bytes [b] := by
    intro e he
    obtain ⟨b, h, _⟩ := C85_a_character_written_is_read_back e he w hw
    refine ⟨b, h, ?_⟩
    unfold toBytesE
    rw [if_neg (by simp only [encNamesNum, Int.ofNat_eq_natCast]; omega), if_pos (by simp)]
    simp only [Int.ofNat_eq_natCast, Int.toNat_natCast]
    rw [h]
  have un : (toBytesE (-2) w = .bytes (toBytes .utf8 w)) ∧ (toBytesE (-3) w = .bytes (toBytes .utf16 w)) ∧
    (toBytesE (-4) w = .bytes (toBytes .utf16be w)) ∧ (toBytesE (-5) w = .bytes (toBytes .utf32 w)) ∧
    (toBytesE (-6) w = .bytes (toBytes .utf32be w)) := ⟨rfl, rfl, rfl, rfl, rfl⟩
  refine ⟨?_, fun e he h => h ▸ pg e he, fun h => h ▸ un.1, fun h => h ▸ un.2.1, fun h => h ▸ un.2.2.1, fun h => h ▸ un.2.2.2.1, fun h => h ▸ un.2.2.2.2⟩
  by_cases h : -6 ≤ enc ∧ enc ≤ 7 ∧ enc ≠ -1
  · obtain ⟨n, hn, _⟩ := (C85_the_name_of_an_encoding enc).1 h
    rw [hn]
    have : ∃ bs, toBytesE enc w = .bytes bs := by
      by_cases h0 : 0 ≤ enc
      · obtain ⟨e, rfl⟩ := Int.eq_ofNat_of_zero_le h0
        obtain ⟨b, _, k⟩ := pg e (by omega)
        exact ⟨_, k⟩
      · have : enc = -6 ∨ enc = -5 ∨ enc = -4 ∨ enc = -3 ∨ enc = -2 := by omega
        rcases this with rfl | rfl | rfl | rfl | rfl <;> exact ⟨_, rfl⟩
    obtain ⟨bs, k⟩ := this
    simp [k]
  · rw [(C85_the_name_of_an_encoding enc).2 h]
    simp only [iff_true]
    rw [toBytesE, if_pos (by simp only [encNamesNum]; omega)]

/-! ### Texts -/

theorem mapM_some {f : Nat → Option Nat} {g : Nat → Nat} (l : List Nat) (h : ∀ a ∈ l, f a = some (g a)) : l.mapM f = some (l.map g) := by
  induction l with
  | nil => rfl
  | cons a l ih =>
    rw [List.mapM_cons, h a (by simp), ih (fun a ha => h a (by simp [ha]))]
    rfl

/-- the character a byte stands for -/
def charOf (e b : Nat) : Nat := (toWChar e b).getD 0
/-- the byte a character is written as -/
def byteOf (e w : Nat) : Nat := (toChar e w).getD 0

theorem loop1 (e : Nat) (he : e < 8) (n : Nat) : ∀ (r : List Nat) (i : Nat) (out : List Nat), (∀ w ∈ r, w < 65536) → out.length + r.length ≤ n →
    getChars1Loop e n r i n out = some (out ++ r.map (byteOf e)) := by
  intro r
  induction r with
  | nil => intro i out _ h; rw [getChars1Loop, if_pos (by simp at h; omega)]; simp
  | cons w r ih =>
    intro i out hw h
    obtain ⟨b, hb, _⟩ := C85_a_character_written_is_read_back e he w (hw w (by simp))
    simp only [List.length_cons] at h
    rw [getChars1Loop, hb, Option.bind_some]
    dsimp only
    rw [if_neg (by omega : ¬ out.length + 1 > n), if_pos (by omega : out.length + 1 ≤ n + 1), ih _ _ (fun w h => hw w (by simp [h])) (by simp; omega)]
    simp [byteOf, hb]

/-- **C85**: writing a text of 16 bit characters in a code page stays inside its buffer and gives one byte for each character -/
theorem C85_getChars (e : Nat) (he : e < 8) (text : List Nat) (h : ∀ w ∈ text, w < 65536) :
    ∃ bs, getChars1 e text = some bs ∧ bs.length = text.length ∧ ∀ i (hi : i < text.length) (hb : i < bs.length), toChar e text[i] = some bs[i] := by
  refine ⟨text.map (byteOf e), by rw [getChars1, loop1 e he _ _ _ _ h (by simp)]; simp, by simp, ?_⟩
  intro i hi hb
  obtain ⟨b, k, _⟩ := C85_a_character_written_is_read_back e he text[i] (h _ (List.getElem_mem hi))
  simp [byteOf, k]

/-- the byte that stands for nothing in the default page (Windows-1251) -/
theorem no_char : ∀ b < 256, toWChar 4 b = some 0 → b = 0 ∨ b = 0x98 := by
  have : allR (fun b => !Nat.beq (fenc (Nat.add 1024 b)) 0 || Nat.beq b 0 || Nat.beq b 0x98) 8 0 = true := by decide +kernel
  intro b hb h
  have k := allR_get this b (Nat.zero_le _) (by simpa using hb)
  rw [toWChar_fast (by omega) hb] at h
  have h0 : fenc (1024 + b) = 0 := Option.some.inj h
  simp only [Nat.add_eq, h0, Bool.or_eq_true] at k
  rcases k with (k | k) | k
  · exact absurd k (by decide)
  · exact .inl (Nat.eq_of_beq_eq_true k)
  · exact .inr (Nat.eq_of_beq_eq_true k)

theorem fromChars_eq (bs : List Nat) (h : ∀ b ∈ bs, b < 256 ∧ b ≠ 0) : fromChars bs = some (bs.map (charOf 4)) := by
  have e : bs.takeWhile (· ≠ 0) = bs := by
    have := List.takeWhile_append_of_pos (p := fun x => decide (x ≠ 0)) (l₁ := bs) (l₂ := []) (by intro x hx; simpa using (h x hx).2)
    simpa using this
  rw [fromChars, e]
  refine mapM_some bs ?_
  intro a ha
  rw [show defEncodingIdx = 4 from rfl, charOf, toWChar_fast (by omega) (h a ha).1]
  rfl

theorem byte_char {b : Nat} (hb : b < 256) (h0 : b ≠ 0) (h98 : b ≠ 0x98) : byteOf 4 (charOf 4 b) = b ∧ charOf 4 b < 65536 := by
  obtain ⟨w, e1, hw, e2⟩ := C85_a_byte_read_is_written_back 4 (by omega) b hb
  have hw0 : w ≠ 0 := by
    rintro rfl
    rcases no_char b hb e1 with h | h
    · exact h0 h
    · exact h98 h
  simp [charOf, byteOf, e1, e2 hw0, hw]

theorem byteOf_zero : byteOf 4 0 = 0 := by
  have : toChar 4 0 = some 0 := by decide +kernel
  simp [byteOf, this]

theorem charOf_98 : charOf 4 0x98 = 0 := by
  have : toWChar 4 0x98 = some 0 := by decide +kernel
  simp [charOf, this]

theorem charOf_lt (b : Nat) : charOf 4 b < 65536 := by
  unfold charOf toWChar arrEnc
  split
  · exact Nat.mod_lt _ (by decide)
  · simp

theorem toStd_eq (text : List Nat) (h : ∀ w ∈ text, w < 65536) : toStd text = some ((text.map (byteOf 4)).takeWhile (· ≠ 0)) := by
  rw [toStd, show defEncodingIdx = 4 from rfl, getChars1, loop1 4 (by omega) _ _ _ _ h (by simp)]
  simp

/-- **C85**: a C string (a file name from the command line, an environment variable) taken into a text and given to the system again is the same, as long as it
does not contain the byte 0x98; from the first such byte on it is lost -/
theorem C85_a_name_passes_through (bs : List Nat) (h : ∀ b ∈ bs, b < 256 ∧ b ≠ 0) :
    ∃ t, fromChars bs = some t ∧ toStd t = some (bs.takeWhile (· ≠ 0x98)) := by
  refine ⟨_, fromChars_eq bs h, ?_⟩
  rw [toStd_eq _ (by intro w hw; obtain ⟨b, _, rfl⟩ := List.mem_map.1 hw; exact charOf_lt b)]
  congr 1
  induction bs with
  | nil => rfl
  | cons b r ih =>
    have ih := ih (fun b hb => h b (by simp [hb]))
    obtain ⟨hb, h0⟩ := h b (by simp)
    by_cases h98 : b = 0x98
    · subst h98; simp [charOf_98, byteOf_zero]
    · have := (byte_char hb h0 h98).1
      simp only [List.map_cons, this]
      rw [List.takeWhile_cons, List.takeWhile_cons, if_pos (by simpa using h0), if_pos (by simpa using h98), ih]

/-- **C85** fails for such a name: in UTF-8 the letter U+0418 is D0 98, so a file name that begins with it is given to the system as the one byte D0 -/
theorem C85_violated_name_is_cut : (fromChars ([0xD0, 0x98, 0xD0, 0xB2, 0xD0, 0xB0, 0xD0, 0xBD])).bind toStd = some [0xD0] ∧
    encode .utf8 ("Иван".toList.map Char.toNat) = [0xD0, 0x98, 0xD0, 0xB2, 0xD0, 0xB0, 0xD0, 0xBD] := by decide +kernel

/-- **C85**: a text read from a source (as UTF-8), given to the system as a name: exactly its characters up to the first that Windows-1251 does not have, in
Windows-1251 -/
theorem C85_a_text_as_a_name (t : List Nat) (h : ∀ w ∈ t, w < 65536) :
    ∃ pre post bs, t = pre ++ post ∧ toStd t = some bs ∧ bs.mapM (toWChar 4) = some pre ∧
      ∀ w, post.head? = some w → w ≠ 0 → ∀ b, b < 256 → toWChar 4 b ≠ some w := by
  rw [toStd_eq t h]
  induction t with
  | nil => exact ⟨[], [], [], rfl, rfl, rfl, by simp⟩
  | cons w r ih =>
    obtain ⟨b, k, hb, k2⟩ := C85_a_character_written_is_read_back 4 (by omega) w (h w (by simp))
    have hw : byteOf 4 w = b := by simp [byteOf, k]
    by_cases hb0 : b = 0
    · refine ⟨[], w :: r, [], rfl, by simp [hw, hb0], rfl, ?_⟩
      intro w' hw' hz b' p2 k'
      simp only [List.head?_cons, Option.some.injEq] at hw'
      subst hw'
      exact (C85_zero_means_not_in_the_page 4 (by omega) w (h w (by simp)) hz).1 (by rw [k, hb0]) b' p2 k'
    · obtain ⟨pre, post, bs, e1, e2, e3, e4⟩ := ih (fun w hw => h w (by simp [hw]))
      refine ⟨w :: pre, post, b :: bs, by rw [e1]; rfl, ?_, ?_, e4⟩
      · rw [List.map_cons, hw, List.takeWhile_cons, if_pos (by simpa using hb0)]
        rw [Option.some.inj e2]
      · rw [List.mapM_cons, k2 hb0, e3]; rfl

/-- **C85**: a text of ASCII characters survives `to_stdstr` followed by `to_unistr` -/
theorem C85_ascii_through_std_partial (t : List Nat) (h : ∀ w ∈ t, w < 128 ∧ w ≠ 0) : (toStd t).bind toUni = some t := by
  have hb : ∀ w, w < 128 → byteOf 4 w = w := by
    have : ∀ w < 128, byteOf 4 w = w := by decide +kernel
    exact this
  have e : t.map (byteOf 4) = t := by
    refine (List.map_congr_left (fun w hw => ?_)).trans (List.map_id t)
    exact hb w (h w hw).1
  have e2 : t.takeWhile (· ≠ 0) = t := by
    have := List.takeWhile_append_of_pos (p := fun x => decide (x ≠ 0)) (l₁ := t) (l₂ := []) (by intro x hx; simpa using (h x hx).2)
    simpa using this
  rw [toStd_eq t (fun w hw => by have := (h w hw).1; omega), e, e2, Option.bind_some]
  have k := C18_utf8_roundtrip_partial t (fun w hw => by have := (h w hw).1; omega)
  have enc : encode .utf8 t = t := by
    clear k e e2
    induction t with
    | nil => rfl
    | cons w r ih =>
      have hw := (h w (by simp)).1
      have : toBytes .utf8 w = [w] := by
        unfold toBytes
        dsimp only
        rw [if_pos (by omega), byte, and7F]
        congr 1
        omega
      show toBytes .utf8 w ++ encode .utf8 r = _
      rw [this, ih (fun w hw => h w (by simp [hw]))]
      rfl
  rw [toUni]
  rw [enc] at k
  first | exact k | exact k.1 | exact k.2

/-- **C85** fails for other texts: one function writes Windows-1251, the other reads UTF-8. Two Russian letters become one other character, and the last letter of
the alphabet makes the reader read outside the string -/
theorem C85_violated_std_and_uni : (toStd [0x420, 0x411]).bind toUni = some [0x401] ∧ (toStd [0x44F]).bind toUni = none := by decide +kernel

/-- **C85** fails for characters above U+FFFF (`wchar_t` has 32 bit): they are looked up in the rows of the next page, or outside the array -/
theorem C85_violated_above_16_bit : toChar 0 0x10041 = some 0x41 ∧ (∀ w, 0x110000 ≤ w → toChar 0 w = none) := by
  refine ⟨by decide +kernel, fun w h => ?_⟩
  have : w >>> 7 ≥ 8704 := by rw [Nat.shiftRight_eq_div_pow]; omega
  rw [toChar, arrRev, if_neg (by rw [Nat.shiftLeft_eq]; omega)]
  rfl

/-- examples: a name with Russian letters in KOI8-R, a character no page but Windows-1252 and -1250 and -1251 has -/
example : getChars1 7 ("Привет".toList.map Char.toNat) = some [0xF0, 0xD2, 0xC9, 0xD7, 0xC5, 0xD4] ∧ toChar 6 0x20AC = some 0 ∧ toChar 5 0x20AC = some 0x80 ∧
    getEncodingIndex ("koi8-r".toList.map Char.toNat) = 7 := by decide +kernel

end Verif.Encodings
