import Verif.Tool.Model
import Verif.Encodings.Props
/-!
# C74: the bytes of the written file

`StreamWriter` (/repo/src/colorer/io/StreamWriter.cpp), `FileWriter` (io/FileWriter.cpp), `Writer::write` (io/Writer.cpp 3-21) and `Encodings::toUTF8Bytes` of the
ICU build (strings/icu/Encodings.cpp 30-36). Strings are UTF-16: numbers below 65536. Failures of the file system are not modelled (`putc` is not checked).
-/
namespace Verif.Tool
open Verif.Strings (Str)
open Verif.Encodings.Spec (utf8 BMP)

/-! ## Model -/

/-- `Encodings::toUTF8Bytes`: `u_strToUTF8` of a string of one unit (capacity 8, at most 3 bytes used). For half of a surrogate pair ICU reports an error and
leaves the length alone, which was set to 0: no bytes. -/
def toUTF8Bytes (u : Nat) : List Nat :=
  if 0xD800 ≤ u ∧ u ≤ 0xDFFF then []
  else if u ≤ 0x7F then [u]
  else if u ≤ 0x7FF then [0xC0 ||| (u >>> 6), 0x80 ||| (u &&& 0x3F)]
  else [0xE0 ||| (u >>> 12), 0x80 ||| ((u >>> 6) &&& 0x3F), 0x80 ||| (u &&& 0x3F)]

/-- `StreamWriter::writeBOM` (13-20) -/
def bomBytes (bom : Bool) : List Nat := if bom then [0xEF, 0xBB, 0xBF] else []

/-- the file after writing a string unit by unit (Writer.cpp 13-16, StreamWriter.cpp 27-32) -/
def fileBytes (bom : Bool) (s : Str) : List Nat := bomBytes bom ++ s.flatMap toUTF8Bytes

/-! ## Specification -/

/-- UTF-16 of a character -/
def units (c : Nat) : Str := if c < 0x10000 then [c] else [0xD800 + (c - 0x10000) / 1024, 0xDC00 + (c - 0x10000) % 1024]

/-- a Unicode character: not a surrogate -/
def Scalar (c : Nat) : Prop := c < 0x110000 ∧ ¬ (0xD800 ≤ c ∧ c ≤ 0xDFFF)

/-! ## Proof -/

theorem or_add (a b k : Nat) (hb : b < 2 ^ k) : (a * 2 ^ k) ||| b = a * 2 ^ k + b := by
  rw [Nat.mul_comm, Nat.two_pow_add_eq_or_of_lt hb a]

theorem toUTF8Bytes_ok (u : Nat) (h : u < 0x10000) (hs : ¬ (0xD800 ≤ u ∧ u ≤ 0xDFFF)) : toUTF8Bytes u = utf8 u := by
  unfold toUTF8Bytes utf8
  rw [if_neg hs]
  by_cases h1 : u < 0x80
  · rw [if_pos (by omega), if_pos h1]
  rw [if_neg (by omega), if_neg h1]
  have c2 : ∀ x, x < 32 → 0xC0 ||| x = 0xC0 + x := fun x hx => or_add 6 x 5 hx
  have c3 : ∀ x, x < 16 → 0xE0 ||| x = 0xE0 + x := fun x hx => or_add 14 x 4 hx
  have c1 : ∀ x, 0x80 ||| (x % 64) = 0x80 + x % 64 := fun x => or_add 2 (x % 64) 6 (by omega)
  by_cases h2 : u < 0x800
  · rw [if_pos (by omega), if_pos h2, Encodings.shr6, Encodings.and3F, c2 _ (by omega), c1]
  · rw [if_neg (by omega), if_neg h2, if_pos h, Encodings.shr6, Encodings.shr12, Encodings.and3F, Encodings.and3F, c3 _ (by omega), c1, c1]

theorem units_bytes (c : Nat) (hc : Scalar c) : (units c).flatMap toUTF8Bytes = if c < 0x10000 then utf8 c else [] := by
  unfold units
  obtain ⟨h1, h2⟩ := hc
  split
  · rename_i h
    rw [List.flatMap_cons, List.flatMap_nil, List.append_nil, toUTF8Bytes_ok c h h2]
  · rename_i h
    have a : toUTF8Bytes (0xD800 + (c - 0x10000) / 1024) = [] := by unfold toUTF8Bytes; rw [if_pos (by omega)]
    have b : toUTF8Bytes (0xDC00 + (c - 0x10000) % 1024) = [] := by unfold toUTF8Bytes; rw [if_pos (by omega)]
    rw [List.flatMap_cons, List.flatMap_cons, List.flatMap_nil, a, b]; rfl

/-- **C74**: exactly what is in the file: the mark if wanted, then standard UTF-8 of the characters of the text except those beyond the Basic Multilingual
Plane, which are left out -/
theorem C74_bytes_in_the_file (bom : Bool) (text : List Nat) (h : ∀ c ∈ text, Scalar c) :
    fileBytes bom (text.flatMap units) = (if bom then [0xEF, 0xBB, 0xBF] else []) ++ (text.filter (· < 0x10000)).flatMap utf8 := by
  unfold fileBytes bomBytes
  congr 1
  induction text with
  | nil => rfl
  | cons c r ih =>
    rw [List.flatMap_cons, List.flatMap_append, ih (fun x hx => h x (by simp [hx])), units_bytes c (h c (by simp))]
    by_cases hc : c < 0x10000
    · rw [if_pos hc, List.filter_cons_of_pos (by simpa using hc), List.flatMap_cons]
    · rw [if_neg hc, List.filter_cons_of_neg (by simpa using hc)]; rfl

/-- **C74** (partial: only for characters of the Basic Multilingual Plane): the bytes are the standard UTF-8 of the text, and decode to it -/
theorem C74_file_is_utf8_partial (text : List Nat) (h : ∀ c ∈ text, Scalar c) (hb : BMP text) :
    text.flatMap units = text ∧ fileBytes false text = text.flatMap utf8 ∧ Encodings.decode .utf8 (fileBytes false text) = some text := by
  have e1 : text.flatMap units = text := by
    clear h
    induction text with
    | nil => rfl
    | cons c r ih =>
      rw [List.flatMap_cons, ih (fun x hx => hb x (by simp [hx])), units, if_pos (hb c (by simp))]; rfl
  have e2 := C74_bytes_in_the_file false text h
  rw [e1, List.filter_eq_self.2 (fun c hc => by simpa using hb c hc)] at e2
  have e3 := Encodings.C18_utf8_roundtrip_partial text hb
  refine ⟨e1, by simpa using e2, ?_⟩
  have : fileBytes false text = Encodings.encode .utf8 text := by rw [e3.1]; simpa using e2
  rw [this]
  exact e3.2

/-- C74 fails: an emoji (two units) leaves nothing in the file -/
theorem C74_violated_emoji : Scalar 0x1F600 ∧ fileBytes false (units 0x1F600) = [] ∧ utf8 0x1F600 = [0xF0, 0x9F, 0x98, 0x80] :=
  ⟨⟨by decide, by decide⟩, by decide +kernel, by decide +kernel⟩

/-- "é€A" -/
example : fileBytes true [0xE9, 0x20AC, 0x41] = [0xEF, 0xBB, 0xBF, 0xC3, 0xA9, 0xE2, 0x82, 0xAC, 0x41] := by decide +kernel
example : (∀ c ∈ [0xE9, 0x20AC, 0x41], Scalar c) ∧ BMP [0xE9, 0x20AC, 0x41] :=
  ⟨by intro c hc; simp at hc; unfold Scalar; omega, by intro c hc; simp at hc; omega⟩

end Verif.Tool
