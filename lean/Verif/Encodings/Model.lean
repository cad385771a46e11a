/-!
# Model of the legacy text encoders and decoders

Models `Encodings::toBytes` (strings/legacy/Encodings.cpp:90-154), `UnicodeString::getChars`
(strings/legacy/UnicodeString.cpp:397-427) and the stream constructor and `operator[]` of `CString`
(strings/legacy/CString.cpp:25-116, 188-216) of /repo/src/colorer, for the Unicode encodings.

`wchar` is a natural number (32 bit `wchar_t`, non negative); every store into a `byte` is taken `% 256`.
Words read through `w2str`/`w4str` are little endian (x86).
The one byte code pages are in Pages.lean, the recognition of encodings in Detect.lean.
-/
namespace Verif.Encodings

/-- The Unicode encodings of Encodings.h. -/
inductive Enc where
  | utf8 | utf16 | utf16be | utf32 | utf32be
deriving DecidableEq

/-- store into a `byte` -/
def byte (n : Nat) : Nat := n % 256

/-- `Encodings::toBytes`, Encodings.cpp:90-154, for a 32 bit `wchar`. -/
def toBytes (enc : Enc) (wc : Nat) : List Nat := match enc with
  | .utf8 =>
    if wc ≤ 0x7F then [byte (wc &&& 0x7F)]                                       -- 100-102
    else if wc ≤ 0x7FF then [byte (0xC0 + (wc >>> 6)), byte (0x80 + (wc &&& 0x3F))]   -- 103-107
    else if wc ≤ 0xFFFF then                                                     -- 108-114
      [byte (0xE0 + (wc >>> 12)), byte (0x80 + ((wc >>> 6) &&& 0x3F)), byte (0x80 + (wc &&& 0x3F))]
    else                                                                         -- 115-123
      [byte (0xF0 + (wc >>> 14)), byte (0x80 + ((wc >>> 12) &&& 0x3F)), byte (0x80 + ((wc >>> 6) &&& 0x3F)),
        byte (0x80 + (wc &&& 0x3F))]
  | .utf16   => [byte (wc &&& 0xFF), byte ((wc >>> 8) &&& 0xFF)]                   -- 126-130
  | .utf16be => [byte ((wc >>> 8) &&& 0xFF), byte (wc &&& 0xFF)]                   -- 131-135
  | .utf32   => [byte (wc &&& 0xFF), byte ((wc >>> 8) &&& 0xFF), byte ((wc >>> 16) &&& 0xFF), byte ((wc >>> 14) &&& 0xFF)]
  | .utf32be => [byte ((wc >>> 14) &&& 0xFF), byte ((wc >>> 16) &&& 0xFF), byte ((wc >>> 8) &&& 0xFF), byte (wc &&& 0xFF)]

/-- The bytes produced for a text: the inner store loop of `getChars` (UnicodeString.cpp:413-426), without the final 0;
also what `StreamWriter::write` puts into the file (io/StreamWriter.cpp:27-32). -/
def encode (enc : Enc) (text : List Nat) : List Nat := text.flatMap (toBytes enc)

/-- `while (stream[pos] << (nextbytes + 1) & 0x80) nextbytes++` (CString.cpp:103); at most 7 iterations. -/
def nextBytes (b : Nat) : Nat → Nat → Nat
  | 0, nb => nb
  | fuel + 1, nb => if (b <<< (nb + 1)) &&& 0x80 ≠ 0 then nextBytes b fuel (nb + 1) else nb

/-- `while (nextbytes--) wc += (stream[++pos] & 0x3F) << (nextbytes * 6)` (CString.cpp:105-107): `none` when the stream
ends inside the sequence (the code reads past the buffer). -/
def contBytes (wc : Nat) : Nat → List Nat → Option (Nat × List Nat)
  | 0, s => some (wc, s)
  | _ + 1, [] => none
  | nb + 1, b :: s => contBytes (wc + ((b &&& 0x3F) <<< (nb * 6))) nb s

/-- The UTF-8 loop (CString.cpp:93-112); `fuel` bounds the number of characters. -/
def decodeUtf8 : Nat → List Nat → Option (List Nat)
  | _, [] => some []
  | 0, _ :: _ => none
  | fuel + 1, b :: s =>
    if b >>> 7 = 0 then (decodeUtf8 fuel s).map (b :: ·)                           -- 96-97
    else if b >>> 6 = 2 then (decodeUtf8 fuel s).map (0x3F :: ·)                   -- 98-99
    else
      let nb := nextBytes b 8 0
      match contBytes ((b &&& (0xFF >>> (nb + 2))) <<< (nb * 6)) nb s with         -- 104-107
      | none => none
      | some (wc, s') => (decodeUtf8 fuel s').map (wc :: ·)

/-- `ST_UTF16` / `ST_UTF16_BE` (CString.cpp:87-89, 193-196): `size / 2` words. -/
def decode16 (be : Bool) : List Nat → List Nat
  | b0 :: b1 :: s =>
    let w := b0 + b1 * 256
    (if be then (w >>> 8) ||| ((w &&& 0xFF) <<< 8) else w) :: decode16 be s
  | _ => []

/-- `ST_UTF32` / `ST_UTF32_BE` (CString.cpp:90-92, 201-212) on a 32 bit word `w`: 0xFFFD when the "upper" half is not 0. -/
def word32 (be : Bool) (w : Nat) : Nat :=
  if be then
    if (w <<< 16) % 2 ^ 32 ≠ 0 then 0xFFFD
    else ((w &&& 0xFF) <<< 24) + ((w &&& 0xFF00) <<< 8) + ((w &&& 0xFF0000) >>> 8) + ((w &&& 0xFF000000) >>> 24)
  else if w >>> 16 ≠ 0 then 0xFFFD else w

def decode32 (be : Bool) : List Nat → List Nat
  | b0 :: b1 :: b2 :: b3 :: s => word32 be (b0 + b1 * 256 + b2 * 65536 + b3 * 16777216) :: decode32 be s
  | _ => []

/-- Reading a byte buffer in an encoding: `UnicodeString(data, len, enc)` (CString.cpp:25-116 and
UnicodeString.cpp:17-26). `none` = read past the buffer. -/
def decode (enc : Enc) (bytes : List Nat) : Option (List Nat) := match enc with
  | .utf8 => decodeUtf8 bytes.length bytes
  | .utf16 => some (decode16 false bytes)
  | .utf16be => some (decode16 true bytes)
  | .utf32 => some (decode32 false bytes)
  | .utf32be => some (decode32 true bytes)

/-! ## The buffer of `getChars` -/

/-- initial `local_len`, UnicodeString.cpp:399-403; the allocation is one byte longer. -/
def initLen (enc : Enc) (n : Nat) : Nat := match enc with
  | .utf8 => n
  | .utf16 | .utf16be => n * 2
  | .utf32 | .utf32be => n * 4

/-- The loop of `getChars` (UnicodeString.cpp:412-426) on the remaining characters: `i` characters done, `n` the length of
the text, `localLen` the buffer size (allocation is `localLen + 1`), `out` the bytes written so far.
`none` = a byte is written outside the allocation. -/
def getCharsLoop (enc : Enc) (n : Nat) : List Nat → Nat → Nat → List Nat → Option (List Nat)
  | [], _, localLen, out => if out.length < localLen + 1 then some out else none     -- 427: final 0
  | wc :: r, i, localLen, out =>
    let bs := toBytes enc wc
    let localLen' := if out.length + bs.length > localLen then
        (if i = 0 then 8 else (localLen * n) / i + 8) else localLen                  -- 415-424
    if out.length + bs.length ≤ localLen' + 1 then getCharsLoop enc n r (i + 1) localLen' (out ++ bs) else none

/-- `UnicodeString::getChars`, UnicodeString.cpp:397-429, without the final 0. -/
def getChars (enc : Enc) (text : List Nat) : Option (List Nat) :=
  getCharsLoop enc text.length text 0 (initLen enc text.length) []

end Verif.Encodings
