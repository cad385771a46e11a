import Verif.Encodings.PageTables
import Verif.Encodings.Model
/-!
# Model of the one byte code pages

Models, from /repo/src/colorer/strings/legacy: x_encodings.h (the macros 7-8, the names 10-44), Encodings.cpp (`getEncodingIndex` 52-60, `getEncodingName` 62-69,
`getDefaultEncodingIndex` 76-79, `toBytes` 90-154 for all encodings, `toChar`, `toWChar` 157-167), UnicodeString.cpp (`UnicodeString(const char*)` 27, 39-45,
`getChars` 396-428 for the code pages), CString.cpp (`CString(const char*, ...)` 118-130, `operator[]` 191-192), UStr.cpp (`to_stdstr` 4-13, `to_unistr` 41-44).

A read outside an array is `none`. `wchar` is a natural number (32 bit `wchar_t`, not negative).
-/
namespace Verif.Encodings

/-- `arr_Encodings[i]` -/
def arrEnc (i : Nat) : Option Nat := if i < 2048 then some ((PAGES >>> (16 * i)) % 65536) else none

/-- `arr_revEncodings[i]` -/
def arrRev (i : Nat) : Option Nat := if i < 8704 then some ((REV >>> (8 * i)) % 256) else none

/-- `TO_WCHAR` (x_encodings.h 7), `Encodings::toWChar` -/
def toWChar (e b : Nat) : Option Nat := arrEnc (0x100 * e + b)

/-- `TO_CHAR` (x_encodings.h 8), `Encodings::toChar` -/
def toChar (e w : Nat) : Option Nat :=
  (arrRev ((e <<< (16 - 7)) + (w >>> 7))).bind fun r => arrRev ((8 <<< (16 - 7)) + (r <<< 7) + (w &&& (0xFFFF >>> (16 - 7))))

/-- `defEncodingIdx` -/
def defEncodingIdx : Nat := 4
/-- `encNamesNum` -/
def encNamesNum : Int := 8

/-- `strcasecmp` in the C locale looks at the lower case of the letters A to Z -/
def lowAscii (c : Nat) : Nat := if 65 ≤ c ∧ c ≤ 90 then c + 32 else c
def sameName (a : String) (b : List Nat) : Bool := decide ((a.toList.map Char.toNat).map lowAscii = b.map lowAscii)

/-- `getEncodingIndex` (52-60) -/
def getEncodingIndex (name : List Nat) : Int := match encNames.find? (fun p => sameName p.1 name) with
  | some p => p.2
  | none => -1

/-- `getEncodingName` (62-69) -/
def getEncodingName (enc : Int) : Option String :=
  if enc ≥ encNamesNum ∨ enc < -6 ∨ enc = -1 then none
  else (encNames.find? (fun p => p.2 = enc)).map (·.1)

/-- the Unicode encoding with a number (Encodings.cpp 19-23) -/
def encOf (enc : Int) : Option Enc :=
  if enc = -2 then some .utf8 else if enc = -3 then some .utf16 else if enc = -4 then some .utf16be
  else if enc = -5 then some .utf32 else if enc = -6 then some .utf32be else none

/-- what `toBytes` does -/
inductive Bytes where
  | bytes (bs : List Nat)
  | throws
  | outside
deriving DecidableEq, Repr

/-- `Encodings::toBytes` (90-154) -/
def toBytesE (enc : Int) (wc : Nat) : Bytes :=
  if enc < -6 ∨ enc = -1 ∨ enc ≥ encNamesNum then .throws
  else if enc ≥ 0 then (match toChar enc.toNat wc with | some b => .bytes [b] | none => .outside)
  else match encOf enc with
    | some e => .bytes (toBytes e wc)
    | none => .throws

/-- `UnicodeString(const char*)`: the bytes before the zero, in the default code page -/
def fromChars (bytes : List Nat) : Option (List Nat) := (bytes.takeWhile (· ≠ 0)).mapM (toWChar defEncodingIdx)

/-- the loop of `getChars` (412-426) for a code page: the buffer has `localLen + 1` bytes; `none`: a read or a write outside -/
def getChars1Loop (e n : Nat) : List Nat → Nat → Nat → List Nat → Option (List Nat)
  | [], _, localLen, out => if out.length < localLen + 1 then some out else none
  | wc :: r, i, localLen, out => (toChar e wc).bind fun b =>
    let localLen' := if out.length + 1 > localLen then (if i = 0 then 8 else (localLen * n) / i + 8) else localLen
    if out.length + 1 ≤ localLen' + 1 then getChars1Loop e n r (i + 1) localLen' (out ++ [b]) else none

/-- `getChars(e)` for a code page, without the final zero -/
def getChars1 (e : Nat) (text : List Nat) : Option (List Nat) := getChars1Loop e text.length text 0 text.length []

/-- `UStr::to_stdstr`: `getChars()` read as a C string -/
def toStd (text : List Nat) : Option (List Nat) := (getChars1 defEncodingIdx text).map (·.takeWhile (· ≠ 0))

/-- `UStr::to_unistr(const std::string&)` -/
def toUni (bytes : List Nat) : Option (List Nat) := decode .utf8 bytes

end Verif.Encodings
