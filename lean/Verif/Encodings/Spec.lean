import Verif.Encodings.Model
/-! Specification: the standard UTF-8 encoding form (RFC 3629), by arithmetic. -/
namespace Verif.Encodings.Spec

/-- RFC 3629 section 3. -/
def utf8 (u : Nat) : List Nat :=
  if u < 0x80 then [u]
  else if u < 0x800 then [0xC0 + u / 64, 0x80 + u % 64]
  else if u < 0x10000 then [0xE0 + u / 4096, 0x80 + u / 64 % 64, 0x80 + u % 64]
  else [0xF0 + u / 262144, 0x80 + u / 4096 % 64, 0x80 + u / 64 % 64, 0x80 + u % 64]

/-- characters of the Basic Multilingual Plane -/
def BMP (text : List Nat) : Prop := ∀ c ∈ text, c < 0x10000

end Verif.Encodings.Spec
