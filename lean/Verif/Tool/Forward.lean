import Verif.Tool.Bytes
/-!
# C89: reading a file of any Unicode encoding, and forwarding it (`colorer -f`)

Models `Encodings::toUnicodeString` of the ICU build (/repo/src/colorer/strings/icu/Encodings.cpp 6-25), the standard input of `TextLinesStore::loadFile`
(/repo/src/colorer/viewer/TextLinesStore.cpp 28-38) and `ConsoleTools::forward` (/repo/tools/colorer/ConsoleTools.cpp), on the writers of C74.

ICU is outside. `ucnv_detectUnicodeSignature` is modelled by its documented table of signatures (the five bytes looked at are 0xA5 where the data ends;
a null pointer is an error). Its converters are a parameter (`Icu`), of which only this is assumed (`IcuOk`): they read correctly encoded texts.
The file system is a function from names to contents; a file that cannot be opened or read is absent.
-/
namespace Verif.Tool.Forward
open Verif.Strings (Str)
open Verif.Encodings.Spec (utf8 BMP)

/-! ## Model -/

/-- the encodings `ucnv_detectUnicodeSignature` names -/
inductive Sig where
  | utf8 | utf16be | utf16le | utf32be | utf32le | utf7 | scsu | bocu1 | utfEbcdic
deriving DecidableEq, Repr

/-- `start[i]` -/
def at_ (l : List Nat) (i : Nat) : Nat := (l[i]?).getD 0xA5

/-- `ucnv_detectUnicodeSignature`: the encoding and the length of its signature -/
def detect (l : List Nat) : Option (Sig × Nat) :=
  if at_ l 0 = 0xFE ∧ at_ l 1 = 0xFF then some (.utf16be, 2)
  else if at_ l 0 = 0xFF ∧ at_ l 1 = 0xFE then
    if at_ l 2 = 0 ∧ at_ l 3 = 0 then some (.utf32le, 4) else some (.utf16le, 2)
  else if at_ l 0 = 0xEF ∧ at_ l 1 = 0xBB ∧ at_ l 2 = 0xBF then some (.utf8, 3)
  else if at_ l 0 = 0 ∧ at_ l 1 = 0 ∧ at_ l 2 = 0xFE ∧ at_ l 3 = 0xFF then some (.utf32be, 4)
  else if at_ l 0 = 0x0E ∧ at_ l 1 = 0xFE ∧ at_ l 2 = 0xFF then some (.scsu, 3)
  else if at_ l 0 = 0xFB ∧ at_ l 1 = 0xEE ∧ at_ l 2 = 0x28 then some (.bocu1, 3)
  else if at_ l 0 = 0x2B ∧ at_ l 1 = 0x2F ∧ at_ l 2 = 0x76 then
    if at_ l 3 = 0x38 ∧ at_ l 4 = 0x2D then some (.utf7, 5)
    else if at_ l 3 = 0x38 ∨ at_ l 3 = 0x39 ∨ at_ l 3 = 0x2B ∨ at_ l 3 = 0x2F then some (.utf7, 4)
    else none
  else if at_ l 0 = 0xDD ∧ at_ l 1 = 0x73 ∧ at_ l 2 = 0x66 ∧ at_ l 3 = 0x73 then some (.utfEbcdic, 4)
  else none

/-- what a converter makes of bytes: UTF-16 -/
abbrev Icu := Sig → List Nat → Str

/-- `Encodings::toUnicodeString` (6-25); without a signature UTF-8 -/
def toUnicode (icu : Icu) (l : List Nat) : Str := match detect l with
  | some (e, n) => icu e (l.drop n)
  | none => icu .utf8 l

/-- the standard input (28-38): the array of an empty `std::vector` is a null pointer, for which ICU reports an error; `none`: the exception -/
def readStdin (icu : Icu) (l : List Nat) : Option Str := match l with
  | [] => none
  | c :: r => some (toUnicode icu (c :: r))

abbrev Fs := Str → Option (List Nat)

/-- how `forward` ends: `threw`: with an exception (no input file named, or it cannot be read); `refused`: the output cannot be opened;
`done`: the files afterwards and what was written to the standard output -/
inductive End where
  | threw | refused | done (fs : Fs) (stdout : List Nat)

/-- `ConsoleTools::forward`: the input is read and decoded before the output is opened -/
def forward (icu : Icu) (writable : Str → Bool) (bom : Bool) (input output : Option Str) (fs : Fs) : End :=
  match input with
  | none => .threw
  | some i => match fs i with
    | none => .threw
    | some bytes => match output with
      | none => .done fs (fileBytes bom (toUnicode icu bytes))
      | some o => if writable o then .done (fun n => if n = o then some (fileBytes bom (toUnicode icu bytes)) else fs n) []
        else .refused

/-! ## Specification -/

/-- the bytes of a 16 bit number, a 32 bit number -/
def be16 (u : Nat) : List Nat := [u / 256, u % 256]
def le16 (u : Nat) : List Nat := [u % 256, u / 256]
def be32 (u : Nat) : List Nat := [u / 16777216, u / 65536 % 256, u / 256 % 256, u % 256]
def le32 (u : Nat) : List Nat := [u % 256, u / 256 % 256, u / 65536 % 256, u / 16777216]

/-- the Unicode encoding forms of a character -/
def form : Sig → Nat → List Nat
  | .utf8, c => utf8 c
  | .utf16be, c => (units c).flatMap be16
  | .utf16le, c => (units c).flatMap le16
  | .utf32be, c => be32 c
  | .utf32le, c => le32 c
  | .utf7, _ => []
  | .scsu, _ => []
  | .bocu1, _ => []
  | .utfEbcdic, _ => []

/-- the encodings of the property -/
def Form (e : Sig) : Prop := e = .utf8 ∨ e = .utf16be ∨ e = .utf16le ∨ e = .utf32be ∨ e = .utf32le

/-- a text of Unicode characters -/
def Chars (t : List Nat) : Prop := ∀ c ∈ t, Scalar c

/-- what is assumed of the converters -/
def IcuOk (icu : Icu) : Prop := ∀ e, Form e → ∀ t, Chars t → icu e (t.flatMap (form e)) = t.flatMap units

/-- `l` is the text `t` in a file: with the mark U+FEFF in one of the encodings, or without in UTF-8 -/
inductive Holds (t : List Nat) : List Nat → Prop
  | marked (e : Sig) : Form e → (e = .utf16le → t.head? ≠ some 0) → Holds t ((0xFEFF :: t).flatMap (form e))
  | bare : t.head? ≠ some 0xFEFF → ¬ (∃ c r, t = 0x2B :: 0x2F :: 0x76 :: c :: r ∧ (c = 0x38 ∨ c = 0x39 ∨ c = 0x2B ∨ c = 0x2F)) → Holds t (t.flatMap utf8)

/-! ## Proofs -/

theorem utf8_bytes {c : Nat} (h : Scalar c) : ∀ b ∈ utf8 c, b < 0xF8 := by
  obtain ⟨h1, -⟩ := h
  intro b hb
  unfold utf8 at hb
  split at hb
  · simp only [List.mem_cons, List.not_mem_nil, or_false] at hb; omega
  · split at hb
    · simp only [List.mem_cons, List.not_mem_nil, or_false] at hb; omega
    · split at hb <;> (simp only [List.mem_cons, List.not_mem_nil, or_false] at hb; omega)

theorem text_bytes {t : List Nat} (h : Chars t) : ∀ b ∈ t.flatMap utf8, b < 0xF8 := by
  intro b hb
  obtain ⟨c, hc, hb⟩ := List.mem_flatMap.1 hb
  exact utf8_bytes (h c hc) b hb

theorem at_lt {l : List Nat} (h : ∀ b ∈ l, b < 0xF8) (i : Nat) : at_ l i < 0xF8 := by
  unfold at_
  cases hi : l[i]? with
  | none => decide
  | some b => exact h b (List.mem_of_getElem? hi)

/-- the first bytes of a text in UTF-8 -/
theorem utf8_shape (c : Nat) (h : Scalar c) : (c < 0x80 ∧ utf8 c = [c]) ∨ (∃ b1 b2 r, utf8 c = b1 :: b2 :: r ∧ 0xC0 ≤ b1 ∧ 0x80 ≤ b2 ∧ b2 < 0xC0 ∧
    (b1 = 0xEF → ∃ b3, r = [b3] ∧ 0x80 ≤ b3 ∧ b3 < 0xC0 ∧ c = 0xF000 + (b2 - 0x80) * 64 + (b3 - 0x80))) := by
  obtain ⟨h1, -⟩ := h
  unfold utf8
  by_cases a : c < 0x80
  · rw [if_pos a]; exact .inl ⟨a, rfl⟩
  rw [if_neg a]
  by_cases b : c < 0x800
  · rw [if_pos b]
    exact .inr ⟨_, _, [], rfl, by omega, by omega, by omega, fun h => by omega⟩
  rw [if_neg b]
  by_cases d : c < 0x10000
  · rw [if_pos d]
    exact .inr ⟨_, _, _, rfl, by omega, by omega, by omega, fun h => ⟨_, rfl, by omega, by omega, by omega⟩⟩
  rw [if_neg d]
  exact .inr ⟨_, _, _, rfl, by omega, by omega, by omega, fun h => by omega⟩

theorem at_zero (b : Nat) (l : List Nat) : at_ (b :: l) 0 = b := rfl
theorem at_succ (b : Nat) (l : List Nat) (i : Nat) : at_ (b :: l) (i + 1) = at_ l i := rfl
theorem at_nil (i : Nat) : at_ [] i = 0xA5 := by unfold at_; rw [List.getElem?_nil]; rfl

/-- the first byte is that of a character below 0x80, or 0xC0 and more -/
theorem first_byte {t : List Nat} (h : Chars t) {b : Nat} (hb : b < 0x80) (ha : at_ (t.flatMap utf8) 0 = b) : ∃ r, t = b :: r := by
  cases t with
  | nil => rw [List.flatMap_nil, at_nil] at ha; omega
  | cons c r =>
    rw [List.flatMap_cons] at ha
    rcases utf8_shape c (h c (by simp)) with ⟨-, e⟩ | ⟨b1, b2, q, e, h1, -⟩
    · rw [e, List.cons_append, at_zero] at ha; exact ⟨r, by rw [ha]⟩
    · rw [e, List.cons_append, at_zero] at ha; omega

theorem ascii_step {b : Nat} {r : List Nat} (hb : b < 0x80) (i : Nat) : at_ ((b :: r).flatMap utf8) (i + 1) = at_ (r.flatMap utf8) i := by
  rw [List.flatMap_cons, show utf8 b = [b] from if_pos hb]
  rfl

theorem detect_bare {t : List Nat} (h : Chars t) (h1 : t.head? ≠ some 0xFEFF)
    (h2 : ¬ (∃ c r, t = 0x2B :: 0x2F :: 0x76 :: c :: r ∧ (c = 0x38 ∨ c = 0x39 ∨ c = 0x2B ∨ c = 0x2F))) : detect (t.flatMap utf8) = none := by
  have hlt := at_lt (text_bytes h)
  unfold detect
  rw [if_neg (by have := hlt 0; omega), if_neg (by have := hlt 0; omega)]
  have hEF : ¬ (at_ (t.flatMap utf8) 0 = 0xEF ∧ at_ (t.flatMap utf8) 1 = 0xBB ∧ at_ (t.flatMap utf8) 2 = 0xBF) := by
    rintro ⟨a0, a1, a2⟩
    cases t with
    | nil => rw [List.flatMap_nil, at_nil] at a0; omega
    | cons c r =>
      rw [List.flatMap_cons] at a0 a1 a2
      rcases utf8_shape c (h c (by simp)) with ⟨hc, e⟩ | ⟨b1, b2, q, e, h3, h4, h5, h6⟩
      · rw [e, List.cons_append, at_zero] at a0; omega
      · rw [e, List.cons_append, at_zero] at a0
        obtain ⟨b3, e3, h7, h8, h9⟩ := h6 a0
        rw [e, e3] at a1 a2
        have a1' : b2 = 0xBB := a1
        have a2' : b3 = 0xBF := a2
        refine h1 ?_
        show some c = some 0xFEFF
        rw [h9, a1', a2']
  have hDD : ¬ (at_ (t.flatMap utf8) 0 = 0xDD ∧ at_ (t.flatMap utf8) 1 = 0x73 ∧ at_ (t.flatMap utf8) 2 = 0x66 ∧ at_ (t.flatMap utf8) 3 = 0x73) := by
    rintro ⟨a0, a1, -⟩
    cases t with
    | nil => rw [List.flatMap_nil, at_nil] at a0; omega
    | cons c r =>
      rw [List.flatMap_cons] at a0 a1
      rcases utf8_shape c (h c (by simp)) with ⟨hc, e⟩ | ⟨b1, b2, q, e, h3, h4, h5, -⟩
      · rw [e, List.cons_append, at_zero] at a0; omega
      · rw [e, List.cons_append, List.cons_append, at_succ, at_zero] at a1; omega
  rw [if_neg hEF, if_neg (by have := hlt 2; omega), if_neg (by have := hlt 1; omega), if_neg (by have := hlt 0; omega)]
  by_cases h7 : at_ (t.flatMap utf8) 0 = 0x2B ∧ at_ (t.flatMap utf8) 1 = 0x2F ∧ at_ (t.flatMap utf8) 2 = 0x76
  · rw [if_pos h7]
    obtain ⟨a0, a1, a2⟩ := h7
    obtain ⟨r1, e1⟩ := first_byte h (by decide) a0
    rw [e1] at h h2 a1 a2 ⊢
    rw [ascii_step (by decide)] at a1 a2
    have hr1 : Chars r1 := fun c hc => h c (List.mem_cons_of_mem _ hc)
    obtain ⟨r2, e2⟩ := first_byte hr1 (by decide) a1
    rw [e2] at hr1 h2 a2 ⊢
    rw [ascii_step (by decide)] at a2
    have hr2 : Chars r2 := fun c hc => hr1 c (List.mem_cons_of_mem _ hc)
    obtain ⟨r3, e3⟩ := first_byte hr2 (by decide) a2
    rw [e3] at hr2 h2 ⊢
    have hr3 : Chars r3 := fun c hc => hr2 c (List.mem_cons_of_mem _ hc)
    have key : ∀ b, b < 0x80 → (b = 0x38 ∨ b = 0x39 ∨ b = 0x2B ∨ b = 0x2F) → at_ ((0x2B :: 0x2F :: 0x76 :: r3).flatMap utf8) 3 ≠ b := by
      intro b hb hc ha
      rw [ascii_step (by decide), ascii_step (by decide), ascii_step (by decide)] at ha
      obtain ⟨r4, e4⟩ := first_byte hr3 hb ha
      exact h2 ⟨b, r4, by rw [e4], hc⟩
    have k1 := key 0x38 (by decide) (by decide)
    have k2 := key 0x39 (by decide) (by decide)
    have k3 := key 0x2B (by decide) (by decide)
    have k4 := key 0x2F (by decide) (by decide)
    rw [if_neg (fun h => k1 h.1), if_neg (by omega)]
  · rw [if_neg h7, if_neg hDD]

theorem detect_mark (e : Sig) (he : Form e) (t : List Nat) (h : Chars t) (h0 : e = .utf16le → t.head? ≠ some 0) :
    detect ((0xFEFF :: t).flatMap (form e)) = some (e, (form e 0xFEFF).length) ∧ (form e 0xFEFF).length ≤ ((0xFEFF :: t).flatMap (form e)).length := by
  refine ⟨?_, by rw [List.flatMap_cons, List.length_append]; omega⟩
  rw [List.flatMap_cons]
  rcases he with e1 | e1 | e1 | e1 | e1 <;> subst e1
  · rfl
  · rfl
  · show detect (0xFF :: 0xFE :: t.flatMap (form .utf16le)) = some (.utf16le, 2)
    have : ¬ (at_ (t.flatMap (form .utf16le)) 0 = 0 ∧ at_ (t.flatMap (form .utf16le)) 1 = 0) := by
      rintro ⟨a0, a1⟩
      cases t with
      | nil => rw [List.flatMap_nil, at_nil] at a0; omega
      | cons c r =>
        rw [List.flatMap_cons] at a0 a1
        obtain ⟨u, v, hu, hc⟩ : ∃ u v, units c = u :: v ∧ (u = 0 → c = 0) := by
          unfold units
          split
          · exact ⟨c, [], rfl, id⟩
          · exact ⟨_, _, rfl, fun h => by omega⟩
        have e2 : form .utf16le c = u % 256 :: u / 256 :: v.flatMap le16 := by
          show (units c).flatMap le16 = _
          rw [hu, List.flatMap_cons]; rfl
        rw [e2] at a0 a1
        have a0' : u % 256 = 0 := a0
        have a1' : u / 256 = 0 := a1
        exact h0 rfl (by rw [hc (by omega)]; rfl)
    unfold detect
    rw [at_zero, if_neg (by omega), if_pos ⟨rfl, rfl⟩, if_neg (by exact this)]
  · rfl
  · rfl

/-- **C89**: what is read. For every text of Unicode characters in a file that holds it (in UTF-8, UTF-16 or UTF-32 with the mark, or in UTF-8 without one) the
library gets exactly this text, without the mark. -/
theorem C89_reads_the_text_partial (icu : Icu) (ok : IcuOk icu) (t l : List Nat) (ht : Chars t) (h : Holds t l) : toUnicode icu l = t.flatMap units := by
  cases h with
  | marked e he h0 =>
    unfold toUnicode
    rw [(detect_mark e he t ht h0).1]
    dsimp only
    rw [List.flatMap_cons, List.drop_left]
    exact ok e he t ht
  | bare h1 h2 =>
    unfold toUnicode
    rw [detect_bare ht h1 h2]
    exact ok .utf8 (.inl rfl) t ht

/-- **C89**: forwarding. A file that holds a text of the Basic Multilingual Plane is written out in UTF-8, with the mark if that is wanted; other files stay as they
are, the input may itself be the output, and forwarding the result again gives the same bytes. Missing: characters outside that plane, which are left out
(C74), texts that look like another encoding (below). -/
theorem C89_forward_partial (icu : Icu) (ok : IcuOk icu) (writable : Str → Bool) (bom : Bool) (i o : Str) (fs : Fs) (t l : List Nat) (ht : Chars t)
    (hb : BMP t) (hl : Holds t l) (hi : fs i = some l) (hw : writable o = true) :
    ∃ fs', forward icu writable bom (some i) (some o) fs = .done fs' [] ∧
      fs' o = some ((if bom then [0xEF, 0xBB, 0xBF] else []) ++ t.flatMap utf8) ∧ (∀ n, n ≠ o → fs' n = fs n) ∧
      ((bom = true ∨ Holds t (t.flatMap utf8)) → ∃ fs'', forward icu writable bom (some o) (some o) fs' = .done fs'' [] ∧ ∀ n, fs'' n = fs' n) := by
  have e1 := C89_reads_the_text_partial icu ok t l ht hl
  have e2 : ∀ l, toUnicode icu l = t.flatMap units → fileBytes bom (toUnicode icu l) = (if bom then [0xEF, 0xBB, 0xBF] else []) ++ t.flatMap utf8 := by
    intro l e
    rw [e, C74_bytes_in_the_file bom t ht, List.filter_eq_self.2 fun c hc => decide_eq_true (hb c hc)]
  refine ⟨fun n => if n = o then some ((if bom then [0xEF, 0xBB, 0xBF] else []) ++ t.flatMap utf8) else fs n, ?_, if_pos rfl, fun n hn => if_neg hn, fun hh => ?_⟩
  · unfold forward
    dsimp only
    rw [hi]
    dsimp only
    rw [if_pos hw, e2 l e1]
  · have h3 : Holds t ((if bom then [0xEF, 0xBB, 0xBF] else []) ++ t.flatMap utf8) := by
      cases bom with
      | true => exact Holds.marked .utf8 (.inl rfl) (fun h => by cases h)
      | false => exact hh.resolve_left (by decide)
    refine ⟨fun n => if n = o then some ((if bom then [0xEF, 0xBB, 0xBF] else []) ++ t.flatMap utf8) else
      (if n = o then some ((if bom then [0xEF, 0xBB, 0xBF] else []) ++ t.flatMap utf8) else fs n), ?_, fun n => ?_⟩
    · unfold forward
      dsimp only
      rw [if_pos rfl]
      dsimp only
      rw [if_pos hw, e2 _ (C89_reads_the_text_partial icu ok t _ ht h3)]
    · dsimp only
      by_cases hn : n = o
      · rw [if_pos hn, if_pos hn]
      · rw [if_neg hn]

/-- **C89**: nothing is written unless the input can be read and the output opened -/
theorem C89_failures (icu : Icu) (writable : Str → Bool) (bom : Bool) (fs : Fs) (o : Option Str) :
    forward icu writable bom none o fs = .threw ∧ (∀ i, fs i = none → forward icu writable bom (some i) o fs = .threw) ∧
    (∀ i l n, fs i = some l → writable n = false → forward icu writable bom (some i) (some n) fs = .refused) := by
  refine ⟨rfl, fun i h => by unfold forward; dsimp only; rw [h], fun i l n h hw => ?_⟩
  unfold forward
  dsimp only
  rw [h]
  dsimp only
  rw [hw]
  rfl

/-- C89, to the standard output: the same bytes come out, and no file changes. The characters outside the Basic Multilingual Plane are left out. -/
theorem C89_forward_to_stdout_partial (icu : Icu) (ok : IcuOk icu) (writable : Str → Bool) (bom : Bool) (i : Str) (fs : Fs) (t l : List Nat) (ht : Chars t)
    (hl : Holds t l) (hi : fs i = some l) :
    forward icu writable bom (some i) none fs = .done fs ((if bom then [0xEF, 0xBB, 0xBF] else []) ++ (t.filter fun c => c < 0x10000).flatMap utf8) := by
  unfold forward
  dsimp only
  rw [hi]
  dsimp only
  rw [C89_reads_the_text_partial icu ok t l ht hl, C74_bytes_in_the_file bom t ht]

/-- C89 is violated: a text in UTF-8 that begins with "+/v8" is read as UTF-7, and this beginning is lost -/
theorem C89_violated_plus (icu : Icu) (r : List Nat) (hr : at_ r 0 ≠ 0x2D) :
    toUnicode icu ((0x2B :: 0x2F :: 0x76 :: 0x38 :: r).flatMap utf8) = icu .utf7 (r.flatMap utf8) := by
  have e : (0x2B :: 0x2F :: 0x76 :: 0x38 :: r).flatMap utf8 = 0x2B :: 0x2F :: 0x76 :: 0x38 :: r.flatMap utf8 := by
    rw [List.flatMap_cons, List.flatMap_cons, List.flatMap_cons, List.flatMap_cons]; rfl
  have h4 : at_ (r.flatMap utf8) 0 ≠ 0x2D := by
    cases r with
    | nil => decide
    | cons c r =>
      intro h
      rw [List.flatMap_cons] at h
      unfold utf8 at h
      have hc : c ≠ 0x2D := hr
      split at h
      · exact hc h
      · split at h
        · have : 0xC0 + c / 64 = 0x2D := h
          omega
        · split at h
          · have : 0xE0 + c / 4096 = 0x2D := h
            omega
          · have : 0xF0 + c / 262144 = 0x2D := h
            omega
  rw [e]
  unfold toUnicode
  have : detect (0x2B :: 0x2F :: 0x76 :: 0x38 :: r.flatMap utf8) = some (.utf7, 4) := by
    unfold detect
    rw [at_zero, if_neg (by omega), if_neg (by omega), if_neg (by omega), if_neg (by omega), if_neg (by omega), if_neg (by omega),
      if_pos ⟨rfl, rfl, rfl⟩, if_neg (fun h => h4 h.2), if_pos (.inl rfl)]
  rw [this]
  rfl

/-- C89 is violated: a text in UTF-16 (little endian, with the mark) that begins with U+0000 is read as UTF-32 -/
theorem C89_violated_nul (icu : Icu) (r : List Nat) :
    toUnicode icu ((0xFEFF :: 0 :: r).flatMap (form .utf16le)) = icu .utf32le (r.flatMap (form .utf16le)) := rfl

/-- C89 is violated: an empty standard input is an error -/
theorem C89_violated_empty_stdin (icu : Icu) (c : Nat) (l : List Nat) : readStdin icu [] = none ∧ readStdin icu (c :: l) = some (toUnicode icu (c :: l)) := ⟨rfl, rfl⟩

/-! ## Witnesses -/
namespace Demo

def dec8 : List Nat → Str
  | [] => []
  | [b] => [b]
  | [b, b1] => if b < 0x80 then [b, b1] else units ((b - 0xC0) * 64 + (b1 - 0x80))
  | [b, b1, b2] => if b < 0x80 then b :: dec8 [b1, b2] else if b < 0xE0 then units ((b - 0xC0) * 64 + (b1 - 0x80)) ++ dec8 [b2]
    else units ((b - 0xE0) * 4096 + (b1 - 0x80) * 64 + (b2 - 0x80))
  | b :: b1 :: b2 :: b3 :: r => if b < 0x80 then b :: dec8 (b1 :: b2 :: b3 :: r) else if b < 0xE0 then units ((b - 0xC0) * 64 + (b1 - 0x80)) ++ dec8 (b2 :: b3 :: r)
    else if b < 0xF0 then units ((b - 0xE0) * 4096 + (b1 - 0x80) * 64 + (b2 - 0x80)) ++ dec8 (b3 :: r)
    else units ((b - 0xF0) * 262144 + (b1 - 0x80) * 4096 + (b2 - 0x80) * 64 + (b3 - 0x80)) ++ dec8 r

def dec16 (f : Nat → Nat → Nat) : List Nat → Str
  | b :: b1 :: r => f b b1 :: dec16 f r
  | _ => []

def dec32 (f : Nat → Nat → Nat → Nat → Nat) : List Nat → Str
  | b :: b1 :: b2 :: b3 :: r => units (f b b1 b2 b3) ++ dec32 f r
  | _ => []

/-- converters as they are assumed -/
def icu : Icu
  | .utf8, l => dec8 l
  | .utf16be, l => dec16 (fun a b => a * 256 + b) l
  | .utf16le, l => dec16 (fun a b => a + b * 256) l
  | .utf32be, l => dec32 (fun a b c d => a * 16777216 + b * 65536 + c * 256 + d) l
  | .utf32le, l => dec32 (fun a b c d => a + b * 256 + c * 65536 + d * 16777216) l
  | .utf7, _ => []
  | .scsu, _ => []
  | .bocu1, _ => []
  | .utfEbcdic, _ => []

theorem units_small {c : Nat} (h : c < 0x10000) : units c = [c] := if_pos h

theorem dec8_char (c : Nat) (h : Scalar c) (r : List Nat) : dec8 (utf8 c ++ r) = units c ++ dec8 r := by
  obtain ⟨h1, -⟩ := h
  unfold utf8
  by_cases a : c < 0x80
  · rw [if_pos a, units_small (by omega)]
    match r with
    | [] => rfl
    | [x] => show (if c < 0x80 then [c, x] else _) = _; rw [if_pos a]; rfl
    | [x, y] => show (if c < 0x80 then c :: dec8 [x, y] else _) = _; rw [if_pos a]; rfl
    | x :: y :: z :: r => show (if c < 0x80 then c :: dec8 (x :: y :: z :: r) else _) = _; rw [if_pos a]; rfl
  rw [if_neg a]
  by_cases b : c < 0x800
  · rw [if_pos b]
    have e : (0xC0 + c / 64 - 0xC0) * 64 + (0x80 + c % 64 - 0x80) = c := by omega
    have n1 : ¬ (0xC0 + c / 64 < 0x80) := by omega
    have n2 : 0xC0 + c / 64 < 0xE0 := by omega
    match r with
    | [] =>
      show (if 0xC0 + c / 64 < 0x80 then _ else units ((0xC0 + c / 64 - 0xC0) * 64 + (0x80 + c % 64 - 0x80))) = _
      rw [if_neg n1, e]; exact (List.append_nil _).symm
    | [x] =>
      show (if 0xC0 + c / 64 < 0x80 then _ else if 0xC0 + c / 64 < 0xE0 then units ((0xC0 + c / 64 - 0xC0) * 64 + (0x80 + c % 64 - 0x80)) ++ dec8 [x] else _) = _
      rw [if_neg n1, if_pos n2, e]
    | x :: y :: r =>
      show (if 0xC0 + c / 64 < 0x80 then _ else if 0xC0 + c / 64 < 0xE0 then units ((0xC0 + c / 64 - 0xC0) * 64 + (0x80 + c % 64 - 0x80)) ++ dec8 (x :: y :: r) else _) = _
      rw [if_neg n1, if_pos n2, e]
  rw [if_neg b]
  by_cases d : c < 0x10000
  · rw [if_pos d]
    have e : (0xE0 + c / 4096 - 0xE0) * 4096 + (0x80 + c / 64 % 64 - 0x80) * 64 + (0x80 + c % 64 - 0x80) = c := by omega
    have n1 : ¬ (0xE0 + c / 4096 < 0x80) := by omega
    have n2 : ¬ (0xE0 + c / 4096 < 0xE0) := by omega
    have n3 : 0xE0 + c / 4096 < 0xF0 := by omega
    match r with
    | [] =>
      show (if 0xE0 + c / 4096 < 0x80 then _ else if 0xE0 + c / 4096 < 0xE0 then _ else
        units ((0xE0 + c / 4096 - 0xE0) * 4096 + (0x80 + c / 64 % 64 - 0x80) * 64 + (0x80 + c % 64 - 0x80))) = _
      rw [if_neg n1, if_neg n2, e]; exact (List.append_nil _).symm
    | x :: r =>
      show (if 0xE0 + c / 4096 < 0x80 then _ else if 0xE0 + c / 4096 < 0xE0 then _ else if 0xE0 + c / 4096 < 0xF0 then
        units ((0xE0 + c / 4096 - 0xE0) * 4096 + (0x80 + c / 64 % 64 - 0x80) * 64 + (0x80 + c % 64 - 0x80)) ++ dec8 (x :: r) else _) = _
      rw [if_neg n1, if_neg n2, if_pos n3, e]
  rw [if_neg d]
  have e : (0xF0 + c / 262144 - 0xF0) * 262144 + (0x80 + c / 4096 % 64 - 0x80) * 4096 + (0x80 + c / 64 % 64 - 0x80) * 64 + (0x80 + c % 64 - 0x80) = c := by omega
  have n1 : ¬ (0xF0 + c / 262144 < 0x80) := by omega
  have n2 : ¬ (0xF0 + c / 262144 < 0xE0) := by omega
  have n3 : ¬ (0xF0 + c / 262144 < 0xF0) := by omega
  show (if 0xF0 + c / 262144 < 0x80 then _ else if 0xF0 + c / 262144 < 0xE0 then _ else if 0xF0 + c / 262144 < 0xF0 then _ else
    units ((0xF0 + c / 262144 - 0xF0) * 262144 + (0x80 + c / 4096 % 64 - 0x80) * 4096 + (0x80 + c / 64 % 64 - 0x80) * 64 + (0x80 + c % 64 - 0x80)) ++ dec8 r) = _
  rw [if_neg n1, if_neg n2, if_neg n3, e]

theorem dec16_units (f : Nat → Nat → Nat) (g : Nat → List Nat) (h : ∀ u r, dec16 f (g u ++ r) = u :: dec16 f r) (l : Str) : dec16 f (l.flatMap g) = l := by
  induction l with
  | nil => rfl
  | cons u l ih => rw [List.flatMap_cons, h, ih]

/-- what is assumed of ICU can be met -/
theorem icu_ok : IcuOk icu := by
  intro e he t ht
  rcases he with e1 | e1 | e1 | e1 | e1 <;> subst e1
  · show dec8 (t.flatMap utf8) = _
    induction t with
    | nil => rfl
    | cons c t ih =>
      rw [List.flatMap_cons, List.flatMap_cons, dec8_char c (ht c (by simp)), ih fun d hd => ht d (List.mem_cons_of_mem _ hd)]
  · show dec16 _ (t.flatMap fun c => (units c).flatMap be16) = _
    rw [← List.flatMap_assoc]
    refine dec16_units _ _ (fun u r => ?_) _
    show (u / 256 * 256 + u % 256) :: dec16 (fun a b => a * 256 + b) r = _
    rw [show u / 256 * 256 + u % 256 = u by omega]
  · show dec16 _ (t.flatMap fun c => (units c).flatMap le16) = _
    rw [← List.flatMap_assoc]
    refine dec16_units _ _ (fun u r => ?_) _
    show (u % 256 + u / 256 * 256) :: dec16 (fun a b => a + b * 256) r = _
    rw [show u % 256 + u / 256 * 256 = u by omega]
  · show dec32 _ (t.flatMap be32) = _
    clear ht
    induction t with
    | nil => rfl
    | cons c t ih =>
      rw [List.flatMap_cons, List.flatMap_cons, ← ih]
      show units (c / 16777216 * 16777216 + c / 65536 % 256 * 65536 + c / 256 % 256 * 256 + c % 256) ++ _ = _
      rw [show c / 16777216 * 16777216 + c / 65536 % 256 * 65536 + c / 256 % 256 * 256 + c % 256 = c by omega]
      rfl
  · show dec32 _ (t.flatMap le32) = _
    clear ht
    induction t with
    | nil => rfl
    | cons c t ih =>
      rw [List.flatMap_cons, List.flatMap_cons, ← ih]
      show units (c % 256 + c / 256 % 256 * 256 + c / 65536 % 256 * 65536 + c / 16777216 * 16777216) ++ _ = _
      rw [show c % 256 + c / 256 % 256 * 256 + c / 65536 % 256 * 65536 + c / 16777216 * 16777216 = c by omega]
      rfl

/-- "é€" in UTF-16, little endian, with the mark -/
example : Holds [0xE9, 0x20AC] [0xFF, 0xFE, 0xE9, 0, 0xAC, 0x20] := Holds.marked (t := [0xE9, 0x20AC]) .utf16le (.inr (.inr (.inl rfl))) (fun _ => by decide)

/-- the outputs -/
def shown : End → Option (List Nat)
  | .done _ out => some out
  | .threw => none
  | .refused => none

example : shown (forward icu (fun _ => true) true (some [97]) none fun _ => some [0xFF, 0xFE, 0xE9, 0, 0xAC, 0x20]) =
    some [0xEF, 0xBB, 0xBF, 0xC3, 0xA9, 0xE2, 0x82, 0xAC] := by decide +kernel

/-- "+/v8 is a text" -/
example : toUnicode icu [0x2B, 0x2F, 0x76, 0x38, 0x20, 0x69, 0x73] = icu .utf7 [0x20, 0x69, 0x73] := by decide +kernel

end Demo

end Verif.Tool.Forward
