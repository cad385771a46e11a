import Verif.Factory.Hrd
import Verif.Styles.Spec
/-! # Saving colour schemes (C68) -/
namespace Verif.Factory
open Verif.Hrc (Name lit Elem)

/-! ## Model -/

/-- the digit of `printf("%x")` -/
def hexChar (d : Nat) : Nat := if d < 10 then 48 + d else 87 + d

/-- the digits of a number in a base, most significant first -/
def digits (b : Nat) (hb : 2 ≤ b) (n : Nat) : List Nat :=
  if n < b then [n] else digits b hb (n / b) ++ [n % b]
termination_by n
decreasing_by exact Nat.div_lt_self (by omega) (by omega)

/-- `printf("%06x")` -/
def hex06 (v : BitVec 32) : Name :=
  List.replicate (6 - (digits 16 (by omega) v.toNat).length) 48 ++ (digits 16 (by omega) v.toNat).map hexChar

/-- `printf("%u")` -/
def dec (v : BitVec 32) : Name := (digits 10 (by omega) v.toNat).map (48 + ·)

/-- the attributes `StyledHRDMapper::saveRegionMappings` (StyledHRDMapper.cpp 58-82) writes for a definition -/
def styledAttrs (n : Name) (s : Styles.Styled) : List (Name × Name) :=
  [(lit "name", n)] ++ (if s.isForeSet then [(lit "fore", 35 :: hex06 s.fore)] else []) ++
  (if s.isBackSet then [(lit "back", 35 :: hex06 s.back)] else []) ++ (if s.style = 0 then [] else [(lit "style", dec s.style)])

/-- the attributes `TextHRDMapper::saveRegionMappings` (TextHRDMapper.cpp 45-67) writes -/
def textAttrs (n : Name) (s : Styles.Text) : List (Name × Name) :=
  [(lit "name", n)] ++ (s.startText.toList.map fun t => (lit "start_text", t)) ++ (s.endText.toList.map fun t => (lit "end_text", t)) ++
  (s.startBack.toList.map fun t => (lit "start_back", t)) ++ (s.endBack.toList.map fun t => (lit "end_back", t))

/-- one attribute as it is written; nothing is escaped. Simplified: the quote character of colours is `"`, of the others `'`. -/
def renderAttr (a : Name × Name) : Name := 32 :: a.1 ++ lit "='" ++ a.2 ++ lit "'"

/-- the saved text; `attrs`: `styledAttrs` or `textAttrs` -/
def saveText {V : Type} (attrs : Name → V → List (Name × Name)) (m : List (Name × V)) : Name :=
  lit "<?xml version=\"1.0\"?>\n" ++ (m.flatMap fun d => lit "\t<define" ++ (attrs d.1 d.2).flatMap renderAttr ++ lit "/>\n") ++ lit "</hrd>\n"

/-- the element a definition is saved as, with the tag it would need -/
def savedElem {V : Type} (attrs : Name → V → List (Name × Name)) (tag : String) (n : Name) (v : V) : Elem := .mk (lit tag) (attrs n v) [] []

/-! ## Colours survive -/

theorem hexVal_char {d : Nat} (h : d < 16) : hexVal (hexChar d) = some d := by
  have : ∀ d, d < 16 → hexVal (hexChar d) = some d := by decide
  exact this d h

theorem digits_lt (b : Nat) (hb : 2 ≤ b) (n : Nat) : ∀ d ∈ digits b hb n, d < b := by
  induction n using Nat.strongRecOn with
  | _ n ih =>
    unfold digits
    split
    · intro d hd; simp at hd; omega
    · intro d hd
      rcases List.mem_append.1 hd with h | h
      · exact ih (n / b) (Nat.div_lt_self (by omega) (by omega)) d h
      · simp at h; subst h; exact Nat.mod_lt _ (by omega)

theorem digits_ne (b : Nat) (hb : 2 ≤ b) (n : Nat) : digits b hb n ≠ [] := by
  unfold digits; split <;> simp

theorem hexDigits_append (l r : List Nat) (h : ∀ c ∈ l, (hexVal c).isSome = true) : ∀ n, hexDigits (l ++ r) n = hexDigits r (hexDigits l n) := by
  induction l with
  | nil => intro n; rfl
  | cons c t ih =>
    intro n
    obtain ⟨d, hd⟩ := Option.isSome_iff_exists.1 (h c (by simp))
    simp only [List.cons_append]
    rw [hexDigits, hexDigits, hd]
    exact ih (fun x hx => h x (by simp [hx])) _

theorem hexDigits_digits (n : Nat) : hexDigits ((digits 16 (by omega) n).map hexChar) 0 = n := by
  induction n using Nat.strongRecOn with
  | _ n ih =>
    unfold digits
    split
    · rename_i h
      simp only [List.map_cons, List.map_nil, hexDigits, hexVal_char h]
      omega
    · rename_i h
      rw [List.map_append, hexDigits_append, ih (n / 16) (Nat.div_lt_self (by omega) (by omega))]
      · simp only [List.map_cons, List.map_nil, hexDigits, hexVal_char (Nat.mod_lt n (by omega : 0 < 16))]
        omega
      · intro c hc
        obtain ⟨d, hd, rfl⟩ := List.mem_map.1 hc
        rw [hexVal_char (digits_lt 16 (by omega) _ d hd)]; rfl

theorem hexDigits_zeros (k : Nat) (r : List Nat) : hexDigits (List.replicate k 48 ++ r) 0 = hexDigits r 0 := by
  induction k with
  | zero => rfl
  | succ k ih => rw [List.replicate_succ, List.cons_append, hexDigits]; simpa [hexVal] using ih

theorem hex_plain {c : Nat} (h : (hexVal c).isSome = true) : cSpace c = false ∧ c ≠ 43 ∧ c ≠ 45 ∧ c ≠ 120 ∧ c ≠ 88 ∧ c ≠ 35 := by
  unfold hexVal at h
  unfold cSpace
  grind

/-- a string of hexadecimal digits is read as its number -/
theorem stoul_hex (l : List Nat) (hne : l ≠ []) (h : ∀ c ∈ l, (hexVal c).isSome = true) (hlt : hexDigits l 0 < 2 ^ 64) : stoul16 l = some (hexDigits l 0) := by
  obtain ⟨c, r, rfl⟩ := List.exists_cons_of_ne_nil hne
  have hc := hex_plain (h c (by simp))
  have hs : skip0x (c :: r) = c :: r := by
    unfold skip0x
    split
    · rename_i x r' e
      cases e
      have := hex_plain (h x (by simp))
      rw [if_neg (by simp [this])]
    · rfl
  have hst : hexStarts (c :: r) = true := by unfold hexStarts; exact h c (by simp)
  have hu : unsignedHex false (c :: r) = some (hexDigits (c :: r) 0) := by
    unfold unsignedHex
    rw [hs, if_pos hst, if_neg (by omega)]
    simp
  unfold stoul16
  rw [List.dropWhile_cons_of_neg (by simp [hc.1])]
  split
  · rename_i e; simp at e; exact absurd e.1 hc.2.1
  · rename_i e; simp at e; exact absurd e.1 hc.2.2.1
  · exact hu

/-- C68. A colour survives being saved and read, whatever its 32 bits. -/
theorem C68_colours_survive (v : BitVec 32) : hexToUInt (35 :: hex06 v) = some v := by
  have hd : ∀ c ∈ hex06 v, (hexVal c).isSome = true := by
    intro c hc
    unfold hex06 at hc
    rcases List.mem_append.1 hc with h | h
    · rw [(List.mem_replicate.1 h).2]; rfl
    · obtain ⟨d, hd, rfl⟩ := List.mem_map.1 h
      rw [hexVal_char (digits_lt 16 (by omega) _ d hd)]; rfl
  have hne : hex06 v ≠ [] := by
    unfold hex06
    have := digits_ne 16 (by omega) v.toNat
    simp [this]
  have hv : hexDigits (hex06 v) 0 = v.toNat := by
    unfold hex06
    rw [hexDigits_zeros, hexDigits_digits]
  have hlt := v.isLt
  unfold hexToUInt
  show (stoul16 (hex06 v)).map (BitVec.ofNat 32) = some v
  rw [stoul_hex _ hne hd (by rw [hv]; omega), hv]
  simp

/-- a hexadecimal digit as it may be written: `0`-`9`, `a`-`f`, `A`-`F` -/
def HexDigit (c d : Nat) : Prop := (d < 10 ∧ c = 48 + d) ∨ (10 ≤ d ∧ d < 16 ∧ (c = 87 + d ∨ c = 55 + d))

theorem hexVal_digit {c d : Nat} (h : HexDigit c d) : hexVal c = some d := by
  unfold HexDigit at h
  unfold hexVal
  grind

/-- C67. A colour of one to eight hexadecimal digits, in small or capital letters, with or without `#`, is their number. -/
theorem C67_colours_are_hexadecimal_numbers (cs ds : List Nat) (h : List.Forall₂ HexDigit cs ds) (h1 : 1 ≤ cs.length) (h8 : cs.length ≤ 8) :
    hexToUInt (35 :: cs) = some (BitVec.ofNat 32 (ds.foldl (fun n d => n * 16 + d) 0)) ∧
    hexToUInt cs = some (BitVec.ofNat 32 (ds.foldl (fun n d => n * 16 + d) 0)) := by
  have hd : ∀ {cs ds : List Nat}, List.Forall₂ HexDigit cs ds → ∀ c ∈ cs, (hexVal c).isSome = true := by
    intro cs ds h
    induction h with
    | nil => intro c hc; cases hc
    | cons a _ ih =>
      intro c hc
      rcases List.mem_cons.1 hc with e | e
      · subst e; rw [hexVal_digit a]; rfl
      · exact ih c e
  have hv : ∀ {cs ds : List Nat}, List.Forall₂ HexDigit cs ds → ∀ n, hexDigits cs n = ds.foldl (fun n d => n * 16 + d) n ∧
      ds.foldl (fun n d => n * 16 + d) n < (n + 1) * 16 ^ cs.length := by
    intro cs ds h
    induction h with
    | nil => intro n; exact ⟨rfl, by simp⟩
    | @cons c d cs ds a _ ih =>
      intro n
      rw [hexDigits, hexVal_digit a, List.foldl_cons, List.length_cons]
      refine ⟨(ih _).1, ?_⟩
      have hd16 : d < 16 := by unfold HexDigit at a; omega
      have := (ih (n * 16 + d)).2
      have h2 : (n * 16 + d + 1) * 16 ^ cs.length ≤ (n + 1) * 16 * 16 ^ cs.length := Nat.mul_le_mul_right _ (by omega)
      rw [Nat.pow_succ]
      calc _ < _ := this
        _ ≤ _ := h2
        _ = _ := by rw [Nat.mul_assoc, Nat.mul_comm 16]
  obtain ⟨e, hlt⟩ := hv h 0
  have hne : cs ≠ [] := by intro e; rw [e] at h1; cases h1
  have hp : 16 ^ cs.length ≤ 16 ^ 8 := Nat.pow_le_pow_right (by omega) h8
  have hs := stoul_hex cs hne (hd h) (by rw [e]; omega)
  rw [e] at hs
  constructor
  · show (stoul16 cs).map (BitVec.ofNat 32) = _
    rw [hs]; rfl
  · unfold hexToUInt
    split
    · have := (hex_plain (hd h 35 (by simp))).2.2.2.2.2
      exact absurd rfl this
    · rw [hs]; rfl

/-- the usual spelling of a colour -/
example : hexToUInt (lit "#FF8000") = some 0xFF8000#32 ∧ hexToUInt (lit "ff8000") = some 0xFF8000#32 ∧ hexToUInt (lit "") = none ∧
    hexToUInt (lit "red") = none ∧ hexToUInt (lit "0x1F") = some 0x1F#32 ∧ hex06 0x00800A#32 = lit "00800a" := by decide +kernel

theorem attr_cons (n k v : Name) (as : List (Name × Name)) (t : Name) (ks : List Elem) (tag : Name) :
    (Elem.mk tag ((k, v) :: as) t ks).attr n = if k = n then v else (Elem.mk tag as t ks).attr n := by
  unfold Elem.attr Elem.attr?
  simp only [Elem.attrs, List.find?_cons]
  by_cases h : k = n <;> simp [h]

theorem hex06_ne (v : BitVec 32) : hex06 v ≠ [] := by
  unfold hex06
  have := digits_ne 16 (by omega) v.toNat
  simp [this]

theorem dec_ne (v : BitVec 32) : dec v ≠ [] := by
  unfold dec
  have := digits_ne 10 (by omega) v.toNat
  simp [this]

/-- C68. The saved attributes of a definition, read back as those of an `<assign>`: name, colours and their absence survive; the style survives if it is
less than ten. Partial: not for every style (it is written in decimal and read in hexadecimal), and what is written are no `<assign>` elements. -/
theorem C68_saved_attributes_survive_partial (n : Name) (s : Styles.Styled) :
    (savedElem styledAttrs "assign" n s).attr (lit "name") = n ∧
    (styledOf (savedElem styledAttrs "assign" n s)).foreOpt = s.foreOpt ∧ (styledOf (savedElem styledAttrs "assign" n s)).backOpt = s.backOpt ∧
    (s.style.toNat < 10 → (styledOf (savedElem styledAttrs "assign" n s)).style = s.style) := by
  obtain ⟨a, b, f, k, st⟩ := s
  have n1 : lit "name" ≠ lit "fore" := by decide
  have n2 : lit "name" ≠ lit "back" := by decide
  have n3 : lit "name" ≠ lit "style" := by decide
  have n4 : lit "fore" ≠ lit "back" := by decide
  have n5 : lit "fore" ≠ lit "style" := by decide
  have n6 : lit "back" ≠ lit "style" := by decide
  have hnil : ∀ k : Name, (Elem.mk (lit "assign") [] [] []).attr k = [] := fun k => rfl
  refine ⟨?_, ?_, ?_, ?_⟩
  · unfold savedElem styledAttrs
    simp only [List.cons_append, List.nil_append, attr_cons, if_true]
  · unfold styledOf colourAttr savedElem styledAttrs Styles.Styled.foreOpt
    cases a
    · cases b <;> by_cases h : st = 0#32 <;>
        simp [attr_cons, hnil, n1, n2, n3, n4, n5, n6, n4.symm, n5.symm, n6.symm, h]
    · cases b <;> by_cases h : st = 0#32 <;>
        simp [attr_cons, hnil, n1, n2, n3, n4, n5, n6, n4.symm, n5.symm, n6.symm, h, C68_colours_survive]
  · unfold styledOf colourAttr savedElem styledAttrs Styles.Styled.backOpt
    cases b
    · cases a <;> by_cases h : st = 0#32 <;>
        simp [attr_cons, hnil, n1, n2, n3, n4, n5, n6, n4.symm, n5.symm, n6.symm, h]
    · cases a <;> by_cases h : st = 0#32 <;>
        simp [attr_cons, hnil, n1, n2, n3, n4, n5, n6, n4.symm, n5.symm, n6.symm, h, C68_colours_survive]
  · intro hs
    dsimp only at hs
    have hd : hexToUInt (dec st) = some st := by
      have : ∀ v : Fin 10, hexToUInt (dec (BitVec.ofNat 32 v.val)) = some (BitVec.ofNat 32 v.val) := by decide +kernel
      have := this ⟨st.toNat, hs⟩
      simpa using this
    unfold styledOf colourAttr savedElem styledAttrs
    by_cases h : st = 0#32
    · cases a <;> cases b <;>
        simp [attr_cons, hnil, n1, n2, n3, n4, n5, n6, n4.symm, n5.symm, n6.symm, h]
    · cases a <;> cases b <;>
        simp [attr_cons, hnil, n1, n2, n3, n4, n5, n6, n4.symm, n5.symm, n6.symm, h, hd, dec_ne]

/-- C68 does not hold: every combination of styles of ten or more is read back as another one. -/
theorem C68_violated_styles_change : ∀ k : Fin 6, hexToUInt (dec (BitVec.ofNat 32 (10 + k.val))) = some (BitVec.ofNat 32 (16 + k.val)) := by decide +kernel

/-- C68 does not hold: what is saved assigns nothing, whichever kind of scheme it is: the elements are no `<assign>` -/
theorem C68_violated_nothing_is_assigned {V : Type} (attrs : Name → V → List (Name × Name)) (val : Elem → V) (m : List (Name × V)) :
    assigns val (m.map fun d => savedElem attrs "define" d.1 d.2) [] = [] := by
  have h : lit "define" ≠ lit "assign" := by decide
  have key : ∀ acc, assigns val (m.map fun d => savedElem attrs "define" d.1 d.2) acc = acc := by
    intro acc
    induction m with
    | nil => rfl
    | cons d r ih =>
      rw [List.map_cons, assigns, if_neg (by exact h)]
      exact ih
  exact key []

/-- C68 does not hold: with the right elements, the marks of a text scheme would still be lost, since they are saved under other names. -/
theorem C68_violated_marks_are_lost (n : Name) (t : Styles.Text) : textOf (savedElem textAttrs "assign" n t) = ⟨none, none, none, none⟩ := by
  have key : ∀ k : Name, k ≠ lit "name" → k ≠ lit "start_text" → k ≠ lit "end_text" → k ≠ lit "start_back" → k ≠ lit "end_back" →
      (savedElem textAttrs "assign" n t).attr k = [] := by
    intro k h1 h2 h3 h4 h5
    obtain ⟨a, b, c, d⟩ := t
    have hnil : ∀ k : Name, (Elem.mk (lit "assign") [] [] []).attr k = [] := fun k => rfl
    unfold savedElem textAttrs
    cases a <;> cases b <;> cases c <;> cases d <;> simp [attr_cons, hnil, h1.symm, h2.symm, h3.symm, h4.symm, h5.symm]
  unfold textOf markAttr
  rw [key (lit "stext") (by decide) (by decide) (by decide) (by decide) (by decide), key (lit "etext") (by decide) (by decide) (by decide) (by decide) (by decide),
    key (lit "sback") (by decide) (by decide) (by decide) (by decide) (by decide), key (lit "eback") (by decide) (by decide) (by decide) (by decide) (by decide)]
  simp

/-- C68. What is saved of a mark of a text scheme: its four texts, each under its own name, and nothing under the names of missing texts. -/
theorem C68_marks_under_their_own_names (n : Name) (t : Styles.Text) :
    (savedElem textAttrs "assign" n t).attr (lit "name") = n ∧ (savedElem textAttrs "assign" n t).attr (lit "start_text") = t.startText.getD [] ∧
    (savedElem textAttrs "assign" n t).attr (lit "end_text") = t.endText.getD [] ∧ (savedElem textAttrs "assign" n t).attr (lit "start_back") = t.startBack.getD [] ∧
    (savedElem textAttrs "assign" n t).attr (lit "end_back") = t.endBack.getD [] := by
  obtain ⟨a, b, c, d⟩ := t
  have hnil : ∀ k : Name, (Elem.mk (lit "assign") [] [] []).attr k = [] := fun k => rfl
  unfold savedElem textAttrs
  have n1 : lit "name" ≠ lit "start_text" := by decide
  have n2 : lit "name" ≠ lit "end_text" := by decide
  have n3 : lit "name" ≠ lit "start_back" := by decide
  have n4 : lit "name" ≠ lit "end_back" := by decide
  have n5 : lit "start_text" ≠ lit "end_text" := by decide
  have n6 : lit "start_text" ≠ lit "start_back" := by decide
  have n7 : lit "start_text" ≠ lit "end_back" := by decide
  have n8 : lit "end_text" ≠ lit "start_back" := by decide
  have n9 : lit "end_text" ≠ lit "end_back" := by decide
  have n10 : lit "start_back" ≠ lit "end_back" := by decide
  cases a <;> cases b <;> cases c <;> cases d <;>
    simp [attr_cons, hnil, n1, n2, n3, n4, n5, n6, n7, n8, n9, n10, n5.symm, n6.symm, n7.symm, n8.symm, n9.symm, n10.symm]

/-- C68 does not hold: the file of a scheme ends the element `hrd` without having begun it (here the whole file of an empty scheme; with definitions, there
is still no `<hrd` before the first name), and a name with an apostrophe ends its attribute. -/
theorem C68_violated_no_document :
    saveText styledAttrs [] = lit "<?xml version=\"1.0\"?>\n</hrd>\n" ∧
    saveText styledAttrs [(lit "a'b", ⟨true, false, 0xFF0000#32, 0, 0⟩)] =
      lit "<?xml version=\"1.0\"?>\n\t<define name='a'b' fore='#ff0000'/>\n</hrd>\n" := by decide +kernel

end Verif.Factory
