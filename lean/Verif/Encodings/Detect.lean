import Verif.Encodings.PageProps
/-!
# C86: how a stream of bytes is read

Models, from /repo/src/colorer/strings/legacy: the constructor `CString(const byte*, int32_t, int)` (CString.cpp 25-116) with its recognition of encodings, `operator[]`
(188-216), `UnicodeString(const char*, int32_t, int)` (UnicodeString.cpp 471-477).

A read outside the stream or a table is `outside`. Note line 61: `UnicodeString dcp((char*)stream, cps, cpe - cps)` is the constructor (string, length, encoding), not
(string, start, length): the text is the first `cps` bytes in the encoding with the number `cpe - cps`.
-/
namespace Verif.Encodings

/-- how the bytes are read -/
inductive Kind where
  | page (e : Int)
  | uni (e : Enc)
deriving DecidableEq

inductive Det where
  | as (k : Kind)
  | throws
  | outside
deriving DecidableEq

/-- `stream[i] == v && ...`, from left to right -/
def eqs (s : List Nat) : List (Nat × Nat) → Option Bool
  | [] => some true
  | (i, v) :: r => match s[i]? with
    | none => none
    | some x => if x = v then eqs s r else some false

/-- `a || b` -/
def or? (a b : Option Bool) : Option Bool := match a with
  | none => none
  | some true => some true
  | some false => b

/-- `strncmp(stream + p, t, |t|) == 0` for a text without zeros: stops at the first difference -/
def prefixAt (s : List Nat) : Nat → List Nat → Option Bool
  | _, [] => some true
  | p, c :: r => match s[p]? with
    | none => none
    | some x => if x = c then prefixAt s (p + 1) r else some false

/-- "encoding=" -/
def encodingEq : List Nat := [101, 110, 99, 111, 100, 105, 110, 103, 61]

/-- the loop 47-59, from `p`, with `cps`; gives `cps`, `cpe`. The fuel is more than the loop needs. -/
def scan (s : List Nat) : Nat → Nat → Nat → Option (Nat × Nat)
  | 0, _, cps => some (cps, 0)
  | fuel + 1, p, cps =>
    if p < 100 then
      match s[p]? with
      | none => none
      | some x =>
        if x = 0x3F then some (cps, 0) else
        match s[p + 1]? with
        | none => none
        | some y =>
          if y = 0x3C then some (cps, 0) else
          if cps ≠ 0 then
            (match s[cps - 1]? with
            | none => none
            | some q => if x = q then some (cps, p) else scan s fuel (p + 1) cps)
          else match prefixAt s p encodingEq with
            | none => none
            | some false => scan s fuel (p + 1) cps
            | some true => match s[p + 9]? with
              | none => none
              | some q => if q = 34 ∨ q = 39 then scan s fuel (p + 11) (p + 10) else some (cps, 0)
    else some (cps, 0)

/-- the characters of the bytes in a page (188-192): `none` outside the table -/
def readPage (e : Nat) (bs : List Nat) : Option (List Nat) := bs.mapM (toWChar e)

/-- 60-69: the name found, as line 61 takes it -/
def named (s : List Nat) (cps cpe : Nat) : Det :=
  if cpe - cps > 8 then .throws else
  match (readPage (cpe - cps) (s.take cps)).bind toStd with
  | none => .outside
  | some name =>
    if getEncodingIndex name = -1 then .throws
    else if getEncodingIndex name = -2 then .as (.uni .utf8)
    else if getEncodingIndex name < 0 then .throws
    else .as (.page (getEncodingIndex name))

/-- 72-86 -/
def marks (s : List Nat) (k : Kind) : Det :=
  match or? (eqs s [(0, 0xFF), (1, 0xFE), (2, 0), (3, 0)]) (eqs s [(0, 0x3C), (1, 0), (2, 0), (3, 0)]) with
  | none => .outside
  | some true => .as (.uni .utf32)
  | some false =>
  match or? (eqs s [(0, 0), (1, 0), (2, 0xFE), (3, 0xFF)]) (eqs s [(0, 0), (1, 0), (2, 0), (3, 0x3C)]) with
  | none => .outside
  | some true => .as (.uni .utf32be)
  | some false =>
  match or? (eqs s [(0, 0xFF), (1, 0xFE)]) (eqs s [(0, 0x3C), (1, 0), (2, 0x3F), (3, 0)]) with
  | none => .outside
  | some true => .as (.uni .utf16)
  | some false =>
  match or? (eqs s [(0, 0xFE), (1, 0xFF)]) (eqs s [(0, 0), (1, 0x3C), (2, 0), (3, 0x3F)]) with
  | none => .outside
  | some true => .as (.uni .utf16be)
  | some false =>
  match eqs s [(0, 0xEF), (1, 0xBB), (2, 0xBF)] with
  | none => .outside
  | some true => .as (.uni .utf8)
  | some false => .as k

/-- 43-87: the encoding -1 -/
def recognise (s : List Nat) : Det :=
  match eqs s [(0, 0x3C), (1, 0x3F)] with
  | none => .outside
  | some true =>
    (match scan s 100 2 0 with
    | none => .outside
    | some (cps, cpe) =>
      if cps ≠ 0 ∧ cpe ≠ 0 then
        (match named s cps cpe with
        | .as k => marks s k
        | .throws => .throws
        | .outside => .outside)
      else marks s (.uni .utf8))
  | some false => marks s (.page (-1))

/-- the kind for `def_encoding` (31-41) -/
def given (enc : Int) : Det :=
  if enc > encNamesNum then .throws
  else match encOf enc with
    | some e => .as (.uni e)
    | none => .as (.page enc)

/-- the constructor without the conversion; 113-115: the default page -/
def kindOf (s : List Nat) (enc : Int) : Det :=
  match given enc with
  | .throws => .throws
  | .outside => .outside
  | .as k =>
    match if k = .page (-1) then recognise s else .as k with
    | .throws => .throws
    | .outside => .outside
    | .as k => .as (if k = .page (-1) then .page defEncodingIdx else k)

/-- what comes out of `UnicodeString(data, len, enc)` -/
inductive Text where
  | text (t : List Nat)
  | throws
  | outside
deriving DecidableEq

def ofOption : Option (List Nat) → Text
  | some t => .text t
  | none => .outside

/-- `UnicodeString(data, len, enc)`; a negative page is a read before the table -/
def readStream (s : List Nat) (enc : Int) : Text :=
  match kindOf s enc with
  | .throws => .throws
  | .outside => .outside
  | .as (.uni e) => ofOption (decode e s)
  | .as (.page e) => if e < 0 then (if s = [] then .text [] else .outside) else ofOption (readPage e.toNat s)

/-! ## Specification -/

/-- the first bytes that tell an encoding: byte order marks, and `<` or `<?` in the encoding; the first that fits counts -/
def signs : List (List Nat × Kind) :=
  [([0xFF, 0xFE, 0, 0], .uni .utf32), ([0x3C, 0, 0, 0], .uni .utf32), ([0, 0, 0xFE, 0xFF], .uni .utf32be), ([0, 0, 0, 0x3C], .uni .utf32be),
   ([0xFF, 0xFE], .uni .utf16), ([0x3C, 0, 0x3F, 0], .uni .utf16), ([0xFE, 0xFF], .uni .utf16be), ([0, 0x3C, 0, 0x3F], .uni .utf16be),
   ([0xEF, 0xBB, 0xBF], .uni .utf8)]

/-- the sign at the beginning of a stream -/
def signOf (s : List Nat) : Option Kind := (signs.find? fun p => p.1.isPrefixOf s).map (·.2)

/-! ## Proofs -/

/-- bytes with their places -/
def placed : Nat → List Nat → List (Nat × Nat)
  | _, [] => []
  | i, v :: r => (i, v) :: placed (i + 1) r

theorem eqs_prefix (s : List Nat) : ∀ (v : List Nat) (i : Nat), i + v.length ≤ s.length → eqs s (placed i v) = some (v.isPrefixOf (s.drop i)) := by
  intro v
  induction v with
  | nil => intro i _; simp [placed, eqs]
  | cons c r ih =>
    intro i h
    simp only [List.length_cons] at h
    rw [placed, eqs, List.getElem?_eq_getElem (by omega), List.drop_eq_getElem_cons (by omega : i < s.length)]
    dsimp only
    rw [ih (i + 1) (by omega), List.isPrefixOf]
    by_cases hc : s[i] = c
    · simp [hc]
    · rw [if_neg hc]
      have : (c == s[i]) = false := by simpa using fun h => hc h.symm
      simp [this]

/-- the tests 72-86 for a stream of at least four bytes -/
theorem marks_eq (s : List Nat) (h : 4 ≤ s.length) (k : Kind) : marks s k = .as ((signOf s).getD k) := by
  have e (v : List Nat) (hv : v.length ≤ 4) : eqs s (placed 0 v) = some (v.isPrefixOf s) := by
    have := eqs_prefix s v 0 (by omega)
    simpa using this
  have e1 := e [0xFF, 0xFE, 0, 0] (by simp)
  have e2 := e [0x3C, 0, 0, 0] (by simp)
  have e3 := e [0, 0, 0xFE, 0xFF] (by simp)
  have e4 := e [0, 0, 0, 0x3C] (by simp)
  have e5 := e [0xFF, 0xFE] (by simp)
  have e6 := e [0x3C, 0, 0x3F, 0] (by simp)
  have e7 := e [0xFE, 0xFF] (by simp)
  have e8 := e [0, 0x3C, 0, 0x3F] (by simp)
  have e9 := e [0xEF, 0xBB, 0xBF] (by simp)
  simp only [placed, Nat.zero_add, Nat.reduceAdd] at e1 e2 e3 e4 e5 e6 e7 e8 e9
  unfold marks signOf signs
  simp only [List.find?]
  rw [e1, e2, e3, e4, e5, e6, e7, e8, e9]
  generalize [0xFF, 0xFE, 0, 0].isPrefixOf s = b1
  generalize [0x3C, 0, 0, 0].isPrefixOf s = b2
  generalize [0, 0, 0xFE, 0xFF].isPrefixOf s = b3
  generalize [0, 0, 0, 0x3C].isPrefixOf s = b4
  generalize [0xFF, 0xFE].isPrefixOf s = b5
  generalize [0x3C, 0, 0x3F, 0].isPrefixOf s = b6
  generalize [0xFE, 0xFF].isPrefixOf s = b7
  generalize [0, 0x3C, 0, 0x3F].isPrefixOf s = b8
  generalize [0xEF, 0xBB, 0xBF].isPrefixOf s = b9
  cases b1 <;> cases b2 <;> cases b3 <;> cases b4 <;> cases b5 <;> cases b6 <;> cases b7 <;> cases b8 <;> cases b9 <;> rfl

/-- a stream that begins with `<?` has no other sign, and the tests read nothing but its first two bytes -/
theorem marks_xml (r : List Nat) (k : Kind) : marks (0x3C :: 0x3F :: r) k = .as k := by
  simp [marks, eqs, or?]

/-! ### The names are never understood -/

theorem name_no_lt : ∀ t : List Nat, getEncodingIndex (0x3C :: t) = -1 := by
  intro t
  refine (C85_names _).2 ?_
  intro p hp h
  have key : ∀ p ∈ names, ∀ c, (p.1.toList.map Char.toNat).head? = some c → ¬ (c = 0x3C ∨ c + 32 = 0x3C ∨ c = 0x3C + 32) := by decide +kernel
  have ne : ∀ p ∈ names, ∃ c r, p.1.toList.map Char.toNat = c :: r := by
    have : ∀ p ∈ names, p.1.toList.map Char.toNat ≠ [] := by decide +kernel
    intro p hp
    cases hh : p.1.toList.map Char.toNat with
    | nil => exact absurd hh (this p hp)
    | cons c r => exact ⟨c, r, rfl⟩
  obtain ⟨c, r, e⟩ := ne p hp
  have := key p hp c (by rw [e]; rfl)
  rw [e] at h
  obtain ⟨h, _⟩ := h
  omega

theorem named_never (r : List Nat) (cps cpe : Nat) (h : cps ≠ 0) (k : Kind) : named (0x3C :: r) cps cpe ≠ .as k := by
  obtain ⟨n, rfl⟩ : ∃ n, cps = n + 1 := ⟨cps - 1, by omega⟩
  unfold named
  split
  · simp
  · rename_i hle
    rw [List.take_succ_cons]
    cases hr : readPage (cpe - (n + 1)) (0x3C :: List.take n r) with
    | none => simp
    | some t =>
      rw [readPage, List.mapM_cons] at hr
      have hp : ∃ w, toWChar (cpe - (n + 1)) 0x3C = some w := by
        cases hw : toWChar (cpe - (n + 1)) 0x3C with
        | none => rw [hw] at hr; cases hr
        | some w => exact ⟨w, rfl⟩
      have he : cpe - (n + 1) < 8 := by
        obtain ⟨w, hw⟩ := hp
        unfold toWChar arrEnc at hw
        split at hw
        · omega
        · cases hw
      have h60 := C85_the_pages.1 _ he 0x3C (by omega)
      rw [h60] at hr
      obtain ⟨t', ht'⟩ : ∃ t', t = 0x3C :: t' := by
        cases hm : List.mapM (toWChar (cpe - (n + 1))) (List.take n r) with
        | none => rw [hm] at hr; cases hr
        | some t' => rw [hm] at hr; cases hr; exact ⟨t', rfl⟩
      subst ht'
      rw [Option.bind_some]
      cases hs : toStd (0x3C :: t') with
      | none => simp
      | some name =>
        have hn : ∃ u, name = 0x3C :: u := by
          unfold toStd getChars1 at hs
          cases hg : getChars1Loop defEncodingIdx (0x3C :: t').length (0x3C :: t') 0 (0x3C :: t').length [] with
          | none => rw [hg] at hs; cases hs
          | some bs =>
            rw [hg] at hs
            have h1 : ∃ u, bs = 0x3C :: u := by
              have c60 : toChar defEncodingIdx 0x3C = some 0x3C := by decide +kernel
              generalize (0x3C :: t').length = m at hg
              rw [getChars1Loop, c60, Option.bind_some] at hg
              dsimp only at hg
              generalize (if ([] : List Nat).length + 1 > m then if 0 = 0 then 8 else m * m / 0 + 8 else m) = l' at hg
              split at hg
              · have gen : ∀ (r : List Nat) (i l : Nat) (out : List Nat) (n : Nat) bs, getChars1Loop defEncodingIdx n r i l (0x3C :: out) = some bs → ∃ u, bs = 0x3C :: u := by
                  intro r
                  induction r with
                  | nil => intro i l out n bs h; rw [getChars1Loop] at h; split at h <;> cases h; exact ⟨_, rfl⟩
                  | cons w r ih =>
                    intro i l out n bs h
                    rw [getChars1Loop] at h
                    cases hw : toChar defEncodingIdx w with
                    | none => rw [hw] at h; cases h
                    | some b =>
                      rw [hw, Option.bind_some] at h
                      dsimp only at h
                      generalize (if (0x3C :: out).length + 1 > l then if i = 0 then 8 else l * n / i + 8 else l) = l' at h
                      split at h
                      · exact ih _ _ _ _ _ h
                      · cases h
                exact gen _ _ _ _ _ _ hg
              · cases hg
            obtain ⟨u, rfl⟩ := h1
            simp at hs
            exact ⟨_, hs.symm⟩
        obtain ⟨u, rfl⟩ := hn
        dsimp only
        rw [if_pos (name_no_lt u)]
        simp

/-! ## The theorems -/

/-- what is read for a known encoding -/
def asWritten (s : List Nat) (k : Kind) : Option (List Nat) := match k with
  | .uni e => decode e s
  | .page e => s.mapM (toWChar e.toNat)

/-- **C86**: with one of the encodings given, the stream is read in that encoding, whatever its first bytes are -/
theorem C86_the_encoding_given (s : List Nat) :
    (∀ e < 8, readStream s (Int.ofNat e) = ofOption (s.mapM (toWChar e))) ∧
    readStream s (-2) = ofOption (decode .utf8 s) ∧ readStream s (-3) = ofOption (decode .utf16 s) ∧ readStream s (-4) = ofOption (decode .utf16be s) ∧
    readStream s (-5) = ofOption (decode .utf32 s) ∧ readStream s (-6) = ofOption (decode .utf32be s) := by
  refine ⟨?_, rfl, rfl, rfl, rfl, rfl⟩
  intro e he
  have : e = 0 ∨ e = 1 ∨ e = 2 ∨ e = 3 ∨ e = 4 ∨ e = 5 ∨ e = 6 ∨ e = 7 := by omega
  rcases this with rfl | rfl | rfl | rfl | rfl | rfl | rfl | rfl <;> rfl

/-- **C86**: a text of a code page is read without fail: every byte gives its character -/
theorem C86_pages_are_read (s : List Nat) (hs : ∀ b ∈ s, b < 256) (e : Nat) (he : e < 8) :
    ∃ t, readStream s (Int.ofNat e) = .text t ∧ t.length = s.length ∧ ∀ i (hi : i < s.length) (hj : i < t.length), toWChar e s[i] = some t[i] := by
  rw [(C86_the_encoding_given s).1 e he, mapM_some (g := charOf e) s ?_]
  · refine ⟨_, rfl, by simp, ?_⟩
    intro i hi hj
    obtain ⟨w, h, _⟩ := C85_a_byte_read_is_written_back e he s[i] (hs _ (List.getElem_mem hi))
    simp [charOf, h]
  · intro b hb
    obtain ⟨w, h, _⟩ := C85_a_byte_read_is_written_back e he b (hs b hb)
    simp [charOf, h]

/-- **C86**: with no encoding given (-1), a stream of four bytes or more that does not begin with `<?` is read by its sign, and without a sign in Windows-1251 -/
theorem C86_recognised_by_the_sign_partial (s : List Nat) (h4 : 4 ≤ s.length) (hx : ¬ [0x3C, 0x3F].isPrefixOf s) :
    readStream s (-1) = ofOption (asWritten s ((signOf s).getD (.page 4))) := by
  have e : eqs s [(0, 0x3C), (1, 0x3F)] = some false := by
    have := eqs_prefix s [0x3C, 0x3F] 0 (by simp; omega)
    simpa [placed, hx] using this
  have hg : given (-1) = .as (.page (-1)) := by decide +kernel
  have hr : recognise s = .as ((signOf s).getD (.page (-1))) := by
    unfold recognise
    rw [e]
    exact marks_eq s h4 _
  have uni : ∀ k, signOf s = some k → ∃ e, k = .uni e := by
    intro k hs
    unfold signOf at hs
    cases hf : signs.find? (fun p => p.1.isPrefixOf s) with
    | none => rw [hf] at hs; cases hs
    | some p =>
      rw [hf] at hs
      have hm := List.mem_of_find?_eq_some hf
      cases hs
      simp only [signs, List.mem_cons, List.not_mem_nil, or_false] at hm
      rcases hm with rfl | rfl | rfl | rfl | rfl | rfl | rfl | rfl | rfl <;> exact ⟨_, rfl⟩
  unfold readStream kindOf
  rw [hg]
  dsimp only
  rw [if_pos rfl, hr]
  dsimp only
  cases hs : signOf s with
  | none => rfl
  | some k =>
    obtain ⟨e, rfl⟩ := uni k hs
    rfl

/-- **C86**: an XML text (beginning with `<?`) that does not say its encoding in its first 110 bytes is read as UTF-8 -/
theorem C86_xml_without_a_name_partial (s : List Nat) (hx : [0x3C, 0x3F].isPrefixOf s) (hl : 110 ≤ s.length)
    (hn : ∀ p < 100, (s.drop p).take 9 ≠ "encoding=".toList.map Char.toNat) :
    readStream s (-1) = ofOption (decode .utf8 s) := by
  obtain ⟨r, rfl⟩ : ∃ r, s = 0x3C :: 0x3F :: r := by
    match s, hx with
    | [], h => simp [List.isPrefixOf] at h
    | [a], h => simp [List.isPrefixOf] at h
    | a :: b :: r, h => simp [List.isPrefixOf] at h; exact ⟨r, by rw [← h.1, ← h.2]⟩
  generalize hs : 0x3C :: 0x3F :: r = s at hl hn
  have pre : ∀ (t : List Nat) (p : Nat), p + t.length ≤ s.length → prefixAt s p t = some (decide ((s.drop p).take t.length = t)) := by
    intro t
    induction t with
    | nil => intro p _; simp [prefixAt]
    | cons c t ih =>
      intro p h
      simp only [List.length_cons] at h
      rw [prefixAt, List.getElem?_eq_getElem (by omega), List.drop_eq_getElem_cons (by omega : p < s.length)]
      dsimp only
      rw [ih (p + 1) (by omega)]
      by_cases hc : s[p] = c
      · simp [hc]
      · rw [if_neg hc, List.length_cons, List.take_succ_cons, decide_eq_false (by intro k; exact hc (List.cons.inj k).1)]
  have sc : ∀ fuel p, scan s fuel p 0 = some (0, 0) := by
    intro fuel
    induction fuel with
    | zero => intro p; rfl
    | succ fuel ih =>
      intro p
      rw [scan]
      split
      · rename_i hp
        rw [List.getElem?_eq_getElem (by omega : p < s.length), List.getElem?_eq_getElem (by omega : p + 1 < s.length)]
        dsimp only
        split
        · rfl
        · split
          · rfl
          · rw [if_neg (by simp), pre encodingEq p (by simp [encodingEq]; omega)]
            have := hn p hp
            have e : encodingEq = "encoding=".toList.map Char.toNat := by decide +kernel
            have e9 : encodingEq.length = 9 := rfl
            rw [e9, e, decide_eq_false this]
            exact ih (p + 1)
      · rfl
  have hr : recognise s = .as (.uni .utf8) := by
    unfold recognise
    rw [sc]
    rw [← hs]
    simp only [eqs, List.getElem?_cons_zero, List.getElem?_cons_succ, if_true]
    exact marks_xml r _
  have hg : given (-1) = .as (.page (-1)) := by decide +kernel
  unfold readStream kindOf
  rw [hg]
  dsimp only
  rw [if_pos rfl, hr]
  rfl

/-- **C86** fails for every XML text that says its encoding: whatever a stream beginning with `<?` says, it is read as UTF-8 or not at all -/
theorem C86_violated_named_encoding (r : List Nat) (t : List Nat) (h : readStream (0x3C :: 0x3F :: r) (-1) = .text t) :
    decode .utf8 (0x3C :: 0x3F :: r) = some t ∧ scan (0x3C :: 0x3F :: r) 100 2 0 ≠ none ∧
      ∀ cps cpe, scan (0x3C :: 0x3F :: r) 100 2 0 = some (cps, cpe) → cps = 0 ∨ cpe = 0 := by
  have hg : given (-1) = .as (.page (-1)) := by decide +kernel
  unfold readStream kindOf at h
  rw [hg] at h
  dsimp only at h
  rw [if_pos rfl] at h
  unfold recognise at h
  simp only [eqs, List.getElem?_cons_zero, List.getElem?_cons_succ, if_true] at h
  cases hsc : scan (0x3C :: 0x3F :: r) 100 2 0 with
  | none => rw [hsc] at h; cases h
  | some q =>
    obtain ⟨cps, cpe⟩ := q
    rw [hsc] at h
    dsimp only at h
    by_cases hc : cps ≠ 0 ∧ cpe ≠ 0
    · exfalso
      rw [if_pos hc] at h
      cases hn : named (0x3C :: 0x3F :: r) cps cpe with
      | as k => exact named_never _ _ _ hc.1 k hn
      | throws => rw [hn] at h; cases h
      | outside => rw [hn] at h; cases h
    · rw [if_neg hc, marks_xml] at h
      refine ⟨?_, by simp, ?_⟩
      · change ofOption (decode .utf8 _) = .text t at h
        cases hd : decode .utf8 (0x3C :: 0x3F :: r) with
        | none => rw [hd] at h; cases h
        | some u => rw [hd] at h; cases h; rfl
      · intro a b hab
        obtain ⟨rfl, rfl⟩ : cps = a ∧ cpe = b := by simpa using hab
        omega

theorem scan_name (s : List Nat) (q : Nat) (cps : Nat) (hc : cps ≠ 0) (hq : s[cps - 1]? = some q) :
    ∀ (n fuel p : Nat), (∀ i < n, ∃ x, s[p + i]? = some x ∧ x ≠ 0x3F ∧ x ≠ q) → (∀ i ≤ n, ∃ y, s[p + i + 1]? = some y ∧ y ≠ 0x3C) →
      s[p + n]? = some q → q ≠ 0x3F → n < fuel → p + n < 100 → scan s fuel p cps = some (cps, p + n) := by
  intro n
  induction n with
  | zero =>
    intro fuel p _ h2 h3 h4 h5 h6
    obtain ⟨fuel, rfl⟩ : ∃ f, fuel = f + 1 := ⟨fuel - 1, by omega⟩
    obtain ⟨y, hy, hy'⟩ := h2 0 (by omega)
    rw [Nat.add_zero] at h3 hy
    rw [scan, if_pos (by omega), h3, hy]
    dsimp only
    rw [if_neg h4, if_neg hy', if_pos hc, hq]
    simp
  | succ n ih =>
    intro fuel p h1 h2 h3 h4 h5 h6
    obtain ⟨fuel, rfl⟩ : ∃ f, fuel = f + 1 := ⟨fuel - 1, by omega⟩
    obtain ⟨y, hy, hy'⟩ := h2 0 (by omega)
    obtain ⟨x, hx, hx1, hx2⟩ := h1 0 (by omega)
    rw [Nat.add_zero] at hx hy
    rw [scan, if_pos (by omega), hx, hy]
    dsimp only
    rw [if_neg hx1, if_neg hy', if_pos hc, hq]
    dsimp only
    rw [if_neg hx2, ih fuel (p + 1) ?_ ?_ ?_ h4 (by omega) (by omega)]
    · congr 2; omega
    · intro i hi
      have := h1 (i + 1) (by omega)
      rwa [show p + (i + 1) = p + 1 + i by omega] at this
    · intro i hi
      have := h2 (i + 1) (by omega)
      rwa [show p + (i + 1) + 1 = p + 1 + i + 1 by omega] at this
    · rwa [show p + (n + 1) = p + 1 + n by omega] at h3

/-- `<?xml version="1.0" encoding="` -/
def declaration : List Nat := [60, 63, 120, 109, 108, 32, 118, 101, 114, 115, 105, 111, 110, 61, 34, 49, 46, 48, 34, 32, 101, 110, 99, 111, 100, 105, 110, 103, 61, 34]

example : declaration = "<?xml version=\"1.0\" encoding=\"".toList.map Char.toNat := by decide +kernel

theorem scan_skip (s : List Nat) (f p x y : Nat) (hp : p < 100) (h1 : s[p]? = some x) (h2 : x ≠ 0x3F) (h3 : s[p + 1]? = some y) (h4 : y ≠ 0x3C)
    (h5 : prefixAt s p encodingEq = some false) : scan s (f + 1) p 0 = scan s f (p + 1) 0 := by
  rw [scan, if_pos hp, h1]
  dsimp only
  rw [if_neg h2, h3]
  dsimp only
  rw [if_neg h4, if_neg (by simp), h5]

theorem scan_found (s : List Nat) (f p x y : Nat) (hp : p < 100) (h1 : s[p]? = some x) (h2 : x ≠ 0x3F) (h3 : s[p + 1]? = some y) (h4 : y ≠ 0x3C)
    (h5 : prefixAt s p encodingEq = some true) (h6 : s[p + 9]? = some 34) : scan s (f + 1) p 0 = scan s f (p + 11) (p + 10) := by
  rw [scan, if_pos hp, h1]
  dsimp only
  rw [if_neg h2, h3]
  dsimp only
  rw [if_neg h4, if_neg (by simp), h5]
  dsimp only
  rw [h6]
  simp

theorem scan_declaration (w : List Nat) : scan (declaration ++ w) 100 2 0 = scan (declaration ++ w) 81 31 30 := by
  rw [scan_skip _ 99 2 _ _ (by decide) rfl (by decide) rfl (by decide) rfl]
  rw [scan_skip _ 98 3 _ _ (by decide) rfl (by decide) rfl (by decide) rfl]
  rw [scan_skip _ 97 4 _ _ (by decide) rfl (by decide) rfl (by decide) rfl]
  rw [scan_skip _ 96 5 _ _ (by decide) rfl (by decide) rfl (by decide) rfl]
  rw [scan_skip _ 95 6 _ _ (by decide) rfl (by decide) rfl (by decide) rfl]
  rw [scan_skip _ 94 7 _ _ (by decide) rfl (by decide) rfl (by decide) rfl]
  rw [scan_skip _ 93 8 _ _ (by decide) rfl (by decide) rfl (by decide) rfl]
  rw [scan_skip _ 92 9 _ _ (by decide) rfl (by decide) rfl (by decide) rfl]
  rw [scan_skip _ 91 10 _ _ (by decide) rfl (by decide) rfl (by decide) rfl]
  rw [scan_skip _ 90 11 _ _ (by decide) rfl (by decide) rfl (by decide) rfl]
  rw [scan_skip _ 89 12 _ _ (by decide) rfl (by decide) rfl (by decide) rfl]
  rw [scan_skip _ 88 13 _ _ (by decide) rfl (by decide) rfl (by decide) rfl]
  rw [scan_skip _ 87 14 _ _ (by decide) rfl (by decide) rfl (by decide) rfl]
  rw [scan_skip _ 86 15 _ _ (by decide) rfl (by decide) rfl (by decide) rfl]
  rw [scan_skip _ 85 16 _ _ (by decide) rfl (by decide) rfl (by decide) rfl]
  rw [scan_skip _ 84 17 _ _ (by decide) rfl (by decide) rfl (by decide) rfl]
  rw [scan_skip _ 83 18 _ _ (by decide) rfl (by decide) rfl (by decide) rfl]
  rw [scan_skip _ 82 19 _ _ (by decide) rfl (by decide) rfl (by decide) rfl]
  rw [scan_found _ 81 20 _ _ (by decide) rfl (by decide) rfl (by decide) rfl rfl]

/-- **C86** fails for every usual XML declaration with an encoding, whatever the encoding (a name of 2 to 69 characters without `"`, `?` and `<`) and whatever follows
(but a `<`): the text cannot be read -/
theorem C86_violated_every_declaration (name : List Nat) (h2 : 2 ≤ name.length) (h69 : name.length ≤ 69) (hn : ∀ x ∈ name, x ≠ 34 ∧ x ≠ 0x3F ∧ x ≠ 0x3C)
    (c : Nat) (hc : c ≠ 0x3C) (rest : List Nat) (t : List Nat) : readStream (declaration ++ name ++ 34 :: c :: rest) (-1) ≠ .text t := by
  intro h
  have hs : declaration ++ name ++ 34 :: c :: rest = 0x3C :: 0x3F :: (declaration.drop 2 ++ name ++ 34 :: c :: rest) := rfl
  rw [hs] at h
  obtain ⟨_, _, k⟩ := C86_violated_named_encoding _ _ h
  rw [← hs] at k
  have step : scan (declaration ++ name ++ 34 :: c :: rest) 100 2 0 = scan (declaration ++ name ++ 34 :: c :: rest) 81 31 30 := by
    rw [List.append_assoc]
    exact scan_declaration _
  have dl : declaration.length = 30 := rfl
  have get : ∀ i, i < name.length → (declaration ++ name ++ 34 :: c :: rest)[30 + i]? = some (name[i]?.getD 0) := by
    intro i hi
    rw [List.append_assoc, List.getElem?_append_right (by omega), dl, List.getElem?_append_left (by omega)]
    simp [show 30 + i - 30 = i by omega, hi]
  have getq : (declaration ++ name ++ 34 :: c :: rest)[30 + name.length]? = some 34 := by
    rw [List.append_assoc, List.getElem?_append_right (by omega), dl, List.getElem?_append_right (by omega)]
    simp
  have getc : (declaration ++ name ++ 34 :: c :: rest)[30 + name.length + 1]? = some c := by
    rw [List.append_assoc, List.getElem?_append_right (by omega), dl, List.getElem?_append_right (by omega)]
    rw [show 30 + name.length + 1 - 30 - name.length = 1 by omega]
    rfl
  have nm : ∀ i, i < name.length → name[i]?.getD 0 ≠ 34 ∧ name[i]?.getD 0 ≠ 0x3F ∧ name[i]?.getD 0 ≠ 0x3C := by
    intro i hi
    have := hn name[i] (List.getElem_mem hi)
    simpa [List.getElem?_eq_getElem hi] using this
  have fin := scan_name (declaration ++ name ++ 34 :: c :: rest) 34 30 (by omega) (by
      rw [List.append_assoc, List.getElem?_append_left (by rw [dl]; omega)]
      rfl) (name.length - 1) 81 31
    (by
      intro i hi
      refine ⟨_, by rw [show 31 + i = 30 + (i + 1) by omega]; exact get (i + 1) (by omega), ?_, ?_⟩
      · exact (nm (i + 1) (by omega)).2.1
      · exact (nm (i + 1) (by omega)).1)
    (by
      intro i hi
      by_cases h1 : i + 2 < name.length
      · exact ⟨_, by rw [show 31 + i + 1 = 30 + (i + 2) by omega]; exact get (i + 2) h1, (nm (i + 2) h1).2.2⟩
      · by_cases h2 : i + 2 = name.length
        · exact ⟨34, by rw [show 31 + i + 1 = 30 + name.length by omega]; exact getq, by decide⟩
        · exact ⟨c, by rw [show 31 + i + 1 = 30 + name.length + 1 by omega]; exact getc, hc⟩)
    (by rw [show 31 + (name.length - 1) = 30 + name.length by omega]; exact getq) (by decide) (by omega) (by omega)
  rw [step] at k
  rcases k _ _ fin with h | h
  · exact absurd h (by decide)
  · omega

/-- the usual declarations, with more text behind them: an exception, also for UTF-8; a name of eight letters is a read outside a table -/
theorem C86_violated_declarations :
    readStream ("<?xml version=\"1.0\" encoding=\"UTF-8\"?>\n<a/>".toList.map Char.toNat) (-1) = .throws ∧
    readStream ("<?xml version=\"1.0\" encoding=\"KOI8-R\"?>\n<a/>".toList.map Char.toNat) (-1) = .throws ∧
    readStream ("<?xml version=\"1.0\" encoding=\"windows-1251\"?>\n<a/>".toList.map Char.toNat) (-1) = .throws ∧
    readStream ("<?xml version=\"1.0\" encoding=\"US-ASCII\"?>\n<a/>".toList.map Char.toNat) (-1) = .outside := by decide +kernel

/-- **C86** fails for short streams: the first bytes are read without looking at the length -/
theorem C86_violated_short : readStream [] (-1) = .outside ∧ readStream [0x3C] (-1) = .outside ∧ readStream [0xFF, 0xFE] (-1) = .outside := by decide +kernel

/-- **C86** fails for the number 8 and for numbers below -6, which are no encodings: they are not refused, and every stream but the empty one is read outside the table -/
theorem C86_violated_bad_number (b : Nat) (s : List Nat) (enc : Int) (he : enc = 8 ∨ enc < -6) : readStream (b :: s) enc = .outside := by
  rcases he with rfl | he
  · have : kindOf (b :: s) 8 = .as (.page 8) := rfl
    unfold readStream
    rw [this]
    dsimp only
    rw [if_neg (by omega)]
    have : readPage (8 : Int).toNat (b :: s) = none := by
      rw [readPage, List.mapM_cons, show (8 : Int).toNat = 8 from rfl, toWChar, arrEnc, if_neg (by omega)]
      rfl
    rw [this]
    rfl
  · have hg : given enc = .as (.page enc) := by
      unfold given encOf
      rw [if_neg (by simp only [encNamesNum]; omega), if_neg (by omega), if_neg (by omega), if_neg (by omega), if_neg (by omega), if_neg (by omega)]
    have hne : Kind.page enc ≠ .page (-1) := by
      intro h; injection h with h; omega
    unfold readStream kindOf
    rw [hg]
    dsimp only
    rw [if_neg hne]
    dsimp only
    rw [if_neg hne]
    dsimp only
    rw [if_pos (by omega), if_neg (by simp)]

/-- numbers above 8 are refused -/
theorem C86_large_numbers_throw (s : List Nat) (enc : Int) (h : enc > 8) : readStream s enc = .throws := by
  have : given enc = .throws := by rw [given, if_pos (by simpa [encNamesNum] using h)]
  unfold readStream kindOf
  rw [this]

/-- examples: UTF-16 with a mark (the mark stays in the text), UTF-8 with a mark, Windows-1251 -/
example : readStream [0xFF, 0xFE, 0x41, 0] (-1) = .text [0xFEFF, 0x41] ∧ readStream [0xEF, 0xBB, 0xBF, 0x41] (-1) = .text [0xFEFF, 0x41] ∧
    readStream [0xCF, 0xF0, 0xE8, 0xE2] (-1) = .text ("Прив".toList.map Char.toNat) := by decide +kernel

end Verif.Encodings
