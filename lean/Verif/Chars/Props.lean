import Verif.Chars.Cats
import Verif.CharClass.LegacyProps
/-!
# C82: the built-in character functions

Property C82: without ICU the library brings its own tables of Unicode. Every function of them gives an answer for every 16 bit character, and the
answers fit together: the tests of a character go by its category, the classes `{Xx}` hold the characters of their category, an escape such as `\w` accepts
the same characters inside a class and outside, and comparing without case is an equivalence that ignores the case.
-/
namespace Verif.Chars
open Verif.RegExp Verif.CharClass

def nm (s : String) : Text := s.toList.map Char.toNat

/-! ## Specification -/

/-- the category of `c` is called `n` -/
def Named (c : Nat) (n : Text) : Prop := ∃ k, getCategory c = some k ∧ names[k]? = some n

/-- what Unicode calls letters and spaces -/
def letterNames : List Text := ["Lu", "Ll", "Lt", "Lm", "Lo"].map nm
def spaceNames : List Text := ["Zs", "Zl", "Zp"].map nm
def hiddenNames : List Text := ["Cn", "Cc", "Cf", "Cs"].map nm

/-- what the tests of a character must answer if its category is called `n` -/
structure Answers (c : Nat) (n : Text) : Prop where
  lower : isLowerCase c = some (decide (n = nm "Ll"))
  upper : isUpperCase c = some (decide (n = nm "Lu"))
  title : isTitleCase c = some (decide (n = nm "Lt"))
  letter : isLetter c = some (decide (n ∈ letterNames))
  digit : isDigit c = some (decide (n = nm "Nd"))
  letterOrDigit : isLetterOrDigit c = some (decide (n ∈ letterNames ∨ n = nm "Nd"))
  assigned : isAssigned c = some (decide (n ≠ nm "Cn"))
  space : isSpaceChar c = some (decide (n ∈ spaceNames))
  white : isWhitespace c = some (decide (n ∈ spaceNames ∨ c ∈ [9, 10, 12, 13]))
  graph : isGraph c = some (decide (¬ (n ∈ spaceNames ∨ n ∈ hiddenNames)))

/-! ## Proofs -/

theorem cat_lt {c : Nat} (hc : c < 65536) : fprop c % 32 < 29 := (in_its_table hc).1

theorem getCategory_fast {c : Nat} (hc : c < 65536) : getCategory c = some (fprop c % 32) := by
  rw [getCategory, charProp_fast hc]; rfl

theorem masks : ∀ k, k < 29 → ∃ n, names[k]? = some n ∧
    (k == 4) = decide (n = nm "Ll") ∧ (k == 8) = decide (n = nm "Lu") ∧ (k == 7) = decide (n = nm "Lt") ∧
    (((2 ^ 8 ||| 2 ^ 4 ||| 2 ^ 7 ||| 2 ^ 5 ||| 2 ^ 6) >>> k) % 2 != 0) = decide (n ∈ letterNames) ∧ (k == 12) = decide (n = nm "Nd") ∧
    (((2 ^ 8 ||| 2 ^ 4 ||| 2 ^ 7 ||| 2 ^ 5 ||| 2 ^ 6 ||| 2 ^ 12) >>> k) % 2 != 0) = decide (n ∈ letterNames ∨ n = nm "Nd") ∧
    (k != 0) = decide (n ≠ nm "Cn") ∧ (((2 ^ 28 ||| 2 ^ 26 ||| 2 ^ 27) >>> k) % 2 != 0) = decide (n ∈ spaceNames) ∧
    (k == 0 || k == 1 || k == 2 || k == 3) = decide (n ∈ hiddenNames) := by
  intro k hk
  have h : ∀ k : Fin 29, ∃ n ∈ names, names[k.val]? = some n ∧
    (k.val == 4) = decide (n = nm "Ll") ∧ (k.val == 8) = decide (n = nm "Lu") ∧ (k.val == 7) = decide (n = nm "Lt") ∧
    (((2 ^ 8 ||| 2 ^ 4 ||| 2 ^ 7 ||| 2 ^ 5 ||| 2 ^ 6) >>> k.val) % 2 != 0) = decide (n ∈ letterNames) ∧ (k.val == 12) = decide (n = nm "Nd") ∧
    (((2 ^ 8 ||| 2 ^ 4 ||| 2 ^ 7 ||| 2 ^ 5 ||| 2 ^ 6 ||| 2 ^ 12) >>> k.val) % 2 != 0) = decide (n ∈ letterNames ∨ n = nm "Nd") ∧
    (k.val != 0) = decide (n ≠ nm "Cn") ∧ (((2 ^ 28 ||| 2 ^ 26 ||| 2 ^ 27) >>> k.val) % 2 != 0) = decide (n ∈ spaceNames) ∧
    (k.val == 0 || k.val == 1 || k.val == 2 || k.val == 3) = decide (n ∈ hiddenNames) := by decide +kernel
  obtain ⟨n, -, h⟩ := h ⟨k, hk⟩
  exact ⟨n, h⟩

theorem white_small : ∀ c : Fin 33, (decide (c.val = 0x20 ∨ c.val ≤ 0x20 ∧ ((2 ^ 9 ||| 2 ^ 10 ||| 2 ^ 12 ||| 2 ^ 13) >>> c.val) % 2 ≠ 0)) =
    decide (c.val = 32 ∨ c.val ∈ [9, 10, 12, 13]) := by decide +kernel

theorem white_cond (c : Nat) : (c = 0x20 ∨ c ≤ 0x20 ∧ ((2 ^ 9 ||| 2 ^ 10 ||| 2 ^ 12 ||| 2 ^ 13) >>> c) % 2 ≠ 0) ↔ c = 32 ∨ c ∈ [9, 10, 12, 13] := by
  by_cases h : c < 33
  · have := white_small ⟨c, h⟩
    exact decide_eq_decide.1 this
  · constructor
    · intro h'; omega
    · intro h'; simp only [List.mem_cons, List.not_mem_nil, or_false] at h'; omega

theorem cat_32 : fprop 32 % 32 = 28 := by decide +kernel
theorem cat_ctl : ∀ c ∈ [9, 10, 12, 13], fprop c % 32 = 1 := by decide +kernel

theorem answers {c : Nat} (hc : c < 65536) {n : Text} (hn : names[fprop c % 32]? = some n) : Answers c n := by
  obtain ⟨n', h0, h1, h2, h3, h4, h5, h6, h7, h8, h9⟩ := masks _ (cat_lt hc)
  obtain rfl : n = n' := Option.some.inj (hn.symm.trans h0)
  have hw : isWhitespace c = some (decide (n ∈ spaceNames ∨ c ∈ [9, 10, 12, 13])) := by
    rw [isWhitespace]
    by_cases h : c = 32 ∨ c ∈ [9, 10, 12, 13]
    · rw [if_pos ((white_cond c).2 h)]
      congr 1
      symm
      rw [decide_eq_true_eq]
      refine h.imp_left ?_
      rintro rfl
      rw [cat_32] at hn
      obtain rfl := Option.some.inj hn
      decide
    · rw [if_neg (fun k => h ((white_cond c).1 k)), charProp_fast hc, Option.map_some]
      congr 1
      have : c ∉ [9, 10, 12, 13] := fun k => h (.inr k)
      simp only [this, or_false]
      exact h8
  refine ⟨?_, ?_, ?_, ?_, ?_, ?_, ?_, ?_, hw, ?_⟩
  · rw [isLowerCase, charProp_fast hc]; exact congrArg some h1
  · rw [isUpperCase, charProp_fast hc]; exact congrArg some h2
  · rw [isTitleCase, charProp_fast hc]; exact congrArg some h3
  · rw [isLetter, charProp_fast hc]; exact congrArg some h4
  · rw [isDigit, charProp_fast hc]; exact congrArg some h5
  · rw [isLetterOrDigit, charProp_fast hc]; exact congrArg some h6
  · rw [isAssigned, charProp_fast hc]; exact congrArg some h7
  · rw [isSpaceChar, charProp_fast hc]; exact congrArg some h8
  · rw [isGraph, hw, getCategory_fast hc, Option.bind_some, Option.map_some]
    congr 1
    have e : (decide (n ∈ spaceNames ∨ c ∈ [9, 10, 12, 13]) || fprop c % 32 == 0 || fprop c % 32 == 1 || fprop c % 32 == 2 || fprop c % 32 == 3) =
        (decide (n ∈ spaceNames ∨ c ∈ [9, 10, 12, 13]) || decide (n ∈ hiddenNames)) := by rw [← h9]; simp only [Bool.or_assoc]
    rw [e]
    have hh : c ∈ [9, 10, 12, 13] → n ∈ hiddenNames := by
      intro h
      rw [cat_ctl c h] at hn
      obtain rfl := Option.some.inj hn
      decide
    rw [Bool.eq_iff_iff]
    simp only [Bool.not_eq_true', Bool.or_eq_false_iff, decide_eq_false_iff_not, decide_eq_true_eq]
    grind

/-- **C82 (partial)**: every test is defined for every 16 bit character; a character has one category, and all tests go by it -/
theorem C82_the_tests_go_by_the_category {c : Nat} (hc : c < 65536) : ∃ n ∈ names, Named c n ∧ Answers c n := by
  obtain ⟨n, h0, -⟩ := masks _ (cat_lt hc)
  exact ⟨n, List.mem_of_getElem? h0, ⟨_, getCategory_fast hc, h0⟩, answers hc h0⟩

/-! ### The functions satisfy what the compiler assumes -/

def hexB (c : Nat) : Bool := (Nat.ble 48 c && Nat.ble c 57) || (Nat.ble 65 c && Nat.ble c 70) || (Nat.ble 97 c && Nat.ble c 102)

theorem isHex_hexB (c : Nat) : isHex c = hexB c := by
  rw [Bool.eq_iff_iff]
  simp only [hexB, Bool.or_eq_true, Bool.and_eq_true, Nat.ble_eq, isHex, hexVal]
  split
  · simp; omega
  · split
    · simp; omega
    · split
      · simp; omega
      · simp; omega

theorem check_hex : allR (fun e => bit CASELESS (ridx e) || allR (fun c => hexB c || !hexB (flower c)) 4 (Nat.mul 16 e)) 12 0 = true := by decide +kernel

theorem lower_fast {c : Nat} (hc : c < 65536) : legacyChars.lower c = flower c := by
  show (toLowerCase c).getD c = _
  rw [toLowerCase_fast hc]; rfl
theorem upper_fast {c : Nat} (hc : c < 65536) : legacyChars.upper c = fupper c := by
  show (toUpperCase c).getD c = _
  rw [toUpperCase_fast hc]; rfl
theorem title_fast {c : Nat} (hc : c < 65536) : legacyCtx.title c = ftitle c := by
  show (toTitleCase c).getD c = _
  rw [toTitleCase_fast hc]; rfl

theorem fast_ascii : (List.range 128).all (fun c => (if 65 ≤ c ∧ c ≤ 90 then Nat.beq (flower c) (c + 32) else Nat.beq (flower c) c) &&
    (if 97 ≤ c ∧ c ≤ 122 then Nat.beq (fupper c) (c - 32) else Nat.beq (fupper c) c) &&
    (if 97 ≤ c ∧ c ≤ 122 then Nat.beq (ftitle c) (c - 32) else Nat.beq (ftitle c) c) &&
    (if 33 ≤ c ∧ c ≤ 126 then Nat.ble 4 (fprop c % 32) && Nat.ble (fprop c % 32) 25 else true)) = true := by decide +kernel

theorem ascii_case {c : Nat} (h : c < 128) : flower c = (if 65 ≤ c ∧ c ≤ 90 then c + 32 else c) ∧ fupper c = (if 97 ≤ c ∧ c ≤ 122 then c - 32 else c) ∧
    ftitle c = (if 97 ≤ c ∧ c ≤ 122 then c - 32 else c) ∧ (33 ≤ c → c ≤ 126 → 4 ≤ fprop c % 32 ∧ fprop c % 32 ≤ 25) := by
  have := List.all_eq_true.1 fast_ascii c (List.mem_range.2 h)
  simp only [Bool.and_eq_true] at this
  obtain ⟨⟨⟨h1, h2⟩, h3⟩, h4⟩ := this
  refine ⟨?_, ?_, ?_, fun h5 h6 => ?_⟩
  · split at h1 <;> rename_i hh
    · rw [if_pos hh]; exact Nat.eq_of_beq_eq_true h1
    · rw [if_neg hh]; exact Nat.eq_of_beq_eq_true h1
  · split at h2 <;> rename_i hh
    · rw [if_pos hh]; exact Nat.eq_of_beq_eq_true h2
    · rw [if_neg hh]; exact Nat.eq_of_beq_eq_true h2
  · split at h3 <;> rename_i hh
    · rw [if_pos hh]; exact Nat.eq_of_beq_eq_true h3
    · rw [if_neg hh]; exact Nat.eq_of_beq_eq_true h3
  · rw [if_pos ⟨h5, h6⟩, Bool.and_eq_true] at h4
    exact ⟨Nat.le_of_ble_eq_true h4.1, Nat.le_of_ble_eq_true h4.2⟩

theorem cat_names : ∀ k : Fin 29, 4 ≤ k.val → k.val ≤ 25 → ∃ n ∈ names, names[k.val]? = some n ∧ n ∉ spaceNames ∧ n ∉ hiddenNames := by decide +kernel

theorem visible {c : Nat} (h1 : 33 ≤ c) (h2 : c ≤ 126) : isWhitespace c = some false ∧ isGraph c = some true := by
  have hc : c < 65536 := by omega
  obtain ⟨h3, h4⟩ := (ascii_case (c := c) (by omega)).2.2.2 h1 h2
  obtain ⟨n, -, hn, h5, h6⟩ := cat_names ⟨_, cat_lt hc⟩ h3 h4
  have := answers hc hn
  rw [this.white, this.graph]
  have h7 : c ∉ [9, 10, 12, 13] := by simp only [List.mem_cons, List.not_mem_nil, or_false]; omega
  simp [h5, h6, h7]

theorem legacy_ctx_ok : CtxOk legacyCtx := by
  have hl : ∀ c, c < 128 → legacyCtx.lower c = if 65 ≤ c ∧ c ≤ 90 then c + 32 else c := fun c h =>
    (lower_fast (by omega)).trans (ascii_case h).1
  refine ⟨?_, ?_, ?_, ?_, ?_, ?_⟩
  · intro c h1 h2; rw [hl c (by omega), if_neg (by omega)]
  · intro c h1 h2; rw [hl c (by omega), if_neg (by omega)]
  · intro c h1 h2; rw [hl c (by omega), if_pos (by omega)]
  · intro c hc h
    have e : legacyCtx.lower c = flower c := lower_fast hc
    rw [e, isHex_hexB]
    rw [isHex_hexB] at h
    refine ⟨(small hc).1, ?_⟩
    have := by_rows check_hex (fun c hc hr h1 h2 h3 => by rw [h1]; cases hexB c <;> rfl) hc
    rw [h] at this
    simpa using this
  · intro c h hc
    have hr : 33 ≤ c ∧ c ≤ 126 := by simp only [List.mem_cons, List.not_mem_nil, or_false] at hc; omega
    have h : (isWhitespace c).getD false = true := h
    rw [(visible hr.1 hr.2).1] at h
    cases h
  · intro c h
    have hr : 33 ≤ c ∧ c ≤ 126 := by
      rw [isHex_hexB] at h
      simp only [hexB, Bool.or_eq_true, Bool.and_eq_true, Nat.ble_eq] at h
      omega
    show (isGraph c).getD false = true
    rw [(visible hr.1 hr.2).2]
    rfl

theorem legacy_cases_ok : CasesOk legacyCtx := by
  refine ⟨fun c h => ?_, fun c h => ?_, fun c h => ?_, ?_⟩
  · rw [show legacyCtx.lower c = flower c from lower_fast h]; exact (small h).1
  · rw [show legacyCtx.upper c = fupper c from upper_fast h]; exact (small h).2.1
  · rw [title_fast h]; exact (small h).2.2
  · have := ascii_case (c := 45) (by decide)
    refine ⟨(lower_fast (by decide)).trans this.1, (upper_fast (by decide)).trans this.2.1, (title_fast (by decide)).trans this.2.2.1⟩

/-- **C82 (partial)**: C79 with the tables of the library: a class, written correctly, is the set it describes, the categories being those of `Character` -/
theorem C82_a_class_is_the_set_it_describes_with_the_built_in_tables_partial {ic neg : Bool} {k : CR} {u : Text} (h1 : neg = false → k.text.head? ≠ some 94)
    (h2 : OkL legacyCtx ic k (93 :: u)) (h3 : NoInter k) :
    ∃ c, createLegacy legacyCtx legacyTables ic (bra neg ++ (k.text ++ [93]) ++ u) = some (.ok c u) ∧
      ∀ d, d < 65536 → (c.inClass d = true ↔ negIf neg (setI (ctxOf legacyCtx legacyTables) ic (fun _ => False) k) d) :=
  C79_the_built_in_strings_read_a_class_as_the_set_it_describes_partial legacy_ctx_ok legacy_cases_ok legacyTables h1 h2 h3

theorem has_named {k c : Nat} (h1 : 1 ≤ k) (h2 : k ≤ 28) (hc : c < 65536) {n : Text} (hn : names[fprop c % 32]? = some n) (hk : names[k]? = some n') :
    legacyTables.has k c = true ↔ n = n' := by
  rw [has_iff h1 h2 hc]
  have inj : ∀ i j : Fin 29, names[i.val]? = names[j.val]? → i = j := by decide +kernel
  constructor
  · rintro rfl; exact Option.some.inj (hn.symm.trans hk)
  · rintro rfl
    have := inj ⟨_, cat_lt hc⟩ ⟨k, by omega⟩ (hn.trans hk.symm)
    exact congrArg Fin.val this

/-- **C82 (partial)**: the class `[{n}]` holds exactly the characters the name of whose category begins with `n` (except for `{UNASSIGNED}`, `{C}`, `{Cn}`,
for which C79 is violated) -/
theorem C82_the_class_of_a_category_holds_its_characters {n u : Text} (h1 : n ∉ [[], nAll, nAssigned, nUnassigned, [67], [67, 110]])
    (h2 : ∀ c ∈ n, isGraph c = some true ∧ c ≠ 125) :
    ∃ cc, createLegacy legacyCtx legacyTables false (nm "[{" ++ n ++ nm "}]" ++ u) = some (.ok cc u) ∧
      ∀ d, d < 65536 → (cc.inClass d = true ↔ ∃ m, Named d m ∧ n <+: m) := by
  simp only [List.mem_cons, List.not_mem_nil, or_false, not_or] at h1
  obtain ⟨h11, h12, h13, h14, h15, h16⟩ := h1
  obtain ⟨cc, e1, e2⟩ := C82_a_class_is_the_set_it_describes_with_the_built_in_tables_partial (ic := false) (neg := false) (k := .categ n .nil) (u := u)
    (fun _ => by simp [CR.text])
    ⟨by simp [*], fun c hc => ⟨by show (isGraph c).getD false = true; rw [(h2 c hc).1]; rfl, (h2 c hc).2⟩, trivial⟩ trivial
  refine ⟨cc, ?_, fun d hd => ?_⟩
  · rw [← e1]
    congr 1
    simp [bra, CR.text, nm]
  · rw [e2 d hd]
    simp only [negIf, setI, false_or, Bool.false_eq_true, if_false, ctxOf, h12, h13]
    obtain ⟨m, hm, -⟩ := masks _ (cat_lt hd)
    have hN : ∀ m', Named d m' → m' = m := by
      rintro m' ⟨k, hk, hk'⟩
      rw [getCategory_fast hd] at hk
      obtain rfl := Option.some.inj hk
      exact Option.some.inj (hk'.symm.trans hm)
    rw [List.any_eq_true]
    simp only [Bool.and_eq_true, decide_eq_true_eq, List.isPrefixOf_iff_prefix, List.mem_range]
    constructor
    · rintro ⟨k, hk, ⟨hk1, hk2⟩, hk3⟩
      refine ⟨m, ⟨_, getCategory_fast hd, hm⟩, ?_⟩
      have := (has_iff hk1 (by omega) hd).1 hk3
      subst this
      rw [List.getD_eq_getElem?_getD, hm] at hk2
      exact hk2
    · rintro ⟨m', hm', hp⟩
      obtain rfl := hN m' hm'
      have h0 : fprop d % 32 ≠ 0 := by
        intro h0
        rw [h0] at hm
        obtain rfl := Option.some.inj hm
        have hp : n <+: [67, 110] := hp
        rcases n with _ | ⟨a, _ | ⟨b, _ | ⟨e, r⟩⟩⟩
        · exact h11 rfl
        · simp [List.cons_prefix_cons] at hp; exact h15 (by rw [hp])
        · simp [List.cons_prefix_cons] at hp; exact h16 (by rw [hp.1, hp.2])
        · simp [List.cons_prefix_cons] at hp
      refine ⟨_, cat_lt hd, ⟨by omega, ?_⟩, (has_iff (by omega) (by have := cat_lt hd; omega) hd).2 rfl⟩
      rw [List.getD_eq_getElem?_getD, hm]
      exact hp

/-- an escape and the meaning it has outside classes -/
def escapes : List (Nat × Meta) :=
  [(100, .digit), (68, .ndigit), (119, .word), (87, .nword), (115, .space), (83, .nspace), (108, .lower), (117, .upper)]

/-- **C82 (partial)**: the escapes `\d \D \w \W \s \S \l \u` accept, as the only element of a class, the characters they match outside classes. The classes are those of
expressions without the flag `i`. -/
theorem C82_an_escape_means_the_same_inside_a_class {c : Nat} {k : Meta} (h : (c, k) ∈ escapes) (u : Text) :
    ∃ cc, createLegacy legacyCtx legacyTables false (nm "[\\" ++ [c] ++ nm "]" ++ u) = some (.ok cc u) ∧
      ∀ env : Env, env.chars = legacyChars → (∀ d ∈ env.text, d < 65536) → ∀ p q, MetaAt env k p q ↔ Take env (fun d => cc.inClass d = true) p q := by
  have hc : c ∈ [100, 68, 119, 87, 115, 83, 108, 117] := by
    simp only [escapes, List.mem_cons, Prod.mk.injEq, List.not_mem_nil, or_false] at h
    grind
  obtain ⟨cc, e1, e2⟩ := C82_a_class_is_the_set_it_describes_with_the_built_in_tables_partial (ic := false) (neg := false) (k := .letter c .nil) (u := u)
    (fun _ => by simp [CR.text]) ⟨hc, trivial⟩ trivial
  refine ⟨cc, ?_, fun env henv ht p q => ?_⟩
  · rw [← e1]
    rfl
  have hT : ∀ P : Nat → Prop, (∀ d, d < 65536 → (P d ↔ cc.inClass d = true)) → (Take env P p q ↔ Take env (fun d => cc.inClass d = true) p q) := by
    intro P hP
    constructor
    · rintro ⟨a, b, d, e, f⟩; exact ⟨a, b, d, e, (hP d (ht d (List.mem_of_getElem? e))).1 f⟩
    · rintro ⟨a, b, d, e, f⟩; exact ⟨a, b, d, e, (hP d (ht d (List.mem_of_getElem? e))).2 f⟩
  have main : ∀ d, d < 65536 → ∃ n, Answers d n ∧ (legacyTables.has 12 d = true ↔ n = nm "Nd") ∧
      (legacyTables.has 4 d = true ↔ n = nm "Ll") ∧ (legacyTables.has 8 d = true ↔ n = nm "Lu") ∧
      ((legacyTables.has 4 d || legacyTables.has 5 d || legacyTables.has 6 d || legacyTables.has 7 d || legacyTables.has 8 d) = true ↔ n ∈ letterNames) ∧
      ((legacyTables.has 26 d || legacyTables.has 27 d || legacyTables.has 28 d) = true ↔ n ∈ spaceNames) := by
    intro d hd
    obtain ⟨n, hn, -⟩ := masks _ (cat_lt hd)
    refine ⟨n, answers hd hn, has_named (by decide) (by decide) hd hn rfl, has_named (by decide) (by decide) hd hn rfl,
      has_named (by decide) (by decide) hd hn rfl, ?_, ?_⟩
    · simp only [Bool.or_eq_true, has_named (k := 4) (by decide) (by decide) hd hn rfl, has_named (k := 5) (by decide) (by decide) hd hn rfl,
        has_named (k := 6) (by decide) (by decide) hd hn rfl, has_named (k := 7) (by decide) (by decide) hd hn rfl,
        has_named (k := 8) (by decide) (by decide) hd hn rfl, letterNames, List.map_cons, List.map_nil, List.mem_cons, List.not_mem_nil, or_false]
      show (((n = nm "Ll" ∨ n = nm "Lm") ∨ n = nm "Lo") ∨ n = nm "Lt") ∨ n = nm "Lu" ↔ _
      grind
    · simp only [Bool.or_eq_true, has_named (k := 26) (by decide) (by decide) hd hn rfl, has_named (k := 27) (by decide) (by decide) hd hn rfl,
        has_named (k := 28) (by decide) (by decide) hd hn rfl, spaceNames, List.map_cons, List.map_nil, List.mem_cons, List.not_mem_nil, or_false]
      show (n = nm "Zl" ∨ n = nm "Zp") ∨ n = nm "Zs" ↔ _
      grind
  simp only [negIf, setI, false_or, Bool.false_eq_true, if_false, false_and, or_false, letterSet, ctxOf] at e2
  simp only [escapes, List.mem_cons, Prod.mk.injEq, List.not_mem_nil, or_false] at h
  rcases h with ⟨rfl, rfl⟩ | ⟨rfl, rfl⟩ | ⟨rfl, rfl⟩ | ⟨rfl, rfl⟩ | ⟨rfl, rfl⟩ | ⟨rfl, rfl⟩ | ⟨rfl, rfl⟩ | ⟨rfl, rfl⟩ <;>
    simp only [MetaAt, henv] <;> refine hT _ fun d hd => ?_ <;> rw [e2 d hd] <;> obtain ⟨n, hA, a1, a2, a3, a4, a5⟩ := main d hd <;>
    simp only [legacyChars, hA.digit, hA.letterOrDigit, hA.white, hA.lower, hA.upper, Option.getD_some] <;>
    clear e1 e2 main hT ht henv <;> simp only [Nat.reduceEqDiff, reduceIte] <;>
    simp only [decide_eq_true_eq, a1, a2, a3, a4, a5, ← Bool.not_eq_true, List.mem_cons, List.not_mem_nil, or_false] <;>
    try (generalize (n ∈ letterNames) = A; generalize (n ∈ spaceNames) = B; generalize (n = nm "Nd") = C; grind)

end Verif.Chars
