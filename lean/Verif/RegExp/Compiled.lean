import Verif.RegExp.Prefer
import Verif.RegExp.Wrong

/-!
# Concrete expressions

`cx`: ASCII for the compiler. Witnesses for C55, C56, C57, and where the compiler does not do what is written.
-/
namespace Verif.RegExp.Demo

def cx : Ctx :=
  ⟨ascii.isSpace, fun c => decide (32 < c) && decide (c < 127), low, upp, upp, fun _ => isDig, isDig, fun c => isLow c || isUp c, fun c => c = 32, isLow, isUp,
    fun a b => a.map low = b.map low, none, false, false⟩

/-- compile, then match at the beginning -/
def m (n : Nat) (r t : String) : Option (End × List (Int × Int)) :=
  match setRE cx (str r) with
  | some (.ok ex) => shown n (call ex (at_ t 0))
  | _ => none

theorem cx_ok : CtxOk cx := by
  have hl : ∀ c, cx.lower c = if 65 ≤ c ∧ c ≤ 90 then c + 32 else c := by intro c; simp [cx, low, isUp]
  refine ⟨?_, ?_, ?_, ?_, ?_, ?_⟩
  · intro c h1 h2; rw [hl, if_neg (by omega)]
  · intro c h1 h2; rw [hl, if_neg (by omega)]
  · intro c h1 h2; rw [hl, if_pos (by omega)]
  · intro c hc h
    rw [hl]
    unfold isHex hexVal at h
    split at h
    · cases h
    · split at h
      · cases h
      · split at h
        · cases h
        · unfold isHex hexVal
          by_cases hu : 65 ≤ c ∧ c ≤ 90
          · rw [if_pos hu, if_neg (by omega), if_neg (by omega), if_neg (by omega)]; exact ⟨by omega, rfl⟩
          · rw [if_neg hu, if_neg (by omega), if_neg (by omega), if_neg (by omega)]; exact ⟨by omega, rfl⟩
  · intro c h hc
    have h : c = 32 ∨ 9 ≤ c ∧ c ≤ 13 := by simpa [cx, ascii] using h
    simp only [List.mem_cons, List.not_mem_nil, or_false] at hc
    omega
  · intro c h
    have : 48 ≤ c ∧ c < 103 := by
      unfold isHex hexVal at h
      split at h
      · omega
      · split at h
        · omega
        · split at h
          · omega
          · cases h
    simp [cx]; omega

/-! ## Witnesses -/

def counts : Option (Except CErr Expr) → Option (Nat × Nat)
  | some (.ok e) => some (e.cMatch, e.cnMatch)
  | _ => none

/-- `C55_inside_the_tables` has something to say of `/(a)(?{n}b)\1\p{n}/i`: two groups, one name, references to both -/
example : ∃ e, setRE cx (str "/(a)(?{n}b)\\1\\p{n}/i") = some (.ok e) ∧ e.cMatch = 2 ∧ e.cnMatch = 1 := by
  have h : counts (setRE cx (str "/(a)(?{n}b)\\1\\p{n}/i")) = some (2, 1) := by decide +kernel
  revert h
  cases setRE cx (str "/(a)(?{n}b)\\1\\p{n}/i") with
  | none => intro h; cases h
  | some r =>
    cases r with
    | error e => intro h; cases h
    | ok e =>
      intro h
      simp only [counts, Option.some.injEq, Prod.mk.injEq] at h
      exact ⟨e, rfl, h⟩

/-- `( a | [^b-d] )+ \x41 ?=` (with flag `x`) -/
def sample : Re :=
  .cat (.post (.group (.alt (.cat (.space 32) (.cat (.chr (.plain 97)) (.space 32)))
    (.cat (.space 32) (.cat (.cls true (.range (.plain 98) (.plain 100) .nil)) (.space 32))))) (.many1 false))
    (.cat (.space 32) (.post (.cat (.chr (.hex2 52 49)) (.space 32)) .ahead))

/-- it is written so -/
example : written [32] sample [120] = str " /( a | [^b-d] )+ \\x41 ?=/x" := by decide

theorem sample_ok : sample.Ok (cx.withFlags [120]) ⟨1, []⟩ [] := by
  simp [sample, Re.Ok, Ctx.withFlags, cx, ascii, Re.isAlt, Ch.Ok, special, clsSpecial, CR.Ok, Re.unit, Re.blank, Op.Ok, lzOk, Re.text, Op.text, isHex, hexVal,
    BAD, Ch.val, NoRange, CR.text]

/-- so `C56_accepted` and `C56_matches_what_is_written_partial` speak of it; there are such calls -/
example : (∀ c ∈ [32], cx.isSpace c = true) ∧ 47 ∉ [120] ∧ sample.frag false = true ∧ 109 ∉ [120] ∧ ¬ 105 ∈ [120] ∧ sample.repsTake = true ∧
    sample.noMark = true ∧ 0 ≤ (at_ "aeAx" 0).pos ∧ (at_ "aeAx" 0).pos ≤ (at_ "aeAx" 0).eol ∧ TraceOk (at_ "aeAx" 0).back := by
  exact ⟨by decide, by decide, by decide, by decide, by decide, by decide, by decide, by decide, by decide, trivial⟩

/-- the same for the preferred match -/
example := C56_the_preferred_match_partial cx_ok ascii (sp := [32]) (fl := [120]) (e := sample) (by decide) (by decide) sample_ok (by decide) (by decide)
  (by decide)

/-- the first alternative that lets the rest match, the most repetitions, the fewest if lazy -/
example : m 1 "/(a|ab)(bc|c)/" "abcc" = some (.ret true, [(0, 3)]) ∧ m 2 "/(a|ab)c?/" "abc" = some (.ret true, [(0, 1), (0, 1)]) ∧
    m 2 "/(a*)a/" "aaab" = some (.ret true, [(0, 3), (0, 2)]) ∧ m 2 "/(a*?)a/" "aaab" = some (.ret true, [(0, 1), (0, 0)]) := by
  decide +kernel

/-- and such matches: 'a', then not b to d, before 'A' -/
example : m 1 "/ a [^b-d] \\x41 ?=/x" "aeAx" = some (.ret true, [(0, 2)]) ∧ m 1 "/ a [^b-d] \\x41 ?=/x" "abAx" = some (.ret false, [(-1, -1)]) := by
  decide +kernel

/-- with a named group and references; the groups are counted as written -/
def sample2 : Re := .cat (.named [110] (.chr (.esc 47))) (.cat (.group (.ctl 10)) (.cat (.ref 1) (.refName [78])))

example : written [] sample2 [105] = str "/(?{n}\\/)(\\n)\\1\\p{N}/i" := by decide
example : sample2.Ok (cx.withFlags [105]) ⟨1, []⟩ [] ∧ (sample2.after ⟨1, []⟩).cMatch = 2 ∧ (sample2.after ⟨1, []⟩).names = [[110]] := by
  refine ⟨?_, rfl, rfl⟩
  have h1 : NameOk (cx.withFlags [105]) [110] := by intro c hc; rw [List.mem_singleton.1 hc]; decide
  have h2 : NameOk (cx.withFlags [105]) [78] := by intro c hc; rw [List.mem_singleton.1 hc]; decide
  refine ⟨rfl, rfl, ⟨by decide, h1, by decide, rfl, by decide⟩, rfl, rfl, ⟨by decide, show (10 : Nat) ∈ [9, 10, 13] by decide⟩, rfl, rfl, show 1 ≤ 9 by decide, h2, [110], by decide, by decide⟩

/-- the case functions of the flag `i` -/
example (a : Args) : 105 ∈ [105] → CaseOn ascii (fun c => c ∈ a.text ∨ c ∈ sample.letters) := fun _ => ascii_caseOn _

/-- C57: `[a-z-[c-e]\d-]` and what it stands for -/
def letters : CR := .range (.plain 97) (.plain 122) (.minus false (.range (.plain 99) (.plain 101) .nil) (.letter 100 (.dash .nil)))

example : bra false ++ (letters.text ++ [93]) = str "[a-z-[c-e]\\d-]" := by decide
example : letters.text.head? ≠ some 94 ∧ letters.Ok cx (93 :: str "b") := by
  refine ⟨by decide, ?_⟩
  simp [letters, CR.Ok, Ch.Ok, clsSpecial, BAD, Ch.val, NoRange, CR.text, bra, Ch.text]
example (d : Nat) : letters.set cx (fun _ => False) d ↔ (97 ≤ d ∧ d ≤ 122) ∧ ¬ (99 ≤ d ∧ d ≤ 101) ∨ cx.setNd d = true ∨ d = 45 := by
  simp [letters, CR.set, negIf, letterSet, Ch.val]
  grind

/-! ## Where classes are not what they describe -/

/-- with the flag `i` a range has no other case: `/[a-z]/i` does not match "Q" (`/q/i` does) -/
theorem C57_a_range_ignores_the_flag_i : m 1 "/[a-z]/i" "Q" = some (.ret false, [(-1, -1)]) ∧ m 1 "/q/i" "Q" = some (.ret true, [(0, 1)]) := by
  decide +kernel

/-- with the flag `i` each character brings the other case of the one before it: `/[ab]/i` matches "A" but not "B" -/
theorem C57_the_last_character_ignores_the_flag_i :
    m 1 "/[ab]/i" "A" = some (.ret true, [(0, 1)]) ∧ m 1 "/[ab]/i" "B" = some (.ret false, [(-1, -1)]) := by decide +kernel

/-- `\S` and `\W` take characters out of the class: `[\s\S]` has no TAB, `[\w\W]` no underscore -/
theorem C57_negated_classes_take_out : m 1 "/[\\s]/" "\t" = some (.ret true, [(0, 1)]) ∧ m 1 "/[\\s\\S]/" "\t" = some (.ret false, [(-1, -1)]) ∧
    m 1 "/[\\w]/" "_" = some (.ret true, [(0, 1)]) ∧ m 1 "/[\\w\\W]/" "_" = some (.ret false, [(-1, -1)]) := by decide +kernel

/-- `\n` is the line feed, but in a class it is the letter -/
theorem C57_line_feed_in_a_class : m 1 "/\\n/" "\n" = some (.ret true, [(0, 1)]) ∧ m 1 "/[\\n]/" "\n" = some (.ret false, [(-1, -1)]) ∧
    m 1 "/[\\n]/" "n" = some (.ret true, [(0, 1)]) := by decide +kernel

/-- a range in the wrong order is accepted, and is its first character -/
theorem C57_wrong_order : m 1 "/[z-a]/" "z" = some (.ret true, [(0, 1)]) ∧ m 1 "/[z-a]/" "m" = some (.ret false, [(-1, -1)]) ∧
    m 1 "/[z-a]/" "a" = some (.ret false, [(-1, -1)]) := by decide +kernel

/-! ## What is accepted although it cannot be meant -/

/-- `{x,3}` is accepted, as "-1 to 3 times", and never matches, not even nothing -/
theorem C56_not_a_number_is_accepted : m 1 "/a{x,3}b/" "b" = some (.ret false, [(-1, -1)]) ∧ m 1 "/a{x,3}b/" "ab" = some (.ret false, [(-1, -1)]) ∧
    m 1 "/a{0,3}b/" "ab" = some (.ret true, [(0, 2)]) := by decide +kernel

/-- `{3,2}` is accepted, and means 3 or more -/
theorem C56_wrong_order_of_counts_is_accepted : m 1 "/a{3,2}/" "aa" = some (.ret false, [(-1, -1)]) ∧ m 1 "/a{3,2}/" "aaaaa" = some (.ret true, [(0, 5)]) := by
  decide +kernel

end Verif.RegExp.Demo
