import Verif.CharClass.LegacyLoop
import Verif.RegExp.Compiled
/-!
# C79: with the built-in strings, too, a class is the set it describes
-/
namespace Verif.CharClass
open Verif.RegExp

/-- **C79 (partial)**, for every written class: it is read to its `]` and accepts exactly the characters it describes, or the program does something
undefined inside `&&[…]`. -/
theorem C79_a_class_is_the_set_it_describes_or_an_intersection_is_undefined_partial {x : Ctx} (hx : CtxOk x) (hc : CasesOk x) (T : Tables) {ic neg : Bool}
    {k : CR} {u : Text} (h1 : neg = false → k.text.head? ≠ some 94) (h2 : OkL x ic k (93 :: u)) :
    (∃ c, createLegacy x T ic (bra neg ++ (k.text ++ [93]) ++ u) = some (.ok c u) ∧
      ∀ d, d < 65536 → (c.inClass d = true ↔ negIf neg (setI (ctxOf x T) ic (fun _ => False) k) d)) ∨
    ¬ NoInter k ∧ createLegacy x T ic (bra neg ++ (k.text ++ [93]) ++ u) = some .ub := by
  have e : bra neg ++ (k.text ++ [93]) ++ u = bra neg ++ (k.text ++ 93 :: u) := by simp
  rw [e]
  have hb := lBegin_bra (neg := neg) (t := k.text ++ 93 :: u) (by simp) fun e => head_append (h1 e)
  obtain ⟨r, hr⟩ := bra_head neg (k.text ++ 93 :: u)
  have hl : (k.text ++ 93 :: u).length ≤ r.length := by
    have := congrArg List.length hr
    have hl : (bra neg).length ≥ 1 := by cases neg <;> simp [bra]
    rw [List.length_append, List.length_cons] at this
    omega
  rw [hr] at hb ⊢
  simp only [List.drop_succ_cons, List.drop_zero] at hb
  have hk := lLoop_text hx hc T ic k u (r.length + 1) CC.empty (fun _ => False) BAD h2 (.inl rfl) rep_empty (by omega)
  simp only [createLegacy, hb]
  rw [if_neg (by decide)]
  rcases hk with ⟨c, e1, e2⟩ | ⟨e1, e2⟩
  · obtain ⟨c', e3, e4⟩ := rep_inv e2 neg
    refine .inl ⟨c', ?_, e4.2⟩
    rw [e1]
    simp only [lFinish, e3]
  · refine .inr ⟨e1, ?_⟩
    rw [e2]
    rfl

/-- **C79 (partial)**: at every place of an expression (`u`: the text behind), a class written correctly and without `&&[…]` is read to its `]`, and the
characters accepted are those of the set it describes; with the flag `i`, with their other cases. Missing: what `OkL` and `NoInter` exclude. -/
theorem C79_the_built_in_strings_read_a_class_as_the_set_it_describes_partial {x : Ctx} (hx : CtxOk x) (hc : CasesOk x) (T : Tables) {ic neg : Bool} {k : CR}
    {u : Text} (h1 : neg = false → k.text.head? ≠ some 94) (h2 : OkL x ic k (93 :: u)) (h3 : NoInter k) :
    ∃ c, createLegacy x T ic (bra neg ++ (k.text ++ [93]) ++ u) = some (.ok c u) ∧
      ∀ d, d < 65536 → (c.inClass d = true ↔ negIf neg (setI (ctxOf x T) ic (fun _ => False) k) d) :=
  (C79_a_class_is_the_set_it_describes_or_an_intersection_is_undefined_partial hx hc T h1 h2).resolve_right fun h => h.1 h3

/-- **C79 (partial)**: the two builds of the library read a class alike, if the characters have the same properties in both -/
theorem C79_both_builds_read_a_class_alike_partial {x : Ctx} {T : Tables} (hx : CtxOk x) (hx' : CtxOk (ctxOf x T)) (hc : CasesOk x) {neg : Bool} {k : CR} {u : Text}
    (h1 : neg = false → k.text.head? ≠ some 94) (h2 : OkL x false k (93 :: u)) (h2' : k.Ok (ctxOf x T) (93 :: u)) (h3 : NoInter k) :
    ∃ c s, createLegacy x T false (bra neg ++ (k.text ++ [93]) ++ u) = some (.ok c u) ∧
      createCharClass (ctxOf x T) false (bra neg ++ (k.text ++ [93]) ++ u) = some (some (s, u)) ∧ ∀ d, d < 65536 → c.inClass d = s d := by
  obtain ⟨c, e1, e2⟩ := C79_the_built_in_strings_read_a_class_as_the_set_it_describes_partial hx hc T h1 h2 h3
  obtain ⟨s, e3, e4⟩ := C57_a_class_is_the_set_it_describes_partial hx' h1 h2'
  refine ⟨c, s, e1, e3, fun d hd => ?_⟩
  rw [Bool.eq_iff_iff, e2 d hd, e4, setI_false]

/-- **C79 (partial)**: reading ends for every text, and a class that is read takes at least one character -/
theorem C79_every_text_is_read_to_an_end (x : Ctx) (T : Tables) (ic : Bool) (t : Text) :
    ∃ o, createLegacy x T ic t = some o ∧ ∀ c u, o = .ok c u → u.length < t.length := by
  cases t with
  | nil => exact ⟨_, rfl, fun c u e => by cases e⟩
  | cons k r =>
    simp only [createLegacy]
    by_cases hk : k ≠ 91
    · rw [if_pos hk]; exact ⟨_, rfl, fun c u e => by cases e⟩
    · rw [if_neg hk]
      cases hb : lBegin r with
      | none => exact ⟨_, rfl, fun c u e => by cases e⟩
      | some nt =>
        obtain ⟨neg, t⟩ := nt
        have ht := lBegin_len hb
        obtain ⟨o, e1, e2⟩ := lLoop_total (x := x) (T := T) (r.length + 1) ic CC.empty BAD t (by omega)
        dsimp only
        rw [e1]
        cases o with
        | null => exact ⟨_, rfl, fun c u e => by cases e⟩
        | ub => exact ⟨_, rfl, fun c u e => by cases e⟩
        | ok d v =>
          have := e2 d v rfl
          simp only [lFinish]
          cases lInv neg d with
          | none => exact ⟨_, rfl, fun c u e => by cases e⟩
          | some c' => exact ⟨_, rfl, fun c u e => by cases e; simp only [List.length_cons]; omega⟩

/-! ## Concrete classes -/
namespace LegacyDemo
open Verif.RegExp.Demo

/-- ASCII: the digits are of category Nd, the letters of Ll and Lu, the space of Zs -/
def T : Tables := ⟨fun cat p =>
  if p = 0 then
    if cat = 12 then some fun i => if i = 1 then 0x03FF0000 else 0
    else if cat = 4 then some fun i => if i = 3 then 0x07FFFFFE else 0
    else if cat = 8 then some fun i => if i = 2 then 0x07FFFFFE else 0
    else if cat = 28 then some fun i => if i = 1 then 1 else 0
    else none
  else none⟩

/-- the ASCII characters of a class, and the text behind it; "?": undefined, "-": refused -/
def ascii (ic : Bool) (t : String) : List Nat × List Nat :=
  match createLegacy cx T ic (str t) with
  | some (.ok c u) => ((List.range 128).filter c.inClass, u)
  | some .null => ([], str "-")
  | some .ub => ([], str "?")
  | none => ([], str "!")

theorem cases_ok : CasesOk cx := by
  have hl : ∀ c, cx.lower c = if 65 ≤ c ∧ c ≤ 90 then c + 32 else c := by intro c; simp [cx, low, isUp]
  have hu : ∀ c, cx.upper c = if 97 ≤ c ∧ c ≤ 122 then c - 32 else c := by intro c; simp [cx, upp, isLow]
  refine ⟨fun c h => ?_, fun c h => ?_, fun c h => ?_, by decide⟩
  · rw [hl]; split <;> omega
  · rw [hu]; split <;> omega
  · show cx.upper c < _; rw [hu]; split <;> omega

/-- `[a-f\d{Lu}_-[B-D]]`: a subtraction, a category, a range -/
def k1 : CR := .range (.plain 97) (.plain 102) (.letter 100 (.categ [76, 117] (.ch (.plain 95) (.minus false (.range (.plain 66) (.plain 68) .nil) .nil))))

theorem demo_class_is_written_correctly : OkL cx false k1 (93 :: str "x") ∧ NoInter k1 ∧ k1.text.head? ≠ some 94 ∧
    k1.text = str "a-f\\d{Lu}_-[B-D]" := by
  refine ⟨?_, by simp [k1, NoInter], by decide, by decide +kernel⟩
  simp [k1, OkL, Ch.Ok, Ch.val, Ch.text, Short, clsSpecial, BAD, AddOk, NoRange, CR.text, NameOk, bra, nUnassigned, cx]

theorem demo_class_is_read : ascii false ("[" ++ "a-f\\d{Lu}_-[B-D]" ++ "]x") = (str "0123456789AEFGHIJKLMNOPQRSTUVWXYZ_abcdef", str "x") := by decide +kernel

/-- with the flag `i`, `[^q\l\W]` -/
theorem demo_class_ignoring_case : OkL cx true (.ch (.plain 113) (.letter 108 (.letter 87 .nil))) (93 :: []) ∧
    ascii true "[^q\\l\\W]" = (str "0123456789_", []) := by
  refine ⟨?_, by decide +kernel⟩
  simp [OkL, Ch.Ok, Short, Ch.text, clsSpecial, BAD, NoRange, CR.text]

theorem ctx_ok : CtxOk (ctxOf cx T) := ⟨cx_ok.digit, cx_ok.small, cx_ok.big, cx_ok.other, cx_ok.space, cx_ok.graph⟩

theorem demo_class_in_both_builds : k1.Ok (ctxOf cx T) (93 :: str "x") := by
  simp [k1, CR.Ok, Ch.Ok, Ch.val, Ch.text, clsSpecial, BAD, NoRange, CR.text, NameOk, bra, ctxOf, cx]

/-! ## What is excluded, and why -/

/-- an intersection with nothing excluded works … -/
theorem demo_intersection : ascii false "[a-z&&[x-z0]]" = (str "xyz", []) := by decide +kernel

/-- **C79 is violated** by intersections: `[[^a]&&[b]]` deletes a constant that was never allocated (BitArray.cpp, C17) -/
theorem C79_violated_intersection : ascii false "[[^a]&&[b]]" = ([], str "?") := by decide +kernel

/-- **C79 is violated** by `{UNASSIGNED}`: it takes away what stands before it -/
theorem C79_violated_unassigned : 97 ∈ (ascii false "[a{UNASSIGNED}]").1 ↔ False := by decide +kernel

/-- **C79 is violated** by `{Cn}`: the class of the unassigned characters is empty, although `{UNASSIGNED}` is not -/
theorem C79_violated_category_cn : ascii false "[{Cn}]" = ([], []) ∧ 1 ∈ (ascii false "[{UNASSIGNED}]").1 := by decide +kernel

/-- **C79 is violated** with the flag `i` by ranges: `[a-z]` does not accept 'Q', although `[q]` does -/
theorem C79_violated_range_ignoring_case : 81 ∉ (ascii true "[a-z]").1 ∧ 81 ∈ (ascii true "[q]").1 := by decide +kernel

/-- **C79 is violated** with the flag `i` by subtraction: `[qx-[q]]` accepts 'Q' but not 'q' -/
theorem C79_violated_subtraction_ignoring_case : ascii true "[qx-[q]]" = (str "QXx", []) := by decide +kernel

/-- **C79 is violated** by ranges of the kind excluded in C17: the range from ' ' to '/' accepts '0' -/
theorem C79_violated_range : 48 ∈ (ascii false "[ -/]").1 := by decide +kernel

/-- **C79 is violated** at the end of the text: `[` and `[a\x4` read behind it -/
theorem C79_violated_behind_the_end : ascii false "[" = ([], str "?") ∧ ascii false "[a\\x4" = ([], str "?") ∧ ascii false "[a\\x" = ([], str "?") := by
  decide +kernel

/-- **C79 is violated** by numbers: `[\x{4-}]`, no number, is read as '=' (4 times 16 minus 3), `[\x{000000041}]` shifts by 32 bits -/
theorem C79_violated_numbers : ascii false "[\\x{4-}]" = ([61], []) ∧ ascii false "[\\x{000000041}]" = ([], str "?") := by decide +kernel

end LegacyDemo
end Verif.CharClass
