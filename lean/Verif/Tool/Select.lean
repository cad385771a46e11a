import Verif.Tool.Model
/-!
# C72: which type the tool uses

`ConsoleTools::selectType` (/repo/tools/colorer/ConsoleTools.cpp 215-275). Detection itself (`chooseFileType`) is in Verif.FileTypes; here it is a function of the
file name and the text it is given.
-/
namespace Verif.Tool
open Verif.Strings (Str)
open Verif.Viewer (lit)

/-! ## Model -/

/-- a type as `enumerateFileTypes` gives it -/
structure Ty where
  name  : Str
  descr : Str
deriving DecidableEq, Repr

/-- the library: the listed types in order, and `getFileType` (parsers/HrcLibraryImpl.cpp 129-139), which also finds packages: here a type is its name -/
structure Types where
  listed : List Ty
  named  : Str → Option Ty

/-- the test of 229-236 for one string: `length() >= d->length() && UStr::caseCompare(prefix, *d)`; `cmp` is `caseCompare` (strings/icu/UStr.cpp 238-241) -/
def prefixTest (cmp : Str → Str → Int) (d s : Str) : Bool := decide (s.length ≥ d.length) && decide (cmp (s.take d.length) d ≠ 0)

/-- the loop 223-237 -/
def findListed (cmp : Str → Str → Int) (d : Str) : List Ty → Option Ty
  | [] => none
  | t :: r => if prefixTest cmp d t.descr then some t else if prefixTest cmp d t.name then some t else findListed cmp d r

/-- the text for detection (245-257): `k` lines still allowed, `total` is `totalLength` -/
def startText : Nat → Nat → List Str → Str
  | 0, _, _ => []
  | _, _, [] => []
  | k + 1, total, l :: r => l ++ [10] ++ (if total + l.length > 500 then [] else startText k (total + l.length) r)

/-- what stands behind the last `c`: `lastIndexOf(c)`, and the part from the next index on -/
def afterLast (c : Nat) : Str → Option Str
  | [] => none
  | x :: r => match afterLast c r with
    | some s => some s
    | none => if x = c then some r else none

/-- the file name (259-268): behind the last backslash, or, if there is none, behind the last slash -/
def shortName (path : Str) : Str := match afterLast 92 path with
  | some s => s
  | none => match afterLast 47 path with
    | some s => s
    | none => path

/-- `selectType` (215-272); `descr` is `typeDescription`, `file` is `inputFileName` -/
def selectType (cmp : Str → Str → Int) (detect : Option Str → Str → Option Ty) (L : Types) (descr file : Option Str) (lines : List Str) : Option Ty :=
  let found := match descr with
    | none => none
    | some d => match L.named d with
      | some t => some t
      | none => findListed cmp d L.listed
  match found with
  | some t => some t
  | none => detect (file.map shortName) (startText 4 0 lines)

/-! ## Specification and proofs -/

/-- C72: a type asked for by its exact name is used -/
theorem C72_exact_name (cmp : Str → Str → Int) (detect : Option Str → Str → Option Ty) (L : Types) (d : Str) (t : Ty) (h : L.named d = some t)
    (file : Option Str) (lines : List Str) : selectType cmp detect L (some d) file lines = some t := by
  unfold selectType
  simp [h]

/-- C72: if no type is asked for, the result is that of detection, given the file's own name and the first lines -/
theorem C72_detection (cmp : Str → Str → Int) (detect : Option Str → Str → Option Ty) (L : Types) (file : Option Str) (lines : List Str) :
    selectType cmp detect L none file lines = detect (file.map shortName) (startText 4 0 lines) := rfl

/-- the number of characters in some lines -/
def size (ls : List Str) : Nat := (ls.map List.length).sum

theorem startText_ok (k : Nat) : ∀ (total : Nat) (lines : List Str), total ≤ 500 → ∃ n, n ≤ k ∧ n ≤ lines.length ∧
    startText k total lines = (lines.take n).flatMap (fun l => l ++ [10]) ∧ (∀ m, m < n → total + size (lines.take m) ≤ 500) ∧
      (n = k ∨ n = lines.length ∨ total + size (lines.take n) > 500) := by
  induction k with
  | zero => intro total lines _; exact ⟨0, by omega, by omega, by cases lines <;> rfl, by omega, Or.inl rfl⟩
  | succ k ih =>
    intro total lines ht
    cases lines with
    | nil => exact ⟨0, by omega, by simp, rfl, by omega, Or.inr (Or.inl rfl)⟩
    | cons l r =>
      by_cases hb : total + l.length > 500
      · refine ⟨1, by omega, by simp, ?_, ?_, Or.inr (Or.inr ?_)⟩
        · rw [startText, if_pos hb]; simp
        · intro m hm
          obtain rfl : m = 0 := by omega
          simp [size]; omega
        · simp [size]; omega
      · obtain ⟨n, h1, h2, h3, h4, h5⟩ := ih (total + l.length) r (by omega)
        refine ⟨n + 1, by omega, by simp; omega, ?_, ?_, ?_⟩
        · rw [startText, if_neg hb, h3]; simp
        · intro m hm
          cases m with
          | zero => simp [size]; omega
          | succ m =>
            have := h4 m (by omega)
            simp only [size, List.take_succ_cons, List.map_cons, List.sum_cons] at this ⊢
            omega
        · rcases h5 with h5 | h5 | h5
          · exact Or.inl (by omega)
          · exact Or.inr (Or.inl (by simp; omega))
          · refine Or.inr (Or.inr ?_)
            simp only [size, List.take_succ_cons, List.map_cons, List.sum_cons] at h5 ⊢
            omega

/-- C72: detection sees whole lines, each followed by a line feed, from the first on: as many as there are until there are four of them or more than 500
characters -/
theorem C72_text_for_detection (lines : List Str) : ∃ n, startText 4 0 lines = (lines.take n).flatMap (fun l => l ++ [10]) ∧ n ≤ 4 ∧ n ≤ lines.length ∧
    (∀ m, m < n → size (lines.take m) ≤ 500) ∧ (n = 4 ∨ n = lines.length ∨ size (lines.take n) > 500) := by
  obtain ⟨n, h1, h2, h3, h4, h5⟩ := startText_ok 4 0 lines (by omega)
  simp only [Nat.zero_add] at h4 h5
  exact ⟨n, h3, h1, h2, h4, h5⟩

theorem afterLast_some {c : Nat} {s : Str} : ∀ {p : Str}, afterLast c p = some s → ∃ d, p = d ++ c :: s ∧ c ∉ s
  | [], h => by simp [afterLast] at h
  | x :: r, h => by
    rw [afterLast] at h
    cases hr : afterLast c r with
    | some v =>
      rw [hr] at h
      simp only [Option.some.injEq] at h
      subst h
      obtain ⟨d, e1, e2⟩ := afterLast_some hr
      exact ⟨x :: d, by rw [e1]; rfl, e2⟩
    | none =>
      rw [hr] at h
      simp only at h
      split at h
      · rename_i hx
        simp only [Option.some.injEq] at h
        subst h
        refine ⟨[], by rw [hx]; rfl, ?_⟩
        intro hc
        have key : ∀ q : Str, c ∈ q → afterLast c q ≠ none := by
          intro q
          induction q with
          | nil => simp
          | cons y q ih =>
            intro hm hn
            rw [afterLast] at hn
            cases hq : afterLast c q with
            | some v => rw [hq] at hn; simp at hn
            | none =>
              rw [hq] at hn
              simp only [ite_eq_right_iff, reduceCtorEq, imp_false] at hn
              rcases List.mem_cons.1 hm with rfl | hm
              · exact hn rfl
              · exact ih hm hq
        exact key r hc hr
      · simp at h

theorem afterLast_none {c : Nat} : ∀ {p : Str}, afterLast c p = none → c ∉ p
  | [], _ => by simp
  | x :: r, h => by
    rw [afterLast] at h
    cases hr : afterLast c r with
    | some v => rw [hr] at h; simp at h
    | none =>
      rw [hr] at h
      simp only [ite_eq_right_iff, reduceCtorEq, imp_false] at h
      have := afterLast_none hr
      simp only [List.mem_cons, not_or]
      exact ⟨fun e => h e.symm, this⟩

/-- C72: the name detection gets is the end of the path behind its last separator, for paths with separators of one kind -/
theorem C72_file_name_partial (path : Str) (h : 92 ∉ path ∨ 47 ∉ path) : ∃ dir, path = dir ++ shortName path ∧ 92 ∉ shortName path ∧ 47 ∉ shortName path ∧
    (dir = [] ∨ ∃ d, dir = d ++ [92] ∨ dir = d ++ [47]) := by
  unfold shortName
  cases h1 : afterLast 92 path with
  | some s =>
    obtain ⟨d, e1, e2⟩ := afterLast_some h1
    have h2 : 47 ∉ path := by
      rcases h with h | h
      · rw [e1] at h; simp at h
      · exact h
    refine ⟨d ++ [92], by simpa using e1, e2, ?_, Or.inr ⟨d, Or.inl rfl⟩⟩
    intro hm
    exact h2 (by rw [e1]; simp [hm])
  | none =>
    have n1 := afterLast_none h1
    cases h2 : afterLast 47 path with
    | some s =>
      obtain ⟨d, e1, e2⟩ := afterLast_some h2
      refine ⟨d ++ [47], by simpa using e1, ?_, e2, Or.inr ⟨d, Or.inr rfl⟩⟩
      intro hm
      exact n1 (by rw [e1]; simp [hm])
    | none => exact ⟨[], rfl, n1, afterLast_none h2, Or.inl rfl⟩

/-- C72 fails: in a path with both separators a directory stays in front of the name -/
theorem C72_violated_mixed_separators : shortName (lit "c:\\src/makefile") = lit "src/makefile" := by decide +kernel

/-- C72: a type found by a part of its description or name is the first listed one whose description or name is long enough and does *not* begin with the
text asked for (letter case ignored) -/
theorem C72_violated_part_of_description (cmp : Str → Str → Int) (fold : Str → Str) (hc : ∀ a b, cmp a b = 0 ↔ fold a = fold b) (d : Str) (l : List Ty) (t : Ty) :
    findListed cmp d l = some t ↔ ∃ a b, l = a ++ t :: b ∧
      ((t.descr.length ≥ d.length ∧ fold (t.descr.take d.length) ≠ fold d) ∨ (t.name.length ≥ d.length ∧ fold (t.name.take d.length) ≠ fold d)) ∧
      ∀ u ∈ a, ¬ ((u.descr.length ≥ d.length ∧ fold (u.descr.take d.length) ≠ fold d) ∨ (u.name.length ≥ d.length ∧ fold (u.name.take d.length) ≠ fold d)) := by
  have hp : ∀ s, prefixTest cmp d s = true ↔ s.length ≥ d.length ∧ fold (s.take d.length) ≠ fold d := by
    intro s
    unfold prefixTest
    rw [Bool.and_eq_true, decide_eq_true_eq, decide_eq_true_eq, Ne, hc]
  induction l with
  | nil => simp [findListed]
  | cons u r ih =>
    rw [findListed]
    by_cases h : prefixTest cmp d u.descr = true ∨ prefixTest cmp d u.name = true
    · have e : (if prefixTest cmp d u.descr = true then some u else if prefixTest cmp d u.name = true then some u else findListed cmp d r) = some u := by
        rcases h with h | h
        · rw [if_pos h]
        · rw [if_pos h]; split <;> rfl
      rw [e]
      rw [hp, hp] at h
      constructor
      · intro h1
        simp only [Option.some.injEq] at h1
        subst h1
        exact ⟨[], r, rfl, h, by simp⟩
      · rintro ⟨a, b, h1, h2, h3⟩
        cases a with
        | nil => simp only [List.nil_append, List.cons.injEq] at h1; rw [h1.1]
        | cons x a =>
          simp only [List.cons_append, List.cons.injEq] at h1
          exact absurd h (h1.1 ▸ h3 x (by simp))
    · simp only [not_or] at h
      rw [if_neg h.1, if_neg h.2]
      refine Iff.trans ih ?_
      rw [hp, hp] at h
      constructor
      · rintro ⟨a, b, h1, h2, h3⟩
        refine ⟨u :: a, b, by rw [h1]; rfl, h2, ?_⟩
        intro v hv
        rcases List.mem_cons.1 hv with rfl | hv
        · exact not_or.2 h
        · exact h3 v hv
      · rintro ⟨a, b, h1, h2, h3⟩
        cases a with
        | nil =>
          simp only [List.nil_append, List.cons.injEq] at h1
          rw [← h1.1] at h2
          rcases h2 with h2 | h2
          · exact absurd h2 h.1
          · exact absurd h2 h.2
        | cons x a =>
          simp only [List.cons_append, List.cons.injEq] at h1
          exact ⟨a, b, h1.2, h2, fun v hv => h3 v (by simp [hv])⟩

/-- for example: asked for "Pyth" with the types "C++ sources" and "Python" the tool takes C++ -/
theorem C72_violated_wrong_type : selectType (fun a b => if a = b then 0 else 1) (fun _ _ => none)
    ⟨[⟨lit "cpp", lit "C++ sources"⟩, ⟨lit "python", lit "Python"⟩], fun _ => none⟩ (some (lit "Pyth")) none [] = some ⟨lit "cpp", lit "C++ sources"⟩ := by
  decide +kernel

/-- a makefile: the name is cut, three lines are seen -/
example : selectType (fun a b => if a = b then 0 else 1) (fun f t => if f = some (lit "makefile") ∧ t = lit "all:\n\n x\n" then some ⟨lit "make", lit "Makefile"⟩ else none)
    ⟨[], fun _ => none⟩ none (some (lit "/src/makefile")) [lit "all:", [], lit " x"] = some ⟨lit "make", lit "Makefile"⟩ := by decide +kernel

end Verif.Tool
