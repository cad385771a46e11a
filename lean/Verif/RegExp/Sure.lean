import Verif.RegExp.Marks
import Verif.RegExp.Compiled

/-!
# Compiled expressions with marks

C30 and C28 for what the compiler produces: an expression with fewer than 16 groups has no second group 0.
-/
namespace Verif.RegExp

mutual
theorem noZero_of_tables {m n b : Nat} (hm : m < 16) : ∀ l : List Node, inTables m n b l = true → noZero l = true
  | [], _ => rfl
  | a :: r, h => by
    simp only [inTables, Bool.and_eq_true] at h
    simp only [noZero, Bool.and_eq_true]
    exact ⟨noZeroN_of_tables hm a h.1, noZero_of_tables hm r h.2⟩
theorem noZeroN_of_tables {m n b : Nat} (hm : m < 16) : ∀ a : Node, inTablesN m n b a = true → noZeroN a = true
  | .empty, _ | .msym _, _ | .symb _, _ | .word _, _ | .enum _, _ | .nenum _, _ | .bkTrace _, _ | .bkTraceN _, _ | .bkTraceName _, _ | .bkTraceNName _, _
  | .bkBrack _, _ | .bkBrackName _, _ => rfl
  | .brackets none c, h => by
    simp only [inTablesN, Bool.true_and] at h
    simp only [noZeroN, Bool.and_eq_true]
    exact ⟨rfl, noZero_of_tables hm c h⟩
  | .brackets (some k) c, h => by
    simp only [inTablesN, Bool.and_eq_true, decide_eq_true_eq] at h
    simp only [noZeroN, Bool.and_eq_true]
    refine ⟨?_, noZero_of_tables hm c h.2⟩
    have : k ≠ 0 := by omega
    simp [this]
  | .named _ c, h => by
    simp only [inTablesN, Bool.and_eq_true] at h
    simp only [noZeroN]; exact noZero_of_tables hm c h.2
  | .behind _ c, h | .nbehind _ c, h => by
    simp only [inTablesN, Bool.and_eq_true] at h
    simp only [noZeroN]; exact noZero_of_tables hm c h.2
  | .ahead c, h | .nahead c, h | .or c, h | .rangeN _ c, h | .rangeNM _ _ c, h | .ngRangeN _ c, h | .ngRangeNM _ _ c, h => by
    simp only [inTablesN] at h
    simp only [noZeroN]; exact noZero_of_tables hm c h
end

/-- the marks are in order: each of `\m`, `\M` does not occur or is passed on every way -/
def Expr.marksSure (x : Expr) : Bool := (lacks .start x.body || sure .start x.body) && (lacks .stop x.body || sure .stop x.body)

theorem compiled_tidy {x : Ctx} {t : Text} {e : Expr} (h : setRE x t = some (.ok e)) (hm : e.cMatch < 16) (hs : e.marksSure = true) : tidy e = true := by
  have := noZero_of_tables hm _ (C55_inside_the_tables x t e h).2.2.2.2
  simp only [Expr.marksSure, Bool.and_eq_true] at hs
  simp only [tidy, Bool.and_eq_true]
  exact ⟨⟨this, hs.1⟩, hs.2⟩

/-- C30 for compiled expressions with fewer than 16 groups whose marks are passed on every way -/
theorem C30_compiled_partial {x : Ctx} {t : Text} {e : Expr} (h : setRE x t = some (.ok e)) (hm : e.cMatch < 16) (hs : e.marksSure = true) (chars : Chars)
    (history : List (Nat × Args × Matches)) (o0 o : Obj) (ho : uses chars e history o0 = some o) (fuel : Nat) (a : Args) (mt mt' : Matches) :
    SameResult e (parse chars e fuel o a mt) (parse chars e fuel o0 a mt') :=
  C30_tidy_calls_do_not_depend_on_earlier_calls_partial chars e (compiled_tidy h hm hs) history o0 o ho fuel a mt mt'

namespace Demo

/-- `/\b\m(sub|proc)\M\s?/` and `/(x\m)|y/` -/
example : (match setRE cx (str "/\\b\\m(sub|proc)\\M\\s?/") with | some (.ok e) => e.marksSure && decide (e.cMatch < 16) && fwd e.body | _ => false) = true ∧
    (match setRE cx (str "/(x\\m)|y/") with | some (.ok e) => e.marksSure | _ => true) = false := by
  decide +kernel

end Demo
end Verif.RegExp
