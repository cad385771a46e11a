import Verif.RegExp.Marked
import Verif.RegExp.Compiled

/-!
# C81: witnesses, and marks that set something else
-/
namespace Verif.RegExp.Demo

/-- `x(y\m)?a\Mb` -/
def marked : Re := .cat (.chr (.plain 120)) (.cat (.post (.group (.cat (.chr (.plain 121)) (.sym .start))) (.maybe false))
  (.cat (.chr (.plain 97)) (.cat (.sym .stop) (.chr (.plain 98)))))

example : written [] marked [] = str "/x(y\\m)?a\\Mb/" := by decide

theorem marked_ok : marked.Ok (cx.withFlags []) ⟨1, []⟩ [] := by
  refine ⟨rfl, rfl, ?_, rfl, rfl, ⟨rfl, ⟨by decide, rfl, rfl, ?_, ?_⟩, ?_⟩, rfl, rfl, ?_, rfl, rfl, ?_, ?_⟩ <;>
    simp [Re.Ok, Ch.Ok, special, Ctx.withFlags, cx, Op.Ok, Re.text, Ch.text, BAD] <;> omega

/-- each mark written once, outside repetitions -/
example : marked.frag false = true ∧ marked.marks false = 1 ∧ marked.marks true = 1 ∧ marked.markFree false = true ∧ marked.markFree true = true ∧
    marked.noAround = true := by decide

example := C81_marks_set_the_match_partial cx_ok ascii (sp := []) (fl := []) (e := marked) (by decide) (by decide) marked_ok (by decide) (by decide)
  (by decide) (by decide) (by decide) (by decide)

/-- on "xyab" the preferred way goes from 0 to 4 and passes `\m` at 2, `\M` at 3 -/
example (ex : Expr) (h : ex.flags = ⟨false, false, false⟩) (h2 : ex.cMatch = 2) (h3 : ex.cnMatch = 0) :
    (marked.passes (cx.withFlags []) (envOf ascii ex (at_ "xyab" 0)) false 0).head?.map wayOf = some (4, some (2, 1)) ∧
    (marked.passes (cx.withFlags []) (envOf ascii ex (at_ "xyab" 0)) true 0).head?.map wayOf = some (4, some (3, 1)) := by
  have e : envOf ascii ex (at_ "xyab" 0) = envOf ascii ⟨[], 2, 0, ⟨false, false, false⟩, true⟩ (at_ "xyab" 0) := by simp [envOf, h, h2, h3]
  have he : SpecOk (envOf ascii ⟨[], 2, 0, ⟨false, false, false⟩, true⟩ (at_ "xyab" 0)) := spec_at "xyab" _ rfl
  rw [e, ← List.head?_map, ← List.head?_map,
    ← tree_caps_mark he false marked marked_ok (il := false) (by decide) (by decide) (by decide) 0 (by decide) (by decide),
    ← tree_caps_mark he true marked marked_ok (il := false) (by decide) (by decide) (by decide) 0 (by decide) (by decide)]
  exact ⟨by decide +kernel, by decide +kernel⟩

/-- and that is the match reported -/
example : m 2 "/x(y\\m)?a\\Mb/" "xyab" = some (.ret true, [(2, 3), (1, 2)]) := by decide +kernel

/-! ## What is not so -/

/-- C81 does not hold for a mark the match did not pass: `/(a\M)?ab/` on "ab" gives `(a\M)?` back, the match reported ends at 1 all the same; so does the
match of `/a\Mb|ac/` on "ac". -/
theorem C81_a_mark_that_was_given_up : (m 1 "/(a\\M)?ab/" "ab").map (fun r => (r.1, r.2.head?)) = some (.ret true, some (0, 1)) ∧
    (m 1 "/a\\Mb|ac/" "ac").map (fun r => (r.1, r.2.head?)) = some (.ret true, some (0, 1)) := by decide +kernel

/-- C81 does not hold inside a repetition: `/(a\M)*ab/` on "aab" goes once through the repetition and passes `\M` at 1; the match reported ends at 2. -/
theorem C81_a_round_that_was_given_up : (m 1 "/(a\\M)*ab/" "aab").map (fun r => (r.1, r.2.head?)) = some (.ret true, some (0, 2)) := by decide +kernel

end Verif.RegExp.Demo
