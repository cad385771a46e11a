import Verif.RegExp.GroupsWritten
import Verif.RegExp.Compiled

/-!
# C80: witnesses, and groups that hold something else
-/
namespace Verif.RegExp.Demo

/-- `(a|ab)(?{n}(b)?c)` -/
def grouped : Re := .cat (.group (.alt (.chr (.plain 97)) (.cat (.chr (.plain 97)) (.chr (.plain 98)))))
  (.named [110] (.cat (.post (.group (.chr (.plain 98))) (.maybe false)) (.chr (.plain 99))))

example : written [] grouped [] = str "/(a|ab)(?{n}(b)?c)/" := by decide

theorem grouped_ok : grouped.Ok (cx.withFlags []) ⟨1, []⟩ [] := by
  have h1 : NameOk (cx.withFlags []) [110] := by intro c hc; rw [List.mem_singleton.1 hc]; decide
  refine ⟨rfl, rfl, ⟨by decide, rfl, ?_, rfl, rfl, ?_, ?_⟩, by decide, h1, by decide, rfl, rfl, ⟨rfl, ⟨by decide, ?_⟩, ?_⟩, ?_⟩ <;>
    simp [Re.Ok, Ch.Ok, special, Ctx.withFlags, cx, Op.Ok, Re.text, Ch.text, BAD] <;> omega

/-- two numbered groups and a named one, all outside repetitions -/
example : grouped.frag false = true ∧ grouped.count false = 2 ∧ grouped.count true = 1 ∧ grouped.free false 0 = true ∧ grouped.free false 1 = true ∧
    grouped.free true 0 = true := by decide

example := C80_groups_hold_what_they_matched_partial cx_ok ascii (sp := []) (fl := []) (e := grouped) (by decide) (by decide) grouped_ok (by decide) (by decide)
  (named := false) (k := 1) (by decide) (by decide)

/-- on "abc" the preferred way passes the second group from 1 to 2 and the named one from 1 to 3 -/
example (ex : Expr) (h : ex.flags = ⟨false, false, false⟩) (h2 : ex.cMatch = 3) (h3 : ex.cnMatch = 1) :
    (grouped.ways (cx.withFlags []) (envOf ascii ex (at_ "abc" 0)) false 1 0).head? = some (3, some (1, 2)) ∧
    (grouped.ways (cx.withFlags []) (envOf ascii ex (at_ "abc" 0)) true 0 0).head? = some (3, some (1, 3)) := by
  have e : envOf ascii ex (at_ "abc" 0) = envOf ascii ⟨[], 3, 1, ⟨false, false, false⟩, true⟩ (at_ "abc" 0) := by simp [envOf, h, h2, h3]
  have he : SpecOk (envOf ascii ⟨[], 3, 1, ⟨false, false, false⟩, true⟩ (at_ "abc" 0)) := spec_at "abc" _ rfl
  rw [e, ← tree_caps he false grouped grouped_ok (il := false) (by decide) (by decide) (by decide) 0 (by decide) (by decide),
    ← tree_caps he true grouped grouped_ok (il := false) (by decide) (by decide) (by decide) 0 (by decide) (by decide)]
  exact ⟨by decide +kernel, by decide +kernel⟩

/-- and that is what the groups hold -/
example : m 3 "/(a|ab)(?{n}(b)?c)/" "abc" = some (.ret true, [(0, 3), (0, 1), (1, 2)]) := by decide +kernel

/-! ## What is not so -/

/-- C80 does not hold for a group the match did not pass: `/(a)?ab/` on "ab" gives `(a)?` back, group 1 holds [0, 1) all the same; so does group 1 of
`/(a)b|ac/` on "ac". -/
theorem C80_a_group_that_was_given_up : m 2 "/(a)?ab/" "ab" = some (.ret true, [(0, 2), (0, 1)]) ∧
    m 2 "/(a)b|ac/" "ac" = some (.ret true, [(0, 2), (0, 1)]) := by decide +kernel

/-- C80 does not hold inside a repetition: `/(a)*ab/` on "aab" goes once through the repetition, with "a" from 0 to 1; group 1 holds [1, 2). `/((a)b)*a/`
on "aba": group 2 is written inside group 1, which holds [0, 2); it holds [2, 3). -/
theorem C80_a_round_that_was_given_up : m 2 "/(a)*ab/" "aab" = some (.ret true, [(0, 3), (1, 2)]) ∧
    m 3 "/((a)b)*a/" "aba" = some (.ret true, [(0, 3), (0, 2), (2, 3)]) := by decide +kernel

end Verif.RegExp.Demo
