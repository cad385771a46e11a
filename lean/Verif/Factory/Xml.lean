import Verif.Factory.Model
/-! # What of a document counts (C69) -/
namespace Verif.Factory
open Verif.Hrc (Name lit Elem)

/-- a node without meaning: a comment, a processing instruction, blank text -/
def Idles (space : Nat → Bool) : Dom → Prop
  | .elem _ _ _ => False
  | .text s => trim space s = []
  | .cdata _ => False
  | .other => True

mutual
/-- two documents that differ only in nodes without meaning: between, before or after any others, at any depth -/
inductive Alike (space : Nat → Bool) : Dom → Dom → Prop
  | elem (n : Name) (as : List (Name × Name)) {ks ks' : List Dom} : AlikeL space ks ks' → Alike space (.elem n as ks) (.elem n as ks')
  | same (d : Dom) : Alike space d d
/-- the same for lists of nodes -/
inductive AlikeL (space : Nat → Bool) : List Dom → List Dom → Prop
  | nil : AlikeL space [] []
  | cons {d d' : Dom} {l l' : List Dom} : Alike space d d' → AlikeL space l l' → AlikeL space (d :: l) (d' :: l')
  | left {d : Dom} {l l' : List Dom} : Idles space d → AlikeL space l l' → AlikeL space (d :: l) l'
  | right {d : Dom} {l l' : List Dom} : Idles space d → AlikeL space l l' → AlikeL space l (d :: l')
end

theorem elementText_idles {space : Nat → Bool} {d : Dom} (h : Idles space d) (l : List Dom) : elementText space (d :: l) = elementText space l := by
  cases d with
  | elem n as ks => cases h
  | text s => unfold Idles at h; rw [elementText]; exact if_pos h
  | cdata s => cases h
  | other => rfl

theorem toElem_idles {space : Nat → Bool} {d : Dom} (h : Idles space d) : toElem space d = none := by
  cases d with
  | elem n as ks => cases h
  | text s => unfold toElem; rfl
  | cdata s => cases h
  | other => unfold toElem; rfl

theorem toElems_idles {space : Nat → Bool} {d : Dom} (h : Idles space d) (l : List Dom) : toElems space (d :: l) = toElems space l := by
  rw [toElems, toElem_idles h]

theorem alike_text {space : Nat → Bool} {d d' : Dom} (h : Alike space d d') (l l' : List Dom) (hl : elementText space l = elementText space l') :
    elementText space (d :: l) = elementText space (d' :: l') := by
  cases h with
  | elem n as h => simpa [elementText] using hl
  | same d => cases d <;> simp [elementText, hl]

theorem alikeL_text {space : Nat → Bool} {l l' : List Dom} (h : AlikeL space l l') : elementText space l = elementText space l' := by
  refine AlikeL.rec (motive_1 := fun _ _ _ => True) (motive_2 := fun l l' _ => elementText space l = elementText space l') ?_ ?_ ?_ ?_ ?_ ?_ h
  · intros; trivial
  · intros; trivial
  · rfl
  · intro d d' l l' h1 _ _ ih; exact alike_text h1 l l' ih
  · intro d l l' h1 _ ih; rw [elementText_idles h1]; exact ih
  · intro d l l' h1 _ ih; rw [elementText_idles h1]; exact ih

/-- C69. Comments, processing instructions and blank text anywhere in a document make no difference: the library sees the same elements, with the same
attributes and texts. -/
theorem C69_comments_and_blanks_do_not_matter (space : Nat → Bool) (d d' : Dom) (h : Alike space d d') : toElem space d = toElem space d' := by
  refine Alike.rec (motive_1 := fun d d' _ => toElem space d = toElem space d') (motive_2 := fun l l' _ => toElems space l = toElems space l')
    ?_ ?_ ?_ ?_ ?_ ?_ h
  · intro n as ks ks' h1 ih
    rw [toElem, toElem, ih, alikeL_text h1]
  · intro d; rfl
  · rfl
  · intro d d' l l' _ _ h1 h2; rw [toElems, toElems, h1, h2]
  · intro d l l' h1 _ ih; rw [toElems_idles h1]; exact ih
  · intro d l l' h1 _ ih; rw [toElems_idles h1]; exact ih

/-- C69. The text of an element: the first CDATA section as it is, or the first text that is not blank, without the blanks around it. -/
theorem C69_the_text_of_an_element (space : Nat → Bool) (n : Name) (as : List (Name × Name)) (before after : List Dom)
    (hb : ∀ d ∈ before, Idles space d ∨ ∃ m bs ks, d = .elem m bs ks) :
    (∀ s, ∃ e, toElem space (.elem n as (before ++ .cdata s :: after)) = some e ∧ e.text = s) ∧
    ∀ a t b, (∀ c ∈ a ++ b, space c = true) → t ≠ [] → (∀ c, t.head? = some c → space c = false) → (∀ c, t.getLast? = some c → space c = false) →
      ∃ e, toElem space (.elem n as (before ++ .text (a ++ t ++ b) :: after)) = some e ∧ e.text = t := by
  have skip : ∀ l, elementText space (before ++ l) = elementText space l := by
    intro l
    induction before with
    | nil => rfl
    | cons d r ih =>
      rw [List.cons_append]
      rcases hb d (by simp) with h | ⟨m, bs, ks, h⟩
      · rw [elementText_idles h, ih fun x hx => hb x (by simp [hx])]
      · subst h; rw [elementText, ih fun x hx => hb x (by simp [hx])]
  constructor
  · intro s
    refine ⟨_, by rw [toElem], ?_⟩
    show elementText space _ = s
    rw [skip, elementText]
  · intro a t b hab ht h1 h2
    have hdrop : ∀ (p : Name), (∀ c ∈ p, space c = true) → ∀ q, (∀ c, q.head? = some c → space c = false) → (p ++ q).dropWhile space = q := by
      intro p hp q hq
      induction p with
      | nil =>
        rw [List.nil_append]
        cases q with
        | nil => rfl
        | cons c r => rw [List.dropWhile_cons_of_neg (by simp [hq c rfl])]
      | cons c r ih =>
        rw [List.cons_append, List.dropWhile_cons_of_pos (hp c (by simp))]
        exact ih fun x hx => hp x (by simp [hx])
    have htrim : trim space (a ++ t ++ b) = t := by
      unfold trim
      rw [List.append_assoc, hdrop a (fun c hc => hab c (by simp [hc])) (t ++ b)
        (fun c hc => h1 c (by cases t with | nil => exact absurd rfl ht | cons x r => simpa using hc)),
        List.reverse_append, hdrop b.reverse (fun c hc => hab c (by simp at hc; simp [hc])) t.reverse
        (fun c hc => h2 c (by rw [List.head?_reverse] at hc; exact hc)), List.reverse_reverse]
    refine ⟨_, by rw [toElem], ?_⟩
    show elementText space _ = t
    rw [skip, elementText, htrim, if_neg ht]

/-- for example -/
example : Alike (· = 32) (.elem (lit "a") [] [.text (lit " "), .elem (lit "b") [] [.other, .text (lit "x")], .other])
    (.elem (lit "a") [] [.elem (lit "b") [] [.text (lit "x"), .text (lit "  ")]]) :=
  .elem _ _ (.left (by show trim _ (lit " ") = []; decide) (.cons (.elem _ _ (.left trivial (.cons (.same _) (.right (by show trim _ (lit "  ") = []; decide) .nil))))
    (.left trivial .nil)))

/-- C69 ends there: the text of an element is only its first piece, so a comment inside it, or a CDATA section after it, cuts it off. -/
theorem C69_violated_text_is_cut :
    (toElem (· = 32) (.elem (lit "filename") [] [.text (lit "/\\.txt$/"), .other, .text (lit "i")])) = some (.mk (lit "filename") [] (lit "/\\.txt$/") []) ∧
    (toElem (· = 32) (.elem (lit "filename") [] [.text (lit "/\\."), .cdata (lit "txt$/")])) = some (.mk (lit "filename") [] (lit "/\\.") []) := by
  constructor <;> rfl

/-- C66. The elements of a document keep their order: those of the first part of a list of nodes come before those of the rest, and a node gives its element or nothing. -/
theorem C66_children_keep_their_order (space : Nat → Bool) (l r : List Dom) : toElems space (l ++ r) = toElems space l ++ toElems space r ∧
    ∀ d, toElems space [d] = (toElem space d).toList := by
  refine ⟨?_, fun d => ?_⟩
  · induction l with
    | nil => rw [toElems]; rfl
    | cons d l ih =>
      rw [List.cons_append, toElems, toElems]
      cases toElem space d with
      | none => exact ih
      | some e => show e :: toElems space (l ++ r) = e :: toElems space l ++ toElems space r; rw [ih]; rfl
  · rw [toElems]
    cases toElem space d with
    | none => rw [toElems]; rfl
    | some e => show e :: toElems space [] = [e]; rw [toElems]

end Verif.Factory
