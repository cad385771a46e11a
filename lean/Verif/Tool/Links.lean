import Verif.Tool.Model
import Verif.Factory.Model
/-!
# C75: links in the output

`ConsoleTools::setLinkSource` (/repo/tools/colorer/ConsoleTools.cpp 63-122): the table of links; the writer's look-up (`writeHref`) is `Viewer.hrefUrl`.
-/
namespace Verif.Tool
open Verif.Strings (Str)
open Verif.Hrc (Elem)
open Verif.Viewer (lit)

/-! ## Model -/

/-- `docLinkHash` -/
abbrev Links := List (Str × Str)

/-- `unordered_map::find` -/
def Links.find (t : Links) (k : Str) : Option Str := (t.find? fun p => p.1 = k).map (·.2)

/-- `unordered_map::emplace`: an entry with the key stays -/
def Links.emplace (t : Links) (k v : Str) : Links := if (t.find k).isSome then t else t ++ [(k, v)]

/-- one `<link>` (88-116) inside a `<links>` with the given address and scheme -/
def addLink (url scheme : Str) (t : Links) (k : Elem) : Links :=
  if k.tag = lit "link" then
    if k.attr (lit "token") = [] then t
    else
      let full := url ++ k.attr (lit "url")
      let ref := if k.attr (lit "scheme") = [] then scheme else k.attr (lit "scheme")
      let key := if ref = [] then k.attr (lit "token") else k.attr (lit "token") ++ lit "--" ++ ref
      t.emplace key full
  else t

/-- one child of the root (83-118) -/
def addLinks (t : Links) (k : Elem) : Links :=
  if k.tag = lit "links" then k.kids.foldl (addLink (k.attr (lit "url")) (k.attr (lit "scheme"))) t else t

/-- `setLinkSource` (63-122): the table afterwards; `none`: an exception, nothing is added. `root` is the root node of the document, `none` if it cannot be
read. -/
def setLinkSource (t : Links) (root : Option Elem) : Option Links := match root with
  | none => none
  | some r => if r.tag = lit "doclinks" then some (r.kids.foldl addLinks t) else none

/-- several calls; a call that throws leaves the table as it is -/
def setLinkSources (roots : List (Option Elem)) : Links := roots.foldl (fun t r => (setLinkSource t r).getD t) []

/-! ## Specification -/

/-- what a `<link>` says: the address for a word; in one scheme only, if `scheme` is not empty -/
structure Decl where
  token  : Str
  scheme : Str
  url    : Str
deriving DecidableEq, Repr

/-- the declarations of a document in order: the address is the one of the group followed by the link's own, the scheme the link's own or else the
group's -/
def declsOf (root : Elem) : List Decl :=
  if root.tag = lit "doclinks" then
    (root.kids.filter fun k => k.tag = lit "links").flatMap fun g =>
      (g.kids.filter fun k => k.tag = lit "link" ∧ k.attr (lit "token") ≠ []).map fun k =>
        ⟨k.attr (lit "token"), if k.attr (lit "scheme") = [] then g.attr (lit "scheme") else k.attr (lit "scheme"), g.attr (lit "url") ++ k.attr (lit "url")⟩
  else []

/-- the declarations of several documents; unreadable ones have none -/
def declsAll (roots : List (Option Elem)) : List Decl := roots.flatMap fun r => match r with
  | none => []
  | some e => declsOf e

/-- the key of a declaration -/
def Decl.key (d : Decl) : Str := if d.scheme = [] then d.token else d.token ++ lit "--" ++ d.scheme

/-! ## Proof -/

theorem find_emplace (t : Links) (k v x : Str) : (t.emplace k v).find x = (t.find x).or (if k = x then some v else none) := by
  unfold Links.emplace
  by_cases h : (t.find k).isSome
  · rw [if_pos h]
    by_cases hx : k = x
    · subst hx
      obtain ⟨w, hw⟩ := Option.isSome_iff_exists.1 h
      rw [hw]; rfl
    · rw [if_neg hx]; simp
  · rw [if_neg h]
    unfold Links.find
    rw [List.find?_append]
    by_cases hx : k = x
    · subst hx
      cases ht : t.find? (fun p => p.1 = k) <;> simp
    · cases ht : t.find? (fun p => p.1 = x) <;> simp [hx]

/-- the table answers like the first declaration with the key -/
def Agrees (t : Links) (ds : List Decl) : Prop := ∀ x, t.find x = (ds.find? fun d => d.key = x).map (·.url)

theorem agrees_emplace {t : Links} {ds : List Decl} (h : Agrees t ds) (d : Decl) : Agrees (t.emplace d.key d.url) (ds ++ [d]) := by
  intro x
  rw [find_emplace, h x, List.find?_append]
  cases hd : ds.find? (fun d => d.key = x) with
  | some e => simp
  | none =>
    by_cases hk : d.key = x <;> simp [hk]

theorem agrees_group {url scheme : Str} (ks : List Elem) : ∀ {t : Links} {ds : List Decl}, Agrees t ds →
    Agrees (ks.foldl (addLink url scheme) t) (ds ++ (ks.filter fun k => k.tag = lit "link" ∧ k.attr (lit "token") ≠ []).map fun k =>
      ⟨k.attr (lit "token"), if k.attr (lit "scheme") = [] then scheme else k.attr (lit "scheme"), url ++ k.attr (lit "url")⟩) := by
  induction ks with
  | nil => intro t ds h; simpa using h
  | cons k r ih =>
    intro t ds h
    rw [List.foldl_cons]
    by_cases h1 : k.tag = lit "link" ∧ k.attr (lit "token") ≠ []
    · rw [List.filter_cons_of_pos (by simpa using h1), List.map_cons]
      have e : addLink url scheme t k = t.emplace (Decl.key ⟨k.attr (lit "token"), if k.attr (lit "scheme") = [] then scheme else k.attr (lit "scheme"),
          url ++ k.attr (lit "url")⟩) (url ++ k.attr (lit "url")) := by
        unfold addLink Decl.key
        rw [if_pos h1.1, if_neg h1.2]
      rw [e]
      have := ih (agrees_emplace h ⟨k.attr (lit "token"), if k.attr (lit "scheme") = [] then scheme else k.attr (lit "scheme"), url ++ k.attr (lit "url")⟩)
      rw [List.append_assoc, List.singleton_append] at this
      exact this
    · have e : addLink url scheme t k = t := by
        unfold addLink
        by_cases ht : k.tag = lit "link"
        · rw [if_pos ht]
          by_cases hc : k.attr (lit "token") = []
          · rw [if_pos hc]
          · exact absurd ⟨ht, hc⟩ h1
        · rw [if_neg ht]
      rw [e, List.filter_cons_of_neg (by rw [decide_eq_true_eq]; exact h1)]
      exact ih h

theorem agrees_root (ks : List Elem) : ∀ {t : Links} {ds : List Decl}, Agrees t ds →
    Agrees (ks.foldl addLinks t) (ds ++ (ks.filter fun k => k.tag = lit "links").flatMap fun g =>
      (g.kids.filter fun k => k.tag = lit "link" ∧ k.attr (lit "token") ≠ []).map fun k =>
        ⟨k.attr (lit "token"), if k.attr (lit "scheme") = [] then g.attr (lit "scheme") else k.attr (lit "scheme"), g.attr (lit "url") ++ k.attr (lit "url")⟩) := by
  induction ks with
  | nil => intro t ds h; simpa using h
  | cons g r ih =>
    intro t ds h
    rw [List.foldl_cons]
    by_cases h1 : g.tag = lit "links"
    · rw [List.filter_cons_of_pos (by simpa using h1), List.flatMap_cons, ← List.append_assoc]
      refine ih ?_
      unfold addLinks
      rw [if_pos h1]
      exact agrees_group g.kids h
    · rw [List.filter_cons_of_neg (by simpa using h1)]
      have e : addLinks t g = t := by unfold addLinks; rw [if_neg h1]
      rw [e]
      exact ih h

theorem agrees_all (roots : List (Option Elem)) : ∀ {t : Links} {ds : List Decl}, Agrees t ds →
    Agrees (roots.foldl (fun t r => (setLinkSource t r).getD t) t) (ds ++ declsAll roots) := by
  induction roots with
  | nil => intro t ds h; simpa [declsAll] using h
  | cons r rs ih =>
    intro t ds h
    rw [List.foldl_cons]
    have e : declsAll (r :: rs) = (match r with | none => [] | some e => declsOf e) ++ declsAll rs := rfl
    rw [e, ← List.append_assoc]
    refine ih ?_
    cases r with
    | none => simpa [setLinkSource] using h
    | some x =>
      show Agrees _ (ds ++ declsOf x)
      unfold setLinkSource declsOf
      by_cases hx : x.tag = lit "doclinks"
      · simp only [if_pos hx, Option.getD_some]
        exact agrees_root x.kids h
      · simp only [if_neg hx, Option.getD_none, List.append_nil]
        exact h

/-- C75: whatever documents were loaded, a word in a scheme gets the address of the first declaration with the key word--scheme, or else with the word as key -/
theorem C75_link_of_a_word (roots : List (Option Elem)) (s token : Str) :
    Viewer.hrefUrl (setLinkSources roots).find (some s) token =
      (((declsAll roots).find? fun d => d.key = token ++ lit "--" ++ s).or ((declsAll roots).find? fun d => d.key = token)).map (·.url) := by
  have h : Agrees (setLinkSources roots) (declsAll roots) := by
    have := agrees_all roots (t := []) (ds := []) (fun x => rfl)
    unfold setLinkSources
    simpa using this
  have e1 := h (token ++ lit "--" ++ s)
  have e2 := h token
  unfold Viewer.hrefUrl
  simp only [Option.bind_some, e1, e2]
  cases (declsAll roots).find? (fun d => d.key = token ++ lit "--" ++ s) <;> simp

theorem key_scheme (d : Decl) (s token : Str) (hs : s ≠ []) (h1 : 45 ∉ d.token) (h2 : 45 ∉ token) :
    d.key = token ++ lit "--" ++ s ↔ d.token = token ∧ d.scheme = s := by
  have cut : ∀ (a b r t : Str), 45 ∉ a → 45 ∉ b → a ++ 45 :: r = b ++ 45 :: t → a = b ∧ r = t := by
    intro a
    induction a with
    | nil =>
      intro b r t _ hb h
      cases b with
      | nil => simpa using h
      | cons c b => simp at h hb; omega
    | cons c a ih =>
      intro b r t ha hb h
      cases b with
      | nil => simp at h ha; omega
      | cons e b =>
        simp only [List.cons_append, List.cons.injEq] at h
        simp at ha hb
        obtain ⟨x, y⟩ := ih b r t ha.2 hb.2 h.2
        exact ⟨by rw [h.1, x], y⟩
  have hl : ∀ x y : Str, x ++ lit "--" ++ y = x ++ 45 :: (45 :: y) := by intro x y; simp [lit]
  unfold Decl.key
  rw [hl, hl]
  constructor
  · intro h
    split at h
    · exact absurd (by rw [h]; simp : 45 ∈ d.token) h1
    · obtain ⟨a, b⟩ := cut _ _ _ _ h1 h2 h
      simp only [List.cons.injEq, true_and] at b
      exact ⟨a, b⟩
  · rintro ⟨a, b⟩
    rw [if_neg (by rw [b]; exact hs), a, b]

theorem key_word (d : Decl) (token : Str) (h2 : 45 ∉ token) : d.key = token ↔ d.token = token ∧ d.scheme = [] := by
  unfold Decl.key
  split
  · rename_i h; simp [h]
  · rename_i h
    constructor
    · intro e
      exact absurd (by rw [← e]; simp [lit] : 45 ∈ token) h2
    · intro e; exact absurd e.2 h

/-- C75 (partial: words without `-`): the address is that of the first declaration for this word in this scheme, or else of the first one for this word in all
schemes -/
theorem C75_link_of_a_plain_word_partial (roots : List (Option Elem)) (s token : Str) (hs : s ≠ []) (ht : 45 ∉ token) (hd : ∀ d ∈ declsAll roots, 45 ∉ d.token) :
    Viewer.hrefUrl (setLinkSources roots).find (some s) token =
      (((declsAll roots).find? fun d => d.token = token ∧ d.scheme = s).or ((declsAll roots).find? fun d => d.token = token ∧ d.scheme = [])).map (·.url) := by
  rw [C75_link_of_a_word]
  have cong : ∀ (l : List Decl) (p q : Decl → Bool), (∀ d ∈ l, p d = q d) → l.find? p = l.find? q := by
    intro l p q h
    induction l with
    | nil => rfl
    | cons d r ih =>
      rw [List.find?_cons, List.find?_cons, h d (by simp), ih (fun x hx => h x (by simp [hx]))]
  congr 2
  · refine cong _ _ _ (fun d hx => ?_)
    have := key_scheme d s token hs (hd d hx) ht
    by_cases hk : d.key = token ++ lit "--" ++ s
    · simp only [hk, decide_true]; exact (decide_eq_true (this.1 hk)).symm
    · rw [decide_eq_false hk]; exact (decide_eq_false (fun e => hk (this.2 e))).symm
  · refine cong _ _ _ (fun d hx => ?_)
    have := key_word d token ht
    by_cases hk : d.key = token
    · simp only [hk, decide_true]; exact (decide_eq_true (this.1 hk)).symm
    · rw [decide_eq_false hk]; exact (decide_eq_false (fun e => hk (this.2 e))).symm

/-- two groups -/
def demoDoc : Elem := .mk (lit "doclinks") [] [] [
  .mk (lit "links") [(lit "url", lit "http://c/"), (lit "scheme", lit "c:c")] [] [
    .mk (lit "link") [(lit "token", lit "printf"), (lit "url", lit "printf.html")] [] [],
    .mk (lit "link") [(lit "token", lit "printf"), (lit "url", lit "other.html")] [] []],
  .mk (lit "links") [(lit "url", lit "http://x/")] [] [
    .mk (lit "link") [(lit "token", lit "printf"), (lit "url", lit "p")] [] [],
    .mk (lit "link") [(lit "token", lit "a--c:c"), (lit "url", lit "a")] [] []]]

example : Viewer.hrefUrl (setLinkSources [none, some demoDoc]).find (some (lit "c:c")) (lit "printf") = some (lit "http://c/printf.html") ∧
    Viewer.hrefUrl (setLinkSources [some demoDoc]).find (some (lit "php:php")) (lit "printf") = some (lit "http://x/p") := by decide +kernel

/-- C75 fails for words with `-`: a link for the word `a--c:c` (in all schemes) is also given to the word `a` in the scheme `c:c` -/
theorem C75_violated_key_collision : Viewer.hrefUrl (setLinkSources [some demoDoc]).find (some (lit "c:c")) (lit "a") = some (lit "http://x/a") ∧
    ∀ d ∈ declsAll [some demoDoc], d.token ≠ lit "a" := by decide +kernel

end Verif.Tool
