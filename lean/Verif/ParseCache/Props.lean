import Verif.ParseCache.Spec
/-! # C11: the cache lookup finds the innermost enclosing block -/
namespace Verif.ParseCache

theorem Sibling.entry {x t : PC} (h : Sibling x t) : Entry x t := by
  induction h with
  | here => exact .here ..
  | next _ _ _ _ _ _ ih => exact .next _ _ _ _ _ ih

theorem Entry.ne_null {x t : PC} (h : Entry x t) : x ≠ .null := by
  induction h with
  | here => simp
  | next _ _ _ _ _ _ ih => exact ih
  | child _ _ _ _ _ _ ih => exact ih

theorem WF.range {x t : PC} (h : Entry x t) (hw : WF t) : x.sline ≤ x.eline := by
  induction h with
  | here => cases hw with | node range _ _ _ _ => exact range
  | next _ _ _ _ _ _ ih => cases hw with | node _ _ hn _ _ => exact ih hn
  | child _ _ _ _ _ _ ih => cases hw with | node _ hc _ _ _ => exact ih hc

/-- the state of the loop: `cache` is the last earlier sibling that begins before the line -/
theorem search_spec (ln : Int) (t : PC) : ∀ cache : PC, WF t →
    (((search ln t cache).1 = .null ∧ (∀ y, Entry y t → ¬ y.covers ln) ∧
        ((∃ y, Sibling y t ∧ y.sline ≤ ln) → LastBefore t ln (search ln t cache).2) ∧
        ((∀ y, Sibling y t → ln < y.sline) → (search ln t cache).2 = cache)) ∨
     (Entry (search ln t cache).1 t ∧ (search ln t cache).1.covers ln ∧
        (∀ y, Entry y t → y.covers ln → y = (search ln t cache).1 ∨ Entry (search ln t cache).1 y.kids) ∧
        LastBefore (search ln t cache).1.kids ln (search ln t cache).2)) := by
  induction t with
  | null =>
    intro cache _
    left
    refine ⟨rfl, ?_, ?_, fun _ => rfl⟩
    · intro y hy; cases hy
    · rintro ⟨y, hy, _⟩; cases hy
  | node i s e c n ihc ihn =>
    intro cache hw
    cases hw with
    | node range hc hn inside after =>
    by_cases hcov : s ≤ ln ∧ ln ≤ e
    · right
      have hnext : ∀ y, Entry y n → ¬ y.covers ln := by
        intro y hy hcv
        have := after y hy
        have := hcv.2.1
        omega
      rcases ihc .null hc with ⟨h1, h2, h3, h4⟩ | ⟨h1, h2, h3, h4⟩
      · have hs : search ln (.node i s e c n) cache = (.node i s e c n, (search ln c .null).2) := by
          simp only [search, hcov, and_self, if_true]
          rw [h1]; simp
        rw [hs]
        refine ⟨.here .., ⟨by simp, hcov.1, hcov.2⟩, ?_, ?_⟩
        · intro y hy hcv
          cases hy with
          | here => left; rfl
          | next _ _ _ _ _ hy => exact absurd hcv (hnext y hy)
          | child _ _ _ _ _ hy => exact absurd hcv (h2 y hy)
        · simp only [PC.kids]
          by_cases hex : ∃ y, Sibling y c ∧ y.sline ≤ ln
          · exact h3 hex
          · have hall : ∀ y, Sibling y c → ln < y.sline := by
              intro y hy
              by_cases hh : y.sline ≤ ln
              · exact absurd ⟨y, hy, hh⟩ hex
              · omega
            left
            exact ⟨h4 hall, hall⟩
      · have hne := h1.ne_null
        have hs : search ln (.node i s e c n) cache = search ln c .null := by
          simp only [search, hcov, and_self, if_true]
          rw [if_pos hne]
        rw [hs]
        refine ⟨.child _ _ _ _ _ h1, h2, ?_, h4⟩
        intro y hy hcv
        cases hy with
        | here => right; exact h1
        | next _ _ _ _ _ hy => exact absurd hcv (hnext y hy)
        | child _ _ _ _ _ hy => exact h3 y hy hcv
    · have hchild : ∀ y, Entry y c → ¬ y.covers ln := by
        intro y hy hcv
        have := inside y hy
        have h1 := hcv.2.1
        have h2 := hcv.2.2
        omega
      have hs : search ln (.node i s e c n) cache = search ln n (if s ≤ ln then .node i s e c n else cache) := by
        simp only [search, hcov, if_false]
      rw [hs]
      rcases ihn (if s ≤ ln then .node i s e c n else cache) hn with ⟨h1, h2, h3, h4⟩ | ⟨h1, h2, h3, h4⟩
      · left
        refine ⟨h1, ?_, ?_, ?_⟩
        · intro y hy hcv
          cases hy with
          | here => exact hcov ⟨hcv.2.1, hcv.2.2⟩
          | next _ _ _ _ _ hy => exact h2 y hy hcv
          | child _ _ _ _ _ hy => exact hchild y hy hcv
        · rintro ⟨y, hy, hyl⟩
          by_cases hex : ∃ y, Sibling y n ∧ y.sline ≤ ln
          · rcases h3 hex with ⟨h5, h6⟩ | ⟨h5, h6, h7⟩
            · obtain ⟨z, hz, hzl⟩ := hex
              have := h6 z hz
              omega
            · right
              refine ⟨.next _ _ _ _ _ h5, h6, ?_⟩
              intro z hz hzl
              cases hz with
              | here =>
                right
                have := after _ h5.entry
                show s < _
                omega
              | next _ _ _ _ _ hz => exact h7 z hz hzl
          · have hall : ∀ y, Sibling y n → ln < y.sline := by
              intro y hy
              by_cases hh : y.sline ≤ ln
              · exact absurd ⟨y, hy, hh⟩ hex
              · omega
            cases hy with
            | here =>
              have hsl : s ≤ ln := hyl
              rw [h4 hall]
              rw [if_pos hsl]
              right
              refine ⟨.here .., hsl, ?_⟩
              intro z hz hzl
              cases hz with
              | here => left; rfl
              | next _ _ _ _ _ hz => have := hall z hz; omega
            | next _ _ _ _ _ hy => have := hall y hy; omega
        · intro hall
          rw [h4 (fun y hy => hall y (.next _ _ _ _ _ hy))]
          have : ln < s := hall _ (.here ..)
          rw [if_neg (by omega)]
      · right
        refine ⟨.next _ _ _ _ _ h1, h2, ?_, h4⟩
        intro y hy hcv
        cases hy with
        | here => exact absurd ⟨hcv.2.1, hcv.2.2⟩ hcov
        | next _ _ _ _ _ hy => exact h3 y hy hcv
        | child _ _ _ _ _ hy => exact absurd hcv (hchild y hy)

/-- **C11.** In a well-formed cache (siblings in order without overlap, children inside their parents): if some cached block
covers the line, the lookup returns one that does, every other block that covers the line encloses it (so it is the
innermost), and the second result is the last child of it that begins at or before the line (null if none); if no block
covers the line, the lookup returns null and the second result is the last top-level block that begins before the line. -/
theorem C11_lookup_finds_innermost_block (t : PC) (ln : Int) (hw : WF t) :
    ((∃ y, Entry y t ∧ y.covers ln) →
      Entry (searchLine t ln).1 t ∧ (searchLine t ln).1.covers ln ∧
      (∀ y, Entry y t → y.covers ln → y = (searchLine t ln).1 ∨ Entry (searchLine t ln).1 y.kids) ∧
      LastBefore (searchLine t ln).1.kids ln (searchLine t ln).2) ∧
    ((∀ y, Entry y t → ¬ y.covers ln) → (searchLine t ln).1 = .null ∧ LastBefore t ln (searchLine t ln).2) := by
  unfold searchLine
  constructor
  · rintro ⟨y, hy, hcv⟩
    rcases search_spec ln t .null hw with ⟨_, h2, _, _⟩ | h
    · exact absurd hcv (h2 y hy)
    · exact h
  · intro hno
    rcases search_spec ln t .null hw with ⟨h1, _, h3, h4⟩ | ⟨h1, h2, _, _⟩
    · refine ⟨h1, ?_⟩
      by_cases hex : ∃ y, Sibling y t ∧ y.sline ≤ ln
      · exact h3 hex
      · have hall : ∀ y, Sibling y t → ln < y.sline := by
          intro y hy
          by_cases hh : y.sline ≤ ln
          · exact absurd ⟨y, hy, hh⟩ hex
          · omega
        left
        exact ⟨h4 hall, hall⟩
    · exact absurd h2 (hno _ h1)

/-- **C11.** The whole text being covered by the root entry (`initCache`: lines 0 to 0x7FFFFFF), a restart point always
exists for such a line. -/
theorem C11_restart_point_exists (i : Nat) (s e : Int) (c : PC) (ln : Int) (hw : WF (.node i s e c .null))
    (h1 : s ≤ ln) (h2 : ln ≤ e) : (searchLine (.node i s e c .null) ln).1.covers ln :=
  ((C11_lookup_finds_innermost_block _ ln hw).1 ⟨_, .here .., by simp, h1, h2⟩).2.1

/-! ## Non-triviality -/

/-- root [0,100] with children [2,5], [8,20]; the latter with children [9,10] and [15,18] -/
def exT : PC := .node 0 0 100 (.node 1 2 5 .null (.node 2 8 20 (.node 3 9 10 .null (.node 4 15 18 .null .null)) .null)) .null

theorem exT_wf : WF exT := by
  have leaf : ∀ i s e, s ≤ e → WF (.node i s e .null .null) := fun i s e h =>
    .node h .null .null (fun x hx => nomatch hx) (fun x hx => nomatch hx)
  have h4 := leaf 4 15 18 (by decide)
  have h3 : WF (.node 3 9 10 .null (.node 4 15 18 .null .null)) := .node (by decide) .null h4 (fun x hx => nomatch hx) (by
    intro x hx
    cases hx with
    | here => decide
    | next _ _ _ _ _ h => cases h
    | child _ _ _ _ _ h => cases h)
  have h2 : WF (.node 2 8 20 (.node 3 9 10 .null (.node 4 15 18 .null .null)) .null) := .node (by decide) h3 .null (by
    intro x hx
    cases hx with
    | here => decide
    | next _ _ _ _ _ h =>
      cases h with
      | here => decide
      | next _ _ _ _ _ h => cases h
      | child _ _ _ _ _ h => cases h
    | child _ _ _ _ _ h => cases h) (fun x hx => nomatch hx)
  have hall : ∀ x, Entry x (.node 2 8 20 (.node 3 9 10 .null (.node 4 15 18 .null .null)) .null) →
      8 ≤ x.sline ∧ x.eline ≤ 20 := by
    intro x hx
    cases hx with
    | here => decide
    | next _ _ _ _ _ h => cases h
    | child _ _ _ _ _ h =>
      cases h with
      | here => decide
      | next _ _ _ _ _ h =>
        cases h with
        | here => decide
        | next _ _ _ _ _ h => cases h
        | child _ _ _ _ _ h => cases h
      | child _ _ _ _ _ h => cases h
  have h1 : WF (.node 1 2 5 .null (.node 2 8 20 (.node 3 9 10 .null (.node 4 15 18 .null .null)) .null)) :=
    .node (by decide) .null h2 (fun x hx => nomatch hx) (fun x hx => by have := (hall x hx).1; omega)
  refine .node (by decide) h1 .null ?_ (fun x hx => nomatch hx)
  intro x hx
  cases hx with
  | here => decide
  | next _ _ _ _ _ h => have := hall x h; omega
  | child _ _ _ _ _ h => cases h

example : (searchLine exT 16).1 = .node 4 15 18 .null .null := by decide +kernel
example : (searchLine exT 12).1.sline = 8 ∧ (searchLine exT 12).2.sline = 9 := by decide +kernel
example : (searchLine exT 7).1.sline = 0 ∧ (searchLine exT 7).2.sline = 2 := by decide +kernel

end Verif.ParseCache
