import Verif.Keywords.Spec
namespace Verif.Keywords

theorem cmp_values (a b : List Nat) : cmp a b = -1 ∨ cmp a b = 0 ∨ cmp a b = 1 := by
  fun_induction cmp a b <;> simp_all

theorem cmp_eq_zero {a b : List Nat} : cmp a b = 0 ↔ a = b := by
  fun_induction cmp a b with
  | case1 => simp
  | case2 => simp
  | case3 => simp
  | case4 => simp; omega
  | case5 => simp; omega
  | case6 a as b bs h1 h2 ih => rw [ih]; simp; omega

theorem cmp_swap (a b : List Nat) : cmp b a = - cmp a b := by
  fun_induction cmp a b with
  | case1 => rfl
  | case2 => rfl
  | case3 => rfl
  | case4 a as b bs h1 => rw [cmp, if_neg (by omega), if_pos h1]; rfl
  | case5 a as b bs h1 h2 => rw [cmp, if_pos h2]
  | case6 a as b bs h1 h2 ih => rw [cmp, if_neg h2, if_neg h1, ih]

/-- lexicographic order -/
abbrev Le (a b : List Nat) : Prop := cmp a b ≠ 1

theorem cmp_cons (a b : Nat) (as bs : List Nat) :
    cmp (a :: as) (b :: bs) = if b > a then -1 else if b < a then 1 else cmp as bs := rfl

theorem Le.trans {a b c : List Nat} (h1 : Le a b) (h2 : Le b c) : Le a c := by
  induction a generalizing b c with
  | nil => cases c <;> simp [Le, cmp]
  | cons x xs ih =>
    cases b with
    | nil => simp [Le, cmp] at h1
    | cons y ys =>
      cases c with
      | nil => simp [Le, cmp] at h2
      | cons z zs =>
        simp only [Le, cmp_cons] at *
        by_cases e1 : y > x
        · by_cases e2 : z > y
          · rw [if_pos (by omega)]; omega
          · by_cases e3 : z < y
            · simp [e2, e3] at h2
            · rw [if_pos (by omega)]; omega
        · by_cases e4 : y < x
          · simp [e1, e4] at h1
          · have : x = y := by omega
            subst this
            by_cases e2 : z > x
            · rw [if_pos e2]; omega
            · by_cases e3 : z < x
              · simp [e2, e3] at h2
              · simp only [e2, e3, if_false] at h2 ⊢
                simp only [e1, if_false] at h1
                exact ih h1 h2

theorem Le.refl (a : List Nat) : Le a a := by rw [Le, cmp_eq_zero.2 rfl]; decide

theorem Le.of_prefix {p t : List Nat} (h : p <+: t) : Le p t := by
  induction p generalizing t with
  | nil => cases t <;> simp [Le, cmp]
  | cons x xs ih =>
    obtain ⟨r, rfl⟩ := h
    simp only [List.cons_append, Le, cmp_cons, gt_iff_lt, Nat.lt_irrefl, if_false]
    exact ih ⟨r, rfl⟩

/-- sandwich: a prefix of `t` below `g ≤ t` is a prefix of `g` -/
theorem prefix_sandwich {p g t : List Nat} (hp : p <+: t) (h1 : Le p g) (h2 : Le g t) : p <+: g := by
  induction p generalizing g t with
  | nil => simp
  | cons x xs ih =>
    obtain ⟨r, rfl⟩ := hp
    cases g with
    | nil => simp [Le, cmp] at h1
    | cons y ys =>
      simp only [List.cons_append, Le, cmp_cons] at h1 h2
      have : x = y := by
        by_cases e1 : y > x
        · simp only [show ¬ (x > y) by omega, show x < y by omega, if_true, if_false] at h2
          simp at h2
        · by_cases e2 : y < x
          · simp [e1, e2] at h1
          · omega
      subst this
      simp only [gt_iff_lt, Nat.lt_irrefl, if_false] at h1 h2
      have := ih (t := xs ++ r) ⟨r, rfl⟩ h1 h2
      exact List.cons_prefix_cons.2 ⟨rfl, this⟩

/-- comparing with the truncated text decides `≤` -/
theorem cmp_take (k t : List Nat) : cmp k (t.take k.length) = 1 ↔ cmp k t = 1 := by
  induction k generalizing t with
  | nil => cases t <;> simp [cmp]
  | cons x xs ih =>
    cases t with
    | nil => simp [cmp]
    | cons y ys =>
      simp only [List.length_cons, List.take_succ_cons, cmp_cons]
      by_cases e1 : y > x
      · simp [e1]
      · by_cases e2 : y < x
        · simp [e1, e2]
        · simp [e1, e2, ih]

theorem scan_spec {l : List KW} {wi : List Nat} {n j : Nat} (h : scan l wi n = some j) :
    0 < j ∧ j ≤ n ∧ ∃ k, l[j]? = some k ∧ k.word.length < wi.length ∧ k.word <+: wi := by
  induction n with
  | zero => simp [scan] at h
  | succ n ih =>
    simp only [scan] at h
    split at h
    · simp at h
    · rename_i k hk
      split at h
      · simp at h
      · split at h
        · rename_i h2
          simp only [Option.some.injEq] at h
          subst h
          refine ⟨by omega, by omega, k, hk, h2.1, ?_⟩
          have := cmp_eq_zero.1 h2.2
          rw [← this]
          exact List.take_prefix _ _
        · obtain ⟨a, b, c⟩ := ih h
          exact ⟨a, by omega, c⟩

theorem substrIndex_length (l : List KW) : (substrIndex l).length = l.length := by simp [substrIndex]

theorem substrIndex_get {l : List KW} {i : Nat} {k : KW} (h : (substrIndex l)[i]? = some k) :
    ∃ k0, l[i]? = some k0 ∧ k.word = k0.word ∧ k.region = k0.region ∧ k.sym = k0.sym ∧
      k.shorter = if i = 0 then k0.shorter else (scan l k0.word (i - 1)).or k0.shorter := by
  simp only [substrIndex, List.getElem?_mapIdx, Option.map_eq_some_iff] at h
  obtain ⟨k0, h1, h2⟩ := h
  refine ⟨k0, h1, ?_⟩
  by_cases hi : i = 0
  · simp [hi] at h2; subst h2; simp [hi]
  · simp [hi] at h2; subst h2; simp [hi]

/-- well-formedness used by safety: links go strictly down -/
def Linked (l : List KW) : Prop := ∀ (i : Nat) (k : KW) (s : Nat), l[i]? = some k → k.shorter = some s → s < i

theorem linked_substrIndex {l : List KW} (h : ∀ k ∈ l, k.shorter = none) : Linked (substrIndex l) := by
  intro i k s hk hs
  obtain ⟨k0, h1, h2, h3, h4, h5⟩ := substrIndex_get hk
  have h0 := h k0 (List.mem_of_getElem? h1)
  rw [h5, h0] at hs
  by_cases hi : i = 0
  · simp [hi] at hs
  · simp [hi] at hs
    have := scan_spec hs
    omega

theorem boundOk_spec {env : Env} {line : List Nat} {gx lowlen n : Nat} {sym : Bool} (hlen : lowlen ≤ line.length)
    (hgx : gx ≤ line.length) :
    ∃ b, boundOk env line gx lowlen n sym = some b ∧ (b = true ↔ sym = true ∨ Bounded env line gx (gx + n) lowlen) := by
  unfold boundOk
  cases sym with
  | true => exact ⟨true, by simp⟩
  | false =>
    simp only [Bool.false_eq_true, if_false, false_or]
    have hdiv : ∀ c, isDiv env c = true ↔ IsDiv env c := by
      intro c
      unfold isDiv IsDiv
      cases env.worddiv <;> simp
    have hL : ∃ a, (if gx > 0 then (line[gx - 1]?).map (isDiv env) else some true) = some a ∧
        (a = true ↔ ∀ c, 0 < gx → line[gx - 1]? = some c → IsDiv env c) := by
      by_cases hg : gx > 0
      · have : gx - 1 < line.length := by omega
        rw [if_pos hg, List.getElem?_eq_getElem this]
        refine ⟨_, rfl, ?_⟩
        rw [hdiv]
        constructor
        · intro h c _ hc; cases hc; exact h
        · intro h; exact h _ hg rfl
      · rw [if_neg hg]
        exact ⟨true, rfl, by simp; intro c h; omega⟩
    have hR : ∃ a, (if gx + n < lowlen then (line[gx + n]?).map (isDiv env) else some true) = some a ∧
        (a = true ↔ ∀ c, gx + n < lowlen → line[gx + n]? = some c → IsDiv env c) := by
      by_cases hg : gx + n < lowlen
      · have : gx + n < line.length := by omega
        rw [if_pos hg, List.getElem?_eq_getElem this]
        refine ⟨_, rfl, ?_⟩
        rw [hdiv]
        constructor
        · intro h c _ hc; cases hc; exact h
        · intro h; exact h _ hg rfl
      · rw [if_neg hg]
        exact ⟨true, rfl, by simp; intro c h; omega⟩
    obtain ⟨a, ha1, ha2⟩ := hL
    obtain ⟨b, hb1, hb2⟩ := hR
    rw [ha1, hb1]
    refine ⟨a && b, by cases a <;> cases b <;> rfl, ?_⟩
    rw [Bool.and_eq_true, ha2, hb2]
    rfl

/-- what one iteration decides -/
theorem kw_cmp {fold : Nat → Nat} {w line : List Nat} {gx lowlen : Nat} (hgx : gx ≤ lowlen) (_hlen : lowlen ≤ line.length) :
    let kwlen := if lowlen < gx + w.length then lowlen - gx else w.length
    let avail := ((line.drop gx).take (lowlen - gx)).map fold
    cmp (w.map fold) (((line.drop gx).take kwlen).map fold) = cmp (w.map fold) (avail.take w.length) := by
  intro kwlen avail
  congr 1
  simp only [kwlen, avail]
  rw [← List.map_take, List.take_take]
  congr 2
  split <;> omega

theorem occurs_iff {fold : Nat → Nat} {w line : List Nat} {gx lowlen : Nat} (hgx : gx ≤ lowlen)
    (hlen : lowlen ≤ line.length) :
    Occurs fold w line gx lowlen ↔ w.map fold <+: ((line.drop gx).take (lowlen - gx)).map fold := by
  unfold Occurs
  have hal : (((line.drop gx).take (lowlen - gx)).map fold).length = lowlen - gx := by simp; omega
  constructor
  · rintro ⟨h1, h2⟩
    rw [← h2]
    have : (line.drop gx).take w.length = ((line.drop gx).take (lowlen - gx)).take w.length := by
      rw [List.take_take]; congr 1; omega
    rw [this, List.map_take]
    exact List.take_prefix _ _
  · intro h
    have hle := h.length_le
    rw [hal, List.length_map] at hle
    refine ⟨by omega, ?_⟩
    have := List.prefix_iff_eq_take.1 h
    rw [this, List.length_map, ← List.map_take, List.take_take]
    congr 2
    omega

theorem cmp_take_zero {k t : List Nat} : cmp k (t.take k.length) = 0 ↔ k <+: t := by
  rw [cmp_eq_zero, List.prefix_iff_eq_take]

end Verif.Keywords
