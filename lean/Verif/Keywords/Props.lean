import Verif.Keywords.Lemmas
namespace Verif.Keywords

/-- fuel bound of the loop: binary search plus fallback chain -/
theorem loop_sound {env : Env} {l : List KW} {line : List Nat} {gx lowlen : Nat} (hL : Linked l)
    (hgx : gx ≤ lowlen) (hlen : lowlen ≤ line.length) (fuel left right : Nat)
    (h1 : left < right) (h2 : right ≤ l.length) (hf : right + (right - left - 1) ≤ fuel) :
    loop env l line gx lowlen fuel left right = .nothing ∨
    ∃ i k, loop env l line gx lowlen fuel left right = .matched i k.word.length ∧ l[i]? = some k ∧
      Accept env k line gx lowlen := by
  induction fuel generalizing left right with
  | zero => omega
  | succ fuel ih =>
    have hpos : left + (right - left) / 2 < l.length := by omega
    rw [loop]
    simp only [List.getElem?_eq_getElem hpos]
    generalize hk : l[left + (right - left) / 2] = k
    have hget : l[left + (right - left) / 2]? = some k := by rw [List.getElem?_eq_getElem hpos, hk]
    rw [kw_cmp hgx hlen]
    generalize hc : cmp (k.word.map env.fold) (List.take k.word.length (((line.drop gx).take (lowlen - gx)).map env.fold)) = c
    have hnext : (if right - left = 1 then
          match k.shorter with
          | some s => loop env l line gx lowlen fuel s (s + 1)
          | none => .nothing
        else if c = 1 then loop env l line gx lowlen fuel left (left + (right - left) / 2)
        else loop env l line gx lowlen fuel (left + (right - left) / 2) right) = .nothing ∨
        ∃ i k', (if right - left = 1 then
          match k.shorter with
          | some s => loop env l line gx lowlen fuel s (s + 1)
          | none => .nothing
        else if c = 1 then loop env l line gx lowlen fuel left (left + (right - left) / 2)
        else loop env l line gx lowlen fuel (left + (right - left) / 2) right) = .matched i k'.word.length ∧
          l[i]? = some k' ∧ Accept env k' line gx lowlen := by
      by_cases h3 : right - left = 1
      · simp only [if_pos h3]
        cases hs : k.shorter with
        | none => exact Or.inl rfl
        | some s =>
          have := hL _ k s hget hs
          exact ih s (s + 1) (by omega) (by omega) (by omega)
      · simp only [if_neg h3]
        by_cases h4 : c = 1
        · simp only [if_pos h4]
          exact ih left _ (by omega) (by omega) (by omega)
        · simp only [if_neg h4]
          exact ih _ right (by omega) (by omega) (by omega)
    by_cases h5 : c = 0 ∧ right - left = 1
    · simp only [if_pos h5]
      have hpre : k.word.map env.fold <+: ((line.drop gx).take (lowlen - gx)).map env.fold := by
        have := cmp_take_zero.1 (by rw [List.length_map]; rw [hc]; exact h5.1)
        exact this
      have hocc := (occurs_iff hgx hlen).2 hpre
      have hkl : (if lowlen < gx + k.word.length then lowlen - gx else k.word.length) = k.word.length := by
        rw [if_neg (by have := hocc.1; omega)]
      rw [hkl]
      obtain ⟨b, hb1, hb2⟩ := boundOk_spec (env := env) (n := k.word.length) (sym := k.sym) hlen (by omega : gx ≤ line.length)
      rw [hb1]
      cases b with
      | true =>
        refine Or.inr ⟨_, k, rfl, hget, hocc, hb2.1 rfl⟩
      | false => exact hnext
    · simp only [if_neg h5]
      exact hnext

/-- **C08** For every keyword list prepared by the loader (any order of `sorted`, any folding, any boundary class), any
line, position and limit: the search terminates inside its arrays and the line, and a reported keyword is
one of the list, stands in the text at the position within the limit, is reported with its own length, and has
word boundaries around it unless it is a symbol. -/
theorem C08_reported_keyword_is_in_text (env : Env) (matchCase : Bool) (lower upper title : Nat → Nat) (sorted : List KW)
    (hfresh : ∀ k ∈ sorted, k.shorter = none) (line : List Nat) (gx lowlen : Nat)
    (hgx : gx ≤ lowlen) (hlen : lowlen ≤ line.length) :
    search env (build matchCase lower upper title sorted) line gx lowlen = .nothing ∨
    ∃ i k, search env (build matchCase lower upper title sorted) line gx lowlen = .matched i k.word.length ∧
      sorted[i]? = some k ∧ Accept env k line gx lowlen := by
  have hgen : ∀ (h0 : sorted.length ≠ 0), loop env (substrIndex sorted) line gx lowlen (2 * (substrIndex sorted).length + 1) 0
        (substrIndex sorted).length = .nothing ∨
      ∃ i k, loop env (substrIndex sorted) line gx lowlen (2 * (substrIndex sorted).length + 1) 0
        (substrIndex sorted).length = .matched i k.word.length ∧
        sorted[i]? = some k ∧ Accept env k line gx lowlen := by
    intro h0
    have hl := substrIndex_length sorted
    rcases loop_sound (env := env) (linked_substrIndex hfresh) hgx hlen (2 * (substrIndex sorted).length + 1) 0
      (substrIndex sorted).length (by omega) (by omega) (by omega) with h | ⟨i, k, h1, h2, h3⟩
    · exact Or.inl h
    · obtain ⟨k0, g1, g2, g3, g4, g5⟩ := substrIndex_get h2
      refine Or.inr ⟨i, k0, by rw [h1, g2], g1, ?_⟩
      unfold Accept at h3 ⊢
      rw [g2, g4] at h3
      exact h3
  unfold search
  by_cases h0 : (build matchCase lower upper title sorted).kws.length = 0 ∨
      (build matchCase lower upper title sorted).minLen + gx > lowlen
  · rw [if_pos h0]; exact Or.inl rfl
  · rw [if_neg h0]
    have hne : sorted.length ≠ 0 := by
      intro he
      exact h0 (Or.inl (by simp [build, substrIndex_length, he]))
    by_cases h1 : gx < lowlen
    · rw [if_pos h1, List.getElem?_eq_getElem (by omega : gx < line.length)]
      simp only
      split
      · exact hgen hne
      · exact Or.inl rfl
    · rw [if_neg h1]; exact hgen hne

/-! ## completeness -/

theorem scan_complete {l : List KW} {wi : List Nat} {n i : Nat} {ki : KW} (hi : 0 < i) (hin : i ≤ n)
    (hn : n < l.length)
    (hki : l[i]? = some ki) (hlt : ki.word.length < wi.length) (hpre : ki.word <+: wi)
    (hhead : ∀ (j : Nat) (kj : KW), i ≤ j → j ≤ n → l[j]? = some kj → kj.word.head? = wi.head?) :
    ∃ j, scan l wi n = some j ∧ i ≤ j := by
  induction n with
  | zero => omega
  | succ n ih =>
    rw [scan]
    have : l[n + 1]? = some l[n + 1] := List.getElem?_eq_getElem hn
    rw [this]
    simp only
    rw [if_neg (by simp; exact hhead (n + 1) _ hin (by omega) this)]
    by_cases hc : (l[n + 1]).word.length < wi.length ∧ cmp (wi.take (l[n + 1]).word.length) (l[n + 1]).word = 0
    · rw [if_pos hc]; exact ⟨n + 1, rfl, by omega⟩
    · rw [if_neg hc]
      have hne : i ≠ n + 1 := by
        rintro rfl
        rw [this] at hki
        cases hki
        exact hc ⟨hlt, cmp_eq_zero.2 (List.prefix_iff_eq_take.1 hpre).symm⟩
      exact ih (by omega) (by omega) (fun j kj a b c => hhead j kj a (by omega) c)

theorem incr_lt {l : List KW} (h : l.Pairwise fun a b => cmp a.word b.word = -1) {i j : Nat} {ki kj : KW}
    (hij : i < j) (hi : l[i]? = some ki) (hj : l[j]? = some kj) : cmp ki.word kj.word = -1 := by
  rw [List.pairwise_iff_getElem] at h
  obtain ⟨hi1, hi2⟩ := List.getElem?_eq_some_iff.1 hi
  obtain ⟨hj1, hj2⟩ := List.getElem?_eq_some_iff.1 hj
  have := h i j hi1 hj1 hij
  rw [hi2, hj2] at this
  exact this

theorem loop_complete {env : Env} {l : List KW} {line : List Nat} {gx lowlen : Nat} (hS : Sorted l)
    (hfold : env.fold = id)
    (hgx : gx ≤ lowlen) (hlen : lowlen ≤ line.length) (i : Nat) (ki : KW) (hi0 : i ≠ 0) (hki : l[i]? = some ki)
    (hacc : Accept env ki line gx lowlen)
    (avail : List Nat) (havail : (line.drop gx).take (lowlen - gx) = avail)
    (fuel left right : Nat) (h1 : left < right) (h2 : right ≤ l.length) (hf : right + (right - left - 1) ≤ fuel)
    (hil : i < right)
    (hleft : left = 0 ∨ ∃ k, l[left]? = some k ∧ Le k.word avail)
    (hright : (right - left ≠ 1 → ∀ (j : Nat) (k : KW), right ≤ j → l[j]? = some k → ¬ Le k.word avail))
    (hmax : ∀ (j : Nat) (k : KW), right ≤ j → l[j]? = some k → ¬ Accept env k line gx lowlen) :
    ∃ j k, loop env (substrIndex l) line gx lowlen fuel left right = .matched j k.word.length ∧ l[j]? = some k ∧
      Accept env k line gx lowlen ∧ ∀ (j' : Nat) (k' : KW), j < j' → l[j']? = some k' → ¬ Accept env k' line gx lowlen := by
  have hacc_le : ∀ k : KW, Accept env k line gx lowlen → k.word <+: avail := by
    intro k hk
    have := (occurs_iff (fold := env.fold) hgx hlen).1 hk.1
    rw [hfold, havail] at this
    simpa using this
  induction fuel generalizing left right with
  | zero => omega
  | succ fuel ih =>
    have hl := substrIndex_length l
    have hpos : left + (right - left) / 2 < (substrIndex l).length := by omega
    rw [loop]
    simp only [List.getElem?_eq_getElem hpos]
    generalize hk : (substrIndex l)[left + (right - left) / 2] = k
    have hget : (substrIndex l)[left + (right - left) / 2]? = some k := by rw [List.getElem?_eq_getElem hpos, hk]
    obtain ⟨k0, g1, g2, g3, g4, g5⟩ := substrIndex_get hget
    have hfr := hS.fresh k0 (List.mem_of_getElem? g1)
    rw [kw_cmp hgx hlen]
    have hmapid : ∀ w : List Nat, w.map env.fold = w := by intro w; rw [hfold]; simp
    simp only [hmapid, havail]
    by_cases h3 : right - left = 1
    · -- a single candidate
      have hpe : left + (right - left) / 2 = left := by omega
      rw [hpe] at g1 g5 hget ⊢
      have hre : right = left + 1 := by omega
      by_cases hck : Accept env k0 line gx lowlen
      · have hp := hacc_le k0 hck
        have hc0 : cmp k.word (List.take k.word.length avail) = 0 := by rw [g2]; exact cmp_take_zero.2 hp
        rw [if_pos ⟨hc0, h3⟩]
        have hkl : (if lowlen < gx + k.word.length then lowlen - gx else k.word.length) = k.word.length := by
          rw [if_neg (by have := hck.1.1; rw [g2]; omega)]
        rw [hkl]
        obtain ⟨b, hb1, hb2⟩ := boundOk_spec (env := env) (n := k.word.length) (sym := k.sym) hlen (by omega : gx ≤ line.length)
        rw [hb1]
        have hbt : b = true := hb2.2 (by rw [g4, g2]; exact hck.2)
        rw [hbt]
        refine ⟨left, k0, by simp [g2], g1, hck, ?_⟩
        intro j' k' hj' hk'
        exact hmax j' k' (by omega) hk'
      · -- go down the chain
        have hne : i ≠ left := by
          rintro rfl
          rw [hki] at g1
          cases g1
          exact hck hacc
        have hilt : i < left := by omega
        have hprei := hacc_le ki hacc
        have hleft' : ∃ k, l[left]? = some k ∧ Le k.word avail := by
          rcases hleft with h | h
          · omega
          · exact h
        obtain ⟨k1, hk1, hle⟩ := hleft'
        rw [g1] at hk1
        cases hk1
        have hlt := incr_lt hS.incr hilt hki g1
        have hpre : ki.word <+: k0.word := prefix_sandwich hprei (by rw [Le, hlt]; decide) hle
        have hlen2 : ki.word.length < k0.word.length := by
          have hle := hpre.length_le
          rcases Nat.lt_or_ge ki.word.length k0.word.length with h | h
          · exact h
          · have := hpre.eq_of_length (by omega)
            rw [this, cmp_eq_zero.2 rfl] at hlt
            simp at hlt
        have hheads : ∀ (j : Nat) (kj : KW), i ≤ j → j ≤ left - 1 → l[j]? = some kj → kj.word.head? = k0.word.head? := by
          intro j kj hj1 hj2 hkj
          have hne' := hS.nonempty ki (List.mem_of_getElem? hki)
          have hh : ∀ w, ki.word <+: w → w.head? = ki.word.head? := by
            intro w hw
            obtain ⟨r, rfl⟩ := hw
            cases hw2 : ki.word with
            | nil => exact absurd hw2 hne'
            | cons a b => simp
          rw [hh k0.word hpre]
          by_cases hij : i = j
          · subst hij; rw [hki] at hkj; cases hkj; rfl
          · have hl1 := incr_lt hS.incr (show i < j by omega) hki hkj
            have hl2 := incr_lt hS.incr (show j < left by omega) hkj g1
            have : ki.word <+: kj.word := prefix_sandwich hpre (by rw [Le, hl1]; decide) (by rw [Le, hl2]; decide)
            exact hh kj.word this
        obtain ⟨s, hs1, hs2⟩ := scan_complete (Nat.pos_of_ne_zero hi0) (by omega : i ≤ left - 1)
          (by omega : left - 1 < l.length) hki hlen2 hpre hheads
        have hsl := scan_spec hs1
        have hsh : k.shorter = some s := by
          rw [g5, if_neg (by omega), hs1]; rfl
        have hrec : ∃ j k, loop env (substrIndex l) line gx lowlen fuel s (s + 1) = .matched j k.word.length ∧ l[j]? = some k ∧
            Accept env k line gx lowlen ∧ ∀ (j' : Nat) (k' : KW), j < j' → l[j']? = some k' → ¬ Accept env k' line gx lowlen := by
          obtain ⟨_, hs3, ks, hks1, hks2, hks3⟩ := hsl
          refine ih s (s + 1) (by omega) (by omega) (by omega) (by omega) ?_ (fun h => absurd (by omega) h) ?_
          · refine Or.inr ⟨ks, hks1, ?_⟩
            have := incr_lt hS.incr (show s < left by omega) hks1 g1
            exact Le.trans (by rw [Le, this]; decide) hle
          · -- nothing acceptable strictly between s and left
            intro j kj hj hkj hac
            by_cases hj2 : right ≤ j
            · exact hmax j kj hj2 hkj hac
            · by_cases hj3 : j = left
              · subst hj3; rw [g1] at hkj; cases hkj; exact hck hac
              · have hjlt : j < left := by omega
                have hpj := hacc_le kj hac
                have hl2 := incr_lt hS.incr hjlt hkj g1
                have hprej : kj.word <+: k0.word := prefix_sandwich hpj (by rw [Le, hl2]; decide) hle
                have hlenj : kj.word.length < k0.word.length := by
                  have hle := hprej.length_le
                  rcases Nat.lt_or_ge kj.word.length k0.word.length with h | h
                  · exact h
                  · have := hprej.eq_of_length (by omega)
                    rw [this, cmp_eq_zero.2 rfl] at hl2
                    simp at hl2
                obtain ⟨s', hs1', hs2'⟩ := scan_complete (by omega : 0 < j) (by omega : j ≤ left - 1)
                  (by omega : left - 1 < l.length) hkj hlenj hprej
                  (fun j' kj' a b c => hheads j' kj' (by omega) b c)
                rw [hs1] at hs1'
                cases hs1'
                omega
        by_cases hc0 : cmp k.word (List.take k.word.length avail) = 0 ∧ right - left = 1
        · rw [if_pos hc0]
          have hp : k0.word <+: avail := by rw [← g2]; exact cmp_take_zero.1 hc0.1
          have hocc : Occurs env.fold k0.word line gx lowlen := by
            rw [occurs_iff hgx hlen, hmapid, hmapid, havail]; exact hp
          have hkl : (if lowlen < gx + k.word.length then lowlen - gx else k.word.length) = k.word.length := by
            rw [if_neg (by have := hocc.1; rw [g2]; omega)]
          rw [hkl]
          obtain ⟨b, hb1, hb2⟩ := boundOk_spec (env := env) (n := k.word.length) (sym := k.sym) hlen (by omega : gx ≤ line.length)
          rw [hb1]
          cases b with
          | true => exact absurd ⟨hocc, by have := hb2.1 rfl; rw [g4, g2] at this; exact this⟩ hck
          | false =>
            simp only [if_pos h3, hsh]; exact hrec
        · simp only [if_neg hc0, if_pos h3, hsh]; exact hrec
    · -- binary search step
      rw [if_neg (by simp [h3])]
      rw [if_neg h3]
      have hct : cmp k.word (List.take k.word.length avail) = 1 ↔ cmp k.word avail = 1 := cmp_take _ _
      by_cases h4 : cmp k.word (List.take k.word.length avail) = 1
      · rw [if_pos h4]
        have hgt : ∀ (j : Nat) (k' : KW), left + (right - left) / 2 ≤ j → l[j]? = some k' → ¬ Le k'.word avail := by
          intro j k' hj hk' hle
          have hk0 : cmp k0.word avail = 1 := by rw [← g2]; exact hct.1 h4
          by_cases hje : j = left + (right - left) / 2
          · subst hje; rw [g1] at hk'; cases hk'; exact hle hk0
          · have := incr_lt hS.incr (show left + (right - left) / 2 < j by omega) g1 hk'
            exact Le.trans (by rw [Le, this]; decide) hle hk0
        refine ih left _ (by omega) (by omega) (by omega) ?_ hleft (fun _ => hgt) ?_
        · rcases Nat.lt_or_ge i (left + (right - left) / 2) with h | h
          · exact h
          · exact absurd (Le.of_prefix (hacc_le ki hacc)) (hgt i ki h hki)
        · intro j k' hj hk' hac
          exact hgt j k' hj hk' (Le.of_prefix (hacc_le k' hac))
      · rw [if_neg h4]
        have q1 : left + (right - left) / 2 < right := by clear hleft hright hmax; omega
        have q2 : right + (right - (left + (right - left) / 2) - 1) ≤ fuel := by clear hleft hright hmax; omega
        refine ih _ right q1 h2 q2 hil ?_ (fun _ => hright h3) hmax
        exact Or.inr ⟨k0, g1, by rw [← g2]; exact fun h => h4 (hct.2 h)⟩

theorem foldl_min_le (l : List KW) (m : Nat) :
    l.foldl (fun m k => min m k.word.length) m ≤ m ∧ ∀ k ∈ l, l.foldl (fun m k => min m k.word.length) m ≤ k.word.length := by
  induction l generalizing m with
  | nil => simp
  | cons a r ih =>
    simp only [List.foldl_cons]
    obtain ⟨h1, h2⟩ := ih (min m a.word.length)
    refine ⟨by omega, ?_⟩
    intro k hk
    rcases List.mem_cons.1 hk with rfl | hk
    · omega
    · exact h2 k hk

/-- **C09 (partial)** Case sensitive lists without repeated keywords. If an acceptable keyword other than the very first
(smallest) of the list stands at the position, the search reports the longest acceptable keyword.
Missing from the full claim: the smallest keyword of the list (see `C09_violated_first_keyword`) and lists that
ignore case (see `C09_violated_ignore_case`). -/
theorem C09_longest_keyword_found_partial (env : Env) (lower upper title : Nat → Nat) (sorted : List KW)
    (hS : Sorted sorted) (hfold : env.fold = id) (line : List Nat) (gx lowlen : Nat)
    (hgx : gx ≤ lowlen) (hlen : lowlen ≤ line.length)
    (i : Nat) (ki : KW) (hi0 : i ≠ 0) (hki : sorted[i]? = some ki) (hacc : Accept env ki line gx lowlen) :
    ∃ j k, search env (build true lower upper title sorted) line gx lowlen = .matched j k.word.length ∧
      sorted[j]? = some k ∧ Accept env k line gx lowlen ∧
      ∀ k' ∈ sorted, Accept env k' line gx lowlen → k'.word.length ≤ k.word.length := by
  have hl := substrIndex_length sorted
  have hil : i < sorted.length := (List.getElem?_eq_some_iff.1 hki).1
  obtain ⟨j, k, e1, e2, e3, e4⟩ := loop_complete hS hfold hgx hlen i ki hi0 hki hacc _ rfl
    (2 * (substrIndex sorted).length + 1) 0 (substrIndex sorted).length (by omega) (by omega) (by omega) (by omega)
    (Or.inl rfl)
    (by intro _ j k hj hk; have := (List.getElem?_eq_some_iff.1 hk).1; omega)
    (by intro j k hj hk; have := (List.getElem?_eq_some_iff.1 hk).1; omega)
  refine ⟨j, k, ?_, e2, e3, ?_⟩
  · unfold search
    have hmem := List.mem_of_getElem? hki
    have hne := hS.nonempty ki hmem
    have hlen1 : 0 < ki.word.length := List.length_pos_iff.2 hne
    have hmin : (build true lower upper title sorted).minLen ≤ ki.word.length :=
      (foldl_min_le sorted 2147483647).2 ki hmem
    rw [if_neg]
    · have hlt : gx < lowlen := by have := hacc.1.1; omega
      rw [if_pos hlt, List.getElem?_eq_getElem (by omega : gx < line.length)]
      simp only
      rw [if_pos]
      · exact e1
      · -- the first character filter
        simp only [build, List.any_eq_true]
        refine ⟨ki, hmem, ?_⟩
        cases hw : ki.word with
        | nil => exact absurd hw hne
        | cons a w =>
          have hocc := hacc.1.2
          rw [hfold, hw] at hocc
          simp only [List.map_id_fun, id] at hocc
          have : line.drop gx = line[gx] :: line.drop (gx + 1) := List.drop_eq_getElem_cons (by omega)
          rw [this, List.length_cons, List.take_succ_cons] at hocc
          have := (List.cons.inj hocc).1
          simp [this]
    · have := hacc.1.1
      simp only [build] at hmin ⊢
      rw [hl]
      omega
  · intro k' hk' hac
    obtain ⟨j', hj', hjk⟩ := List.getElem_of_mem hk'
    have hk'' : sorted[j']? = some k' := by rw [List.getElem?_eq_getElem hj', hjk]
    have hpre : ∀ q : KW, Accept env q line gx lowlen → q.word = (line.drop gx).take q.word.length := by
      intro q hq
      have := hq.1.2
      rw [hfold] at this
      simpa using this.symm
    rcases Nat.lt_trichotomy j j' with h | h | h
    · exact absurd hac (e4 j' k' h hk'')
    · subst h; rw [e2] at hk''; cases hk''; omega
    · rcases Nat.lt_or_ge k.word.length k'.word.length with hlt | hge
      · -- a longer prefix would be greater
        have h1 := hpre k e3
        have h2 := hpre k' hac
        have hp : k.word <+: k'.word := by
          have h3 : k.word = k'.word.take k.word.length := by
            rw [h2, List.take_take]
            conv => lhs; rw [h1]
            congr 1
            omega
          rw [h3]
          exact List.take_prefix _ _
        have := incr_lt hS.incr h hk'' e2
        have hle := Le.of_prefix hp
        rw [Le, cmp_swap, this] at hle
        simp at hle
      · exact hge

/-! ## The full claim is false of the code -/

/-- symbols `+` (43) and `++a`; the smallest keyword of the list is never linked as "shorter" -/
def exFirst : List KW := [⟨[43], some 0, true, none⟩, ⟨[43, 43, 97], some 1, true, none⟩]
def exEnv : Env := { fold := id, alnum := fun c => (97 ≤ c && c ≤ 122) || (65 ≤ c && c ≤ 90), worddiv := none }

/-- **C09 is violated**: on the text `++b` the symbol `+` stands at column 0 but nothing is reported
(`KeywordList.cpp:47`, `ii != 0`). -/
theorem C09_violated_first_keyword :
    Sorted exFirst ∧ (∃ k ∈ exFirst, Accept exEnv k [43, 43, 98] 0 3) ∧
    search exEnv (build true id id id exFirst) [43, 43, 98] 0 3 = .nothing := by
  refine ⟨⟨by decide, by decide, by decide⟩, ⟨⟨[43], some 0, true, none⟩, by decide, ⟨⟨by decide, by decide⟩, Or.inl rfl⟩⟩, by decide +kernel⟩

def lowerEx (c : Nat) : Nat := if 65 ≤ c ∧ c ≤ 90 then c + 32 else c

/-- **C09 is violated for lists that ignore case**: symbols `0`, `ab`, `ABC` (sorted ignoring case) on the text `abd`:
`ab` stands there but is not found, because `substrIndex` compares case sensitively (KeywordList.cpp:48-53). -/
theorem C09_violated_ignore_case :
    let l : List KW := [⟨[48], none, true, none⟩, ⟨[97, 98], none, true, none⟩, ⟨[65, 66, 67], none, true, none⟩]
    let env : Env := { exEnv with fold := lowerEx }
    (l.Pairwise fun a b => cmp (a.word.map lowerEx) (b.word.map lowerEx) = -1) ∧
    (∃ k ∈ l.tail, Accept env k [97, 98, 100] 0 3) ∧
    search env (build false lowerEx (fun c => c - 32) id l) [97, 98, 100] 0 3 = .nothing := by
  refine ⟨by decide, ⟨⟨[97, 98], none, true, none⟩, by decide, ⟨⟨by decide, by decide⟩, Or.inl rfl⟩⟩, by decide +kernel⟩

/-! ## Concrete cases -/

/-- `if`, `int`, `interface`: hypotheses of C08 and C09 are met and the search finds `int` in ` int x` -/
def exKw : List KW := [⟨[105, 102], some 1, false, none⟩, ⟨[105, 110, 116], some 2, false, none⟩,
  ⟨[105, 110, 116, 101, 114], some 3, false, none⟩]
example : Sorted exKw := ⟨by decide, by decide, by decide⟩
example : search exEnv (build true id id id exKw) [32, 105, 110, 116, 32, 120] 1 6 = .matched 1 3 := by decide +kernel
example : search exEnv (build true id id id exKw) [105, 110, 116, 101, 120] 0 5 = .nothing := by decide +kernel
example : ∃ i k, i ≠ 0 ∧ exKw[i]? = some k ∧ Accept exEnv k [32, 105, 110, 116, 32, 120] 1 6 := by
  refine ⟨1, ⟨[105, 110, 116], some 2, false, none⟩, by decide, by decide, ⟨by decide, by decide⟩, Or.inr ⟨?_, ?_⟩⟩
  · intro c _ hc; simp at hc; subst hc; exact ⟨by decide, by decide⟩
  · intro c _ hc; simp at hc; subst hc; exact ⟨by decide, by decide⟩

end Verif.Keywords
