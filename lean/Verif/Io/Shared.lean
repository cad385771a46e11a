import Verif.Io.Model

/-!
# Shared sources live as long as they are used (C27)

The specification is on the sources a program has: `users g p` is the number of its sources for the archive `p`. A history is any list of
operations, each with the content of the files at that time.
-/
namespace Verif.Io
variable {B : Type}

/-- how many sources of the program are for the archive `p` -/
def users (g : Prog B) (p : Nat) : Nat := g.srcs.countP (·.1 = p)

/-- the buffer object of the archive `p` exists -/
def InMemory (g : Prog B) (p : Nat) (o : Shared B) : Prop := o.path = p ∧ ∃ i : Nat, g.pool.objs[i]? = some (some o)

/-- the history never lets the XML reader read an archive -/
def NoRead (h : List (SOp × (Nat → Option B))) : Prop := ∀ x ∈ h, ∀ k, x.1 ≠ .read k

/-! ## The invariant -/

def Pool.entries (s : Pool B) : List (Nat × Nat) := s.hash.getD []

/-- the pool, with `c i` references to object `i` -/
structure PInv (s : Pool B) (c : Nat → Nat) : Prop where
  ne   : s.hash ≠ some []
  uniq : ∀ p i j, (p, i) ∈ s.entries → (p, j) ∈ s.entries → i = j
  obj  : ∀ p i, (p, i) ∈ s.entries → ∃ o, s.objs[i]? = some (some o) ∧ o.path = p ∧ o.ref = c i ∧ 0 < c i
  all  : ∀ i o, s.objs[i]? = some (some o) → (o.path, i) ∈ s.entries
  fresh : ∀ i, s.objs.length ≤ i → c i = 0

theorem find_none {h : List (Nat × Nat)} {p : Nat} (hf : find h p = none) : ∀ i, (p, i) ∉ h := by
  intro i hm
  simp only [find, Option.map_eq_none_iff, List.find?_eq_none] at hf
  have := hf _ hm
  simp at this

theorem find_some {h : List (Nat × Nat)} {p i : Nat} (hf : find h p = some i) : (p, i) ∈ h := by
  simp only [find, Option.map_eq_some_iff] at hf
  obtain ⟨⟨q, j⟩, h1, rfl⟩ := hf
  have := List.find?_some h1
  simp only [decide_eq_true_eq] at this
  subst this
  exact List.mem_of_find?_eq_some h1

/-- one more reference to `i` -/
def up (c : Nat → Nat) (i : Nat) : Nat → Nat := fun j => if j = i then c j + 1 else c j
def down (c : Nat → Nat) (i : Nat) : Nat → Nat := fun j => if j = i then c j - 1 else c j

theorem set_get {l : List (Option (Shared B))} {i j : Nat} {v x : Option (Shared B)} (h : (l.set i v)[j]? = some x) :
    (i = j ∧ x = v ∧ i < l.length) ∨ (i ≠ j ∧ l[j]? = some x) := by
  rw [List.getElem?_set] at h
  split at h
  · rename_i e
    split at h
    · simp at h; exact .inl ⟨e, h.symm, by omega⟩
    · cases h
  · rename_i e; exact .inr ⟨e, h⟩

theorem in_range {l : List (Option (Shared B))} {i : Nat} {x} (h : l[i]? = some x) : i < l.length := (List.getElem?_eq_some_iff.1 h).1

theorem get_spec {s : Pool B} {c : Nat → Nat} (hi : PInv s c) (p : Nat) :
    ∃ s' i, s.get p = some (s', i) ∧ PInv s' (up c i) ∧ (p, i) ∈ s'.entries ∧ (∀ x ∈ s.entries, x ∈ s'.entries) ∧
      (∀ (j : Nat) (o : Shared B), s.objs[j]? = some (some o) → ∃ o' : Shared B, s'.objs[j]? = some (some o') ∧ o'.path = o.path ∧ o'.src = o.src) := by
  have he : s.get p = (match find s.entries p with
    | some i => match s.objs[i]? with
      | some (some o) => some (⟨s.objs.set i (some { o with ref := o.ref + 1 }), some s.entries⟩, i)
      | _ => none
    | none => some (⟨s.objs ++ [some ⟨p, 1, none⟩], some ((p, s.objs.length) :: s.entries)⟩, s.objs.length)) := rfl
  rw [he]
  cases hf : find s.entries p with
  | some i =>
    have hm := find_some hf
    obtain ⟨o, ho, hp, hr, hc⟩ := hi.obj _ _ hm
    simp only [ho]
    refine ⟨_, _, rfl, ⟨?_, ?_, ?_, ?_, ?_⟩, hm, fun x hx => hx, ?_⟩
    · intro h
      simp only [Option.some.injEq] at h
      rw [h] at hm; cases hm
    · exact fun p i j a b => hi.uniq p i j a b
    · intro q j hq
      obtain ⟨o2, h1, h2, h3, h4⟩ := hi.obj q j hq
      by_cases hj : i = j
      · subst hj
        rw [ho] at h1; cases h1
        refine ⟨{ o with ref := o.ref + 1 }, ?_, h2, ?_, ?_⟩
        · rw [List.getElem?_set_self (in_range ho)]
        · show o.ref + 1 = ((up c i i : Nat) : Int)
          simp only [up, if_true]; omega
        · simp only [up, if_true]; omega
      · refine ⟨o2, by rw [List.getElem?_set_ne hj]; exact h1, h2, ?_, ?_⟩
        · rw [h3]; simp only [up, if_neg (Ne.symm hj)]
        · simp only [up, if_neg (Ne.symm hj)]; exact h4
    · intro j o2 h
      rcases set_get h with ⟨rfl, h, -⟩ | ⟨-, h⟩
      · cases h; show (o.path, i) ∈ s.entries; rw [hp]; exact hm
      · exact hi.all _ _ h
    · intro j hj
      simp only [List.length_set] at hj
      have := in_range ho
      simp only [up, if_neg (by omega : ¬ j = i)]
      exact hi.fresh j hj
    · intro j o2 h
      by_cases hj : i = j
      · subst hj
        rw [ho] at h; cases h
        exact ⟨_, List.getElem?_set_self (in_range ho), rfl, rfl⟩
      · exact ⟨o2, by rw [List.getElem?_set_ne hj]; exact h, rfl, rfl⟩
  | none =>
    have hn := find_none hf
    refine ⟨_, _, rfl, ⟨?_, ?_, ?_, ?_, ?_⟩, ?_, ?_, ?_⟩
    · simp
    · intro q i j a b
      simp only [Pool.entries, Option.getD_some, List.mem_cons, Prod.mk.injEq] at a b
      rcases a with ⟨e1, e2⟩ | a <;> rcases b with ⟨e3, e4⟩ | b
      · rw [e2, e4]
      · rw [e1] at b; exact absurd b (hn _)
      · rw [e3] at a; exact absurd a (hn _)
      · exact hi.uniq _ _ _ a b
    · intro q j hq
      simp only [Pool.entries, Option.getD_some, List.mem_cons, Prod.mk.injEq] at hq
      rcases hq with ⟨rfl, rfl⟩ | hq
      · refine ⟨⟨q, 1, none⟩, by simp, rfl, ?_, ?_⟩
        · have := hi.fresh s.objs.length (Nat.le_refl _)
          simp [up, this]
        · simp [up]
      · obtain ⟨o2, h1, h2, h3, h4⟩ := hi.obj q j hq
        have hl := in_range h1
        refine ⟨o2, by rw [List.getElem?_append_left hl]; exact h1, h2, ?_, ?_⟩
        · rw [h3]; simp only [up, if_neg (by omega : ¬ j = s.objs.length)]
        · simp only [up, if_neg (by omega : ¬ j = s.objs.length)]; exact h4
    · intro j o h
      show (o.path, j) ∈ (p, s.objs.length) :: s.entries
      by_cases hj : j < s.objs.length
      · rw [List.getElem?_append_left hj] at h
        exact List.mem_cons_of_mem _ (hi.all _ _ h)
      · have hl := in_range h
        simp only [List.length_append, List.length_cons, List.length_nil] at hl
        obtain rfl : j = s.objs.length := by omega
        simp at h
        subst h
        simp
    · intro j hj
      simp only [List.length_append, List.length_cons, List.length_nil] at hj
      simp only [up, if_neg (by omega : ¬ j = s.objs.length)]
      exact hi.fresh j (by omega)
    · simp [Pool.entries]
    · intro x hx; simp only [Pool.entries, Option.getD_some, List.mem_cons]; exact .inr hx
    · intro j o h
      exact ⟨o, by rw [List.getElem?_append_left (in_range h)]; exact h, rfl, rfl⟩

theorem entries_erase (h : List (Nat × Nat)) (p : Nat) (x : Nat × Nat) : x ∈ (eraseHash h p).getD [] ↔ x ∈ h ∧ x.1 ≠ p := by
  unfold eraseHash
  split
  · rename_i he
    simp only [List.isEmpty_iff, List.filter_eq_nil_iff] at he
    simp only [Option.getD_none, List.not_mem_nil, false_iff, not_and, Decidable.not_not]
    intro hx
    have := he x hx
    simpa using this
  · simp

theorem delref_spec {s : Pool B} {c : Nat → Nat} (hi : PInv s c) {p i : Nat} (hm : (p, i) ∈ s.entries) :
    ∃ s', s.delref i = some s' ∧ PInv s' (down c i) ∧ (∀ x ∈ s.entries, x.2 ≠ i ∨ 1 < c i → x ∈ s'.entries) ∧
      (∀ (j : Nat) (o : Shared B), s.objs[j]? = some (some o) → j ≠ i ∨ 1 < c i → ∃ o' : Shared B, s'.objs[j]? = some (some o') ∧ o'.path = o.path ∧ o'.src = o.src) := by
  obtain ⟨o, ho, hp, hr, hc⟩ := hi.obj _ _ hm
  unfold Pool.delref
  simp only [ho]
  by_cases h1 : o.ref - 1 ≤ 0
  · rw [if_pos h1]
    have hc1 : c i = 1 := by omega
    cases hh : s.hash with
    | none => simp [Pool.entries, hh] at hm
    | some h =>
      have he : s.entries = h := by simp [Pool.entries, hh]
      have key : ∀ x, x ∈ (⟨s.objs.set i none, eraseHash h o.path⟩ : Pool B).entries ↔ x ∈ s.entries ∧ x.1 ≠ o.path := by
        intro x; rw [he]; exact entries_erase h o.path x
      refine ⟨_, rfl, ⟨?_, ?_, ?_, ?_, ?_⟩, ?_, ?_⟩
      · simp only [eraseHash]
        split
        · simp
        · rename_i hne
          intro e
          simp only [Option.some.injEq] at e
          rw [e] at hne
          simp at hne
      · intro q a b ha hb
        rw [key] at ha hb
        exact hi.uniq _ _ _ ha.1 hb.1
      · intro q j hq
        rw [key] at hq
        obtain ⟨o2, e1, e2, e3, e4⟩ := hi.obj q j hq.1
        have hj : i ≠ j := by
          rintro rfl
          rw [ho] at e1; cases e1
          exact hq.2 e2.symm
        refine ⟨o2, by rw [List.getElem?_set_ne hj]; exact e1, e2, ?_, ?_⟩
        · rw [e3]; simp only [down, if_neg (Ne.symm hj)]
        · simp only [down, if_neg (Ne.symm hj)]; exact e4
      · intro j o2 h2
        rcases set_get h2 with ⟨-, h, -⟩ | ⟨hj, h⟩
        · cases h
        · rw [key]
          refine ⟨hi.all _ _ h, ?_⟩
          show o2.path ≠ o.path
          intro e
          have := hi.all _ _ h
          rw [e, hp] at this
          exact hj (hi.uniq _ _ _ hm this)
      · intro j hj
        simp only [List.length_set] at hj
        have := in_range ho
        simp only [down, if_neg (by omega : ¬ j = i)]
        exact hi.fresh j hj
      · intro x hx hne
        rw [key]
        refine ⟨hx, fun e => ?_⟩
        have hx' : (x.1, x.2) ∈ s.entries := hx
        rw [e, hp] at hx'
        rcases hne with hne | hne
        · exact hne (hi.uniq _ _ _ hx' hm)
        · omega
      · intro j o2 h2 hne
        have hj : i ≠ j := by rcases hne with h | h <;> omega
        exact ⟨o2, by rw [List.getElem?_set_ne hj]; exact h2, rfl, rfl⟩
  · rw [if_neg h1]
    refine ⟨_, rfl, ⟨hi.ne, fun p i j a b => hi.uniq p i j a b, ?_, ?_, ?_⟩, fun x hx _ => hx, ?_⟩
    · intro q j hq
      obtain ⟨o2, e1, e2, e3, e4⟩ := hi.obj q j hq
      by_cases hj : i = j
      · subst hj
        rw [ho] at e1; cases e1
        refine ⟨{ o with ref := o.ref - 1 }, List.getElem?_set_self (in_range ho), e2, ?_, ?_⟩
        · show o.ref - 1 = ((down c i i : Nat) : Int)
          simp only [down, if_true]; omega
        · simp only [down, if_true]; omega
      · refine ⟨o2, (by show (s.objs.set i _)[j]? = _; rw [List.getElem?_set_ne hj]; exact e1), e2, ?_, ?_⟩
        · rw [e3]; simp only [down, if_neg (Ne.symm hj)]
        · simp only [down, if_neg (Ne.symm hj)]; exact e4
    · intro j o2 h2
      rcases set_get h2 with ⟨rfl, h, -⟩ | ⟨-, h⟩
      · cases h; show (o.path, i) ∈ s.entries; rw [hp]; exact hm
      · exact hi.all _ _ h
    · intro j hj
      simp only [List.length_set] at hj
      have := in_range ho
      simp only [down, if_neg (by omega : ¬ j = i)]
      exact hi.fresh j hj
    · intro j o2 h2 _
      by_cases hj : i = j
      · subst hj
        rw [ho] at h2; cases h2
        exact ⟨_, List.getElem?_set_self (in_range ho), rfl, rfl⟩
      · exact ⟨o2, (by show (s.objs.set i _)[j]? = _; rw [List.getElem?_set_ne hj]; exact h2), rfl, rfl⟩

theorem open_spec {s : Pool B} {c : Nat → Nat} (hi : PInv s c) {p i : Nat} (hm : (p, i) ∈ s.entries) (file : Nat → Option B) :
    ∃ s' b, s.openIt file i = some (s', b) ∧ PInv s' c ∧ s'.entries = s.entries ∧
      (∀ (j : Nat) (o : Shared B), s.objs[j]? = some (some o) → ∃ o' : Shared B, s'.objs[j]? = some (some o') ∧ o'.path = o.path ∧ (∀ x, o.src = some x → o'.src = some x)) := by
  obtain ⟨o, ho, hp, hr, hc⟩ := hi.obj _ _ hm
  unfold Pool.openIt
  simp only [ho]
  cases hs : o.src with
  | some x => exact ⟨_, _, rfl, hi, rfl, fun j o2 h => ⟨o2, h, rfl, fun x h => h⟩⟩
  | none =>
    dsimp only
    cases hf : file o.path with
    | none => exact ⟨_, _, rfl, hi, rfl, fun j o2 h => ⟨o2, h, rfl, fun x h => h⟩⟩
    | some b =>
      refine ⟨_, _, rfl, ⟨hi.ne, fun p i j a b => hi.uniq p i j a b, ?_, ?_, ?_⟩, rfl, ?_⟩
      · intro q j hq
        obtain ⟨o2, e1, e2, e3, e4⟩ := hi.obj q j hq
        by_cases hj : i = j
        · subst hj
          rw [ho] at e1; cases e1
          exact ⟨_, List.getElem?_set_self (in_range ho), e2, e3, e4⟩
        · exact ⟨o2, (by show (s.objs.set i _)[j]? = _; rw [List.getElem?_set_ne hj]; exact e1), e2, e3, e4⟩
      · intro j o2 h2
        rcases set_get h2 with ⟨rfl, h, -⟩ | ⟨-, h⟩
        · cases h; show (o.path, i) ∈ s.entries; rw [hp]; exact hm
        · exact hi.all _ _ h
      · intro j hj
        simp only [List.length_set] at hj
        exact hi.fresh j hj
      · intro j o2 h2
        by_cases hj : i = j
        · subst hj
          rw [ho] at h2; cases h2
          exact ⟨_, List.getElem?_set_self (in_range ho), rfl, fun x hx => by rw [hs] at hx; cases hx⟩
        · exact ⟨o2, (by show (s.objs.set i _)[j]? = _; rw [List.getElem?_set_ne hj]; exact h2), rfl, fun x h => h⟩

/-- a program: its sources hold one reference each, `k i` references to object `i` were never given back -/
structure GInv (g : Prog B) (k : Nat → Nat) : Prop where
  pool : PInv g.pool (fun i => g.srcs.countP (·.2 = i) + k i)
  srcs : ∀ x ∈ g.srcs, x ∈ g.pool.entries

theorem start_inv : GInv (Prog.start : Prog B) (fun _ => 0) where
  pool := { ne := by simp [Prog.start, Pool.empty], uniq := by simp [Prog.start, Pool.empty, Pool.entries],
            obj := by simp [Prog.start, Pool.empty, Pool.entries], all := by simp [Prog.start, Pool.empty],
            fresh := by simp [Prog.start, Pool.empty] }
  srcs := by simp [Prog.start]

theorem count_erase {l : List (Nat × Nat)} {k p i : Nat} (h : l[k]? = some (p, i)) (j : Nat) :
    (l.eraseIdx k).countP (·.2 = j) = l.countP (·.2 = j) - (if j = i then 1 else 0) ∧ 0 < l.countP (·.2 = i) := by
  induction l generalizing k with
  | nil => cases h
  | cons a r ih =>
    cases k with
    | zero =>
      simp at h; subst h
      simp only [List.eraseIdx_cons_zero, List.countP_cons]
      refine ⟨?_, ?_⟩
      · by_cases hj : j = i
        · subst hj; simp
        · simp [hj, Ne.symm hj]
      · simp
    | succ k =>
      simp at h
      obtain ⟨h1, h2⟩ := ih h
      simp only [List.eraseIdx_cons_succ, List.countP_cons, h1]
      refine ⟨?_, by omega⟩
      by_cases hj : j = i
      · subst hj; simp only [if_true]; omega
      · simp only [if_neg hj]; omega

theorem PInv.congr {s : Pool B} {c d : Nat → Nat} (h : PInv s c) (e : ∀ i, c i = d i) : PInv s d := by
  have : c = d := funext e
  rwa [← this]

/-- one operation: what it keeps -/
theorem step_spec {g : Prog B} {k : Nat → Nat} (hi : GInv g k) (file : Nat → Option B) (op : SOp) :
    ∃ g' k', g.step file op = some g' ∧ GInv g' k' ∧ (∀ i, k i ≤ k' i) ∧ ((∀ n, op ≠ .read n) → k' = k) ∧
      (∀ (p i : Nat) (o : Shared B), g.pool.objs[i]? = some (some o) → o.path = p → 0 < k i →
        ∃ o' : Shared B, g'.pool.objs[i]? = some (some o') ∧ o'.path = p ∧ ∀ x, o.src = some x → o'.src = some x) := by
  cases op with
  | new p =>
    obtain ⟨s', i, h1, h2, h3, h4, h5⟩ := get_spec hi.pool p
    refine ⟨⟨s', (p, i) :: g.srcs⟩, k, by simp [Prog.step, h1], ⟨?_, ?_⟩, fun i => Nat.le_refl _, fun _ => rfl, ?_⟩
    · refine h2.congr fun j => ?_
      show up (fun i => g.srcs.countP (·.2 = i) + k i) i j = ((p, i) :: g.srcs).countP (·.2 = j) + k j
      rw [List.countP_cons]
      by_cases hj : j = i
      · subst hj; simp [up]; omega
      · simp [up, hj, Ne.symm hj]
    · intro x hx
      rcases List.mem_cons.1 hx with rfl | hx
      · exact h3
      · exact h4 _ (hi.srcs _ hx)
    · rintro q j o ho rfl -
      obtain ⟨o', a, b, c⟩ := h5 _ _ ho
      exact ⟨o', a, b, fun x hx => by rw [c, hx]⟩
  | del n =>
    cases hn : g.srcs[n]? with
    | none => exact ⟨g, k, by simp [Prog.step, hn], hi, fun _ => Nat.le_refl _, fun _ => rfl, fun p i o ho hp _ => ⟨o, ho, hp, fun x h => h⟩⟩
    | some x =>
      obtain ⟨p, i⟩ := x
      have hm := hi.srcs _ (List.mem_of_getElem? hn)
      obtain ⟨s', h1, h2, h3, h4⟩ := delref_spec hi.pool hm
      have hce := count_erase hn
      refine ⟨⟨s', g.srcs.eraseIdx n⟩, k, by simp [Prog.step, hn, h1], ⟨?_, ?_⟩, fun _ => Nat.le_refl _, fun _ => rfl, ?_⟩
      · refine h2.congr fun j => ?_
        show down (fun i => g.srcs.countP (·.2 = i) + k i) i j = (g.srcs.eraseIdx n).countP (·.2 = j) + k j
        rw [(hce j).1]
        by_cases hj : j = i
        · subst hj; have := (hce j).2; simp only [down, if_true]; omega
        · simp [down, hj]
      · intro x hx
        refine h3 x (hi.srcs _ (List.mem_of_mem_eraseIdx hx)) ?_
        by_cases hx2 : x.2 = i
        · right
          have h := (hce i).1
          have : 0 < (g.srcs.eraseIdx n).countP (·.2 = i) := List.countP_pos_iff.2 ⟨x, hx, by simpa using hx2⟩
          simp only [if_true] at h
          omega
        · exact .inl hx2
      · rintro q j o ho rfl hk
        have : j ≠ i ∨ 1 < g.srcs.countP (·.2 = i) + k i := by
          by_cases hj : j = i
          · subst hj; right; have := (hce j).2; omega
          · exact .inl hj
        obtain ⟨o', a, b, c⟩ := h4 _ _ ho this
        exact ⟨o', a, b, fun x hx => by rw [c, hx]⟩
  | read n =>
    cases hn : g.srcs[n]? with
    | none => exact ⟨g, k, by simp [Prog.step, hn], hi, fun _ => Nat.le_refl _, fun _ => rfl, fun p i o ho hp _ => ⟨o, ho, hp, fun x h => h⟩⟩
    | some x =>
      obtain ⟨p, i0⟩ := x
      obtain ⟨s1, i, h1, h2, h3, h4, h5⟩ := get_spec hi.pool p
      obtain ⟨s2, b, e1, e2, e3, e4⟩ := open_spec h2 h3 file
      refine ⟨⟨s2, g.srcs⟩, up k i, by simp [Prog.step, hn, h1, e1], ⟨?_, ?_⟩, ?_, ?_, ?_⟩
      · refine e2.congr fun j => ?_
        show up (fun i => g.srcs.countP (·.2 = i) + k i) i j = g.srcs.countP (·.2 = j) + up k i j
        by_cases hj : j = i
        · subst hj; simp [up]; omega
        · simp [up, hj]
      · intro x hx; show x ∈ s2.entries; rw [e3]; exact h4 _ (hi.srcs _ hx)
      · intro j; simp only [up]; split <;> omega
      · intro h; exact absurd rfl (h n)
      · rintro q j o ho rfl -
        obtain ⟨o1, a, b, c⟩ := h5 _ _ ho
        obtain ⟨o2, a2, b2, c2⟩ := e4 _ _ a
        exact ⟨o2, a2, by rw [b2, b], fun x hx => c2 x (by rw [c, hx])⟩

theorem run_spec (h : List (SOp × (Nat → Option B))) : ∀ {g : Prog B} {k : Nat → Nat}, GInv g k →
    ∃ g' k', g.run h = some g' ∧ GInv g' k' ∧ (∀ i, k i ≤ k' i) ∧ (NoRead h → k' = k) ∧
      (∀ (p i : Nat) (o : Shared B), g.pool.objs[i]? = some (some o) → o.path = p → 0 < k i →
        ∃ o' : Shared B, g'.pool.objs[i]? = some (some o') ∧ o'.path = p ∧ ∀ x, o.src = some x → o'.src = some x) := by
  induction h with
  | nil => intro g k hi; exact ⟨g, k, rfl, hi, fun _ => Nat.le_refl _, fun _ => rfl, fun p i o ho hp _ => ⟨o, ho, hp, fun x h => h⟩⟩
  | cons x r ih =>
    obtain ⟨op, file⟩ := x
    intro g k hi
    obtain ⟨g1, k1, h1, h2, h3, h4, h5⟩ := step_spec hi file op
    obtain ⟨g2, k2, e1, e2, e3, e4, e5⟩ := ih h2
    refine ⟨g2, k2, by simp [Prog.run, h1, e1], e2, fun i => Nat.le_trans (h3 i) (e3 i), ?_, ?_⟩
    · intro hn
      rw [e4 (fun x hx => hn x (List.mem_cons_of_mem _ hx)), h4 (hn _ (List.mem_cons_self ..))]
    · intro p i o ho hp hk
      obtain ⟨o1, a, b, c⟩ := h5 p i o ho hp hk
      obtain ⟨o2, a2, b2, c2⟩ := e5 p i o1 a b (Nat.lt_of_lt_of_le hk (h3 i))
      exact ⟨o2, a2, b2, fun x hx => c2 x (c x hx)⟩

theorem run_append (h1 h2 : List (SOp × (Nat → Option B))) (g : Prog B) : g.run (h1 ++ h2) = (g.run h1).bind fun g => g.run h2 := by
  induction h1 generalizing g with
  | nil => rfl
  | cons x r ih =>
    obtain ⟨op, file⟩ := x
    simp only [List.cons_append, Prog.run]
    cases g.step file op with
    | none => rfl
    | some g' => exact ih g'

/-! ## The theorems -/

/-- C27. Opening a shared archive (any pool, any living object): it succeeds exactly if the archive was read before or its file can be read now; what it has read before stays,
otherwise it now holds the file of its path; a failure changes nothing. -/
theorem C27_open_reads_the_file (s : Pool B) (i : Nat) (o : Shared B) (ho : s.objs[i]? = some (some o)) (file : Nat → Option B) :
    ∃ s' b, s.openIt file i = some (s', b) ∧ (b = true ↔ o.src.isSome ∨ (file o.path).isSome) ∧ (b = false → s' = s) ∧
      s'.objs[i]? = some (some ⟨o.path, o.ref, if o.src.isSome then o.src else file o.path⟩) := by
  obtain ⟨p, r, src⟩ := o
  unfold Pool.openIt
  simp only [ho]
  cases src with
  | some x => exact ⟨s, true, rfl, by simp, by simp, by simpa using ho⟩
  | none =>
    dsimp only
    cases hf : file p with
    | none => exact ⟨s, false, rfl, by simp, by simp, by simpa using ho⟩
    | some b => exact ⟨_, true, rfl, by simp, by simp, by simpa using List.getElem?_set_self (in_range ho)⟩

/-- C27: in no history is a deleted buffer object touched; at every time every source the program has points to an existing object made
for its own archive, and two sources have the same object exactly if they are for the same archive. -/
theorem C27_safe (h : List (SOp × (Nat → Option B))) : ∃ g, (Prog.start : Prog B).run h = some g ∧
    (∀ p i, (p, i) ∈ g.srcs → ∃ o, g.pool.objs[i]? = some (some o) ∧ o.path = p) ∧
    (∀ p i q j, (p, i) ∈ g.srcs → (q, j) ∈ g.srcs → (p = q ↔ i = j)) ∧
    (∀ (i j : Nat) (o o' : Shared B), g.pool.objs[i]? = some (some o) → g.pool.objs[j]? = some (some o') → o.path = o'.path → i = j) := by
  obtain ⟨g, k, h1, h2, -, -, -⟩ := run_spec h (start_inv (B := B))
  have hobj : ∀ p i, (p, i) ∈ g.srcs → ∃ o, g.pool.objs[i]? = some (some o) ∧ o.path = p := by
    intro p i hx
    obtain ⟨o, a, b, -, -⟩ := h2.pool.obj _ _ (h2.srcs _ hx)
    exact ⟨o, a, b⟩
  refine ⟨g, h1, hobj, ?_, ?_⟩
  · intro p i q j a b
    constructor
    · rintro rfl; exact h2.pool.uniq _ _ _ (h2.srcs _ a) (h2.srcs _ b)
    · rintro rfl
      obtain ⟨o, e1, e2⟩ := hobj _ _ a
      obtain ⟨o', e1', e2'⟩ := hobj _ _ b
      rw [e1] at e1'; cases e1'
      rw [← e2, ← e2']
  · intro i j o o' a b e
    have ha := h2.pool.all _ _ a
    have hb := h2.pool.all _ _ b
    rw [e] at ha
    exact h2.pool.uniq _ _ _ ha hb

/-- C27, without the XML reader: a buffer object of an archive is in memory exactly if the program has a source for the archive, it counts
these sources, and the table is freed exactly if there are none. -/
theorem C27_exact_partial (h : List (SOp × (Nat → Option B))) (hn : NoRead h) : ∃ g, (Prog.start : Prog B).run h = some g ∧
    (∀ p, (∃ o, InMemory g p o) ↔ 0 < users g p) ∧ (∀ p o, InMemory g p o → o.ref = users g p) ∧ (g.pool.hash = none ↔ g.srcs = []) := by
  obtain ⟨g, k, h1, h2, -, h4, -⟩ := run_spec h (start_inv (B := B))
  have hk := h4 hn
  subst hk
  have count : ∀ p i, (p, i) ∈ g.pool.entries → g.srcs.countP (·.2 = i) = users g p := by
    intro p i hm
    unfold users
    apply List.countP_congr
    rintro ⟨q, j⟩ hx
    have hx' := h2.srcs _ hx
    simp only [decide_eq_true_eq]
    constructor
    · rintro rfl
      obtain ⟨o, e1, e2, -, -⟩ := h2.pool.obj _ _ hm
      obtain ⟨o', e1', e2', -, -⟩ := h2.pool.obj _ _ hx'
      rw [e1] at e1'; cases e1'
      rw [← e2, ← e2']
    · rintro rfl
      exact h2.pool.uniq _ _ _ hx' hm
  have href : ∀ p o, InMemory g p o → o.ref = users g p ∧ 0 < users g p := by
    rintro p o ⟨rfl, i, ho⟩
    have hm := h2.pool.all _ _ ho
    obtain ⟨o', e1, -, e3, e4⟩ := h2.pool.obj _ _ hm
    rw [ho] at e1; cases e1
    have hc := count _ _ hm
    rw [hc] at e3 e4
    exact ⟨by simpa using e3, by simpa using e4⟩
  refine ⟨g, h1, ?_, fun p o ho => (href p o ho).1, ?_⟩
  · intro p
    constructor
    · rintro ⟨o, ho⟩; exact (href p o ho).2
    · intro hp
      obtain ⟨⟨q, i⟩, hx, e⟩ := List.countP_pos_iff.1 hp
      simp only [decide_eq_true_eq] at e
      subst e
      obtain ⟨o, e1, e2, -, -⟩ := h2.pool.obj _ _ (h2.srcs _ hx)
      exact ⟨o, e2, i, e1⟩
  · constructor
    · intro hh
      cases hs : g.srcs with
      | nil => rfl
      | cons x r =>
        have := h2.srcs x (by rw [hs]; simp)
        simp [Pool.entries, hh] at this
    · intro hs
      cases hh : g.pool.hash with
      | none => rfl
      | some l =>
        cases l with
        | nil => exact absurd hh h2.pool.ne
        | cons x r =>
          have hm : (x.1, x.2) ∈ g.pool.entries := by simp [Pool.entries, hh]
          obtain ⟨o, -, -, -, e4⟩ := h2.pool.obj _ _ hm
          simp [hs] at e4

/-- C27 fails as soon as an archive was read: its buffer object then stays in memory for ever, whatever the program does later (also when it
has destroyed all its sources), and once the content was loaded it stays the content, whatever is in the file. -/
theorem C27_violated_read_keeps (h1 h2 : List (SOp × (Nat → Option B))) (k p i : Nat) (file : Nat → Option B) (g : Prog B)
    (hg : (Prog.start : Prog B).run h1 = some g) (hs : g.srcs[k]? = some (p, i)) :
    ∃ g1 g2, (Prog.start : Prog B).run (h1 ++ [(.read k, file)]) = some g1 ∧
      (Prog.start : Prog B).run (h1 ++ (.read k, file) :: h2) = some g2 ∧
      ∃ o1 o2, InMemory g1 p o1 ∧ InMemory g2 p o2 ∧ ∀ b, o1.src = some b → o2.src = some b := by
  obtain ⟨g0, k0, e1, e2, -, -, -⟩ := run_spec h1 (start_inv (B := B))
  rw [hg] at e1; cases e1
  obtain ⟨s1, j, a1, a2, a3, a4, a5⟩ := get_spec e2.pool p
  obtain ⟨s2, b, b1, b2, b3, b4⟩ := open_spec a2 a3 file
  have hstep : g.step file (.read k) = some ⟨s2, g.srcs⟩ := by simp [Prog.step, hs, a1, b1]
  have hinv : GInv (⟨s2, g.srcs⟩ : Prog B) (up k0 j) := by
    refine ⟨b2.congr fun l => ?_, fun x hx => ?_⟩
    · show up (fun i => g.srcs.countP (·.2 = i) + k0 i) j l = g.srcs.countP (·.2 = l) + up k0 j l
      by_cases hj : l = j
      · subst hj; simp [up]; omega
      · simp [up, hj]
    · show x ∈ s2.entries; rw [b3]; exact a4 _ (e2.srcs _ hx)
  obtain ⟨o1, c1, c2, -, -⟩ := b2.obj p j (by rw [b3]; exact a3)
  obtain ⟨g2, k2, d1, -, -, -, d5⟩ := run_spec h2 hinv
  obtain ⟨o2, f1, f2, f3⟩ := d5 p j o1 c1 c2 (by simp [up])
  refine ⟨⟨s2, g.srcs⟩, g2, ?_, ?_, o1, o2, ⟨c2, j, c1⟩, ⟨f2, j, f1⟩, f3⟩
  · rw [run_append, hg]; simp [Prog.run, hstep]
  · rw [run_append, hg]; simp [Prog.run, hstep, d1]

/-- the violation, concretely: a program makes a source, reads it, destroys it: it has no source, the buffer is still there with one
reference, and a new source for the archive is read as it was, not as the file is now -/
theorem C27_violated_stale : (do
    let g ← (Prog.start : Prog Nat).run [(.new 7, fun _ => some 1), (.read 0, fun _ => some 1), (.del 0, fun _ => some 1)]
    let g' ← g.run [(.new 7, fun _ => some 2), (.read 0, fun _ => some 2)]
    pure (g.srcs, g.pool.objs.map (·.map fun o => (o.ref, o.src)), g'.pool.objs.map (·.map fun o => (o.ref, o.src)))) =
    some ([], [some (1, some 1)], [some (3, some 1)]) := rfl

/-- the hypotheses are met: two archives, three sources, one destroyed -/
example : NoRead ([(.new 7, fun _ => none), (.new 8, fun _ => none), (.new 7, fun _ => none), (.del 1, fun _ => none)] : List (SOp × (Nat → Option Nat))) ∧
    ((Prog.start : Prog Nat).run [(.new 7, fun _ => none), (.new 8, fun _ => none), (.new 7, fun _ => none), (.del 1, fun _ => none)]).map
      (fun g => (g.srcs, g.pool.objs.map (·.map fun o => (o.path, o.ref)), g.pool.hash)) =
    some ([(7, 0), (7, 0)], [some (7, 2), none], some [(7, 0)]) := by
  refine ⟨?_, rfl⟩
  intro x hx k
  simp at hx
  rcases hx with rfl | rfl | rfl | rfl <;> simp

end Verif.Io
