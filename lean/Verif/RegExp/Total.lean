import Verif.RegExp.Compile
import Mathlib.Data.List.TakeDrop

/-!
# Compiling always ends, and stays inside the tables (C55)
-/
namespace Verif.RegExp

attribute [local irreducible] getHex

/-! ## The rest of the text gets shorter -/

/-- what a round of the class loop leaves is not longer than what it found -/
theorem clsStep_len (x : Ctx) (ic : Bool) (s : Cls) (prev c : Nat) (r : Text) :
    (∀ rest, clsStep x ic s prev c r = .stop rest → rest.length ≤ r.length) ∧
    (∀ s' p rest, clsStep x ic s prev c r = .next s' p rest → rest.length ≤ r.length) ∧
    (∀ g ic' rest, clsStep x ic s prev c r = .inner g ic' rest → rest.length ≤ r.length + 1 ∧ 0 < rest.length) := by
  unfold clsStep
  refine ⟨?_, ?_, ?_⟩
  · intro rest h
    repeat' (first | split at h | (dsimp only at h; split at h))
    all_goals first
      | cases h; done
      | (cases h; omega)
  · intro s' p rest h
    repeat' (first | split at h | (dsimp only at h; split at h))
    all_goals first
      | cases h; done
      | (cases h; simp only [List.length_drop]; omega)
      | (cases h; omega)
  · intro g ic' rest h
    repeat' (first | split at h | (dsimp only at h; split at h))
    all_goals first
      | cases h; done
      | (cases h; simp only [List.length_cons]; omega)
      | (cases h; rename_i h; exact ⟨by omega, List.length_pos_iff.2 h.2.2⟩)
      | (cases h; rename_i h; simp only [List.length_drop]; omega)

theorem clsBegin_len (t : Text) : (clsBegin t).2.length ≤ t.length := by
  unfold clsBegin
  split
  · simp
  · simp

theorem clsLoop_ends (x : Ctx) (f : Nat) : ∀ (ic : Bool) (s : Cls) (prev : Nat) (t : Text), t.length < f →
    ∃ o, clsLoop x f ic s prev t = some o ∧ ∀ k rest, o = some (k, rest) → rest.length < t.length := by
  induction f with
  | zero => intro _ _ _ t h; omega
  | succ f ih =>
    intro ic s prev t ht
    cases t with
    | nil => exact ⟨none, rfl, by simp⟩
    | cons c r =>
      simp only [List.length_cons] at ht ⊢
      obtain ⟨h1, h2, h3⟩ := clsStep_len x ic s prev c r
      rw [clsLoop]
      cases hc : clsStep x ic s prev c r with
      | stop rest => exact ⟨_, rfl, by rintro k rest' h; cases h; have := h1 _ hc; omega⟩
      | bad => exact ⟨none, rfl, by simp⟩
      | next s' p rest =>
        have hl := h2 _ _ _ hc
        obtain ⟨o, e, hr⟩ := ih ic s' p rest (by omega)
        exact ⟨o, e, fun k rest' h => by have := hr k rest' h; omega⟩
      | inner g ic' rest =>
        have hl := h3 _ _ _ hc
        have hb := clsBegin_len (rest.drop 1)
        simp only [List.length_drop] at hb
        obtain ⟨o, e, hr⟩ := ih ic' (fun _ => false) BAD (clsBegin (rest.drop 1)).2 (by omega)
        dsimp only
        rw [e]
        cases o with
        | none => exact ⟨none, rfl, by simp⟩
        | some v =>
          obtain ⟨k, rest1⟩ := v
          have h4 := hr _ _ rfl
          obtain ⟨o2, e2, hr2⟩ := ih ic (g (if (clsBegin (rest.drop 1)).1 then fun d => !k d else k)) BAD rest1 (by omega)
          exact ⟨o2, e2, fun k rest' h => by have := hr2 k rest' h; omega⟩

theorem class_ends (x : Ctx) (ic : Bool) (t : Text) (ht : 0 < t.length) : ∃ o, createCharClass x ic t = some o ∧
    ∀ k rest, o = some (k, rest) → rest.length < t.length := by
  unfold createCharClass
  have hb := clsBegin_len (t.drop 1)
  simp only [List.length_drop] at hb
  obtain ⟨o, e, h⟩ := clsLoop_ends x (t.length + 1) ic (fun _ => false) BAD (clsBegin (t.drop 1)).2 (by omega)
  rw [e]
  cases o with
  | none => exact ⟨none, rfl, by simp⟩
  | some v =>
    obtain ⟨k, rest⟩ := v
    refine ⟨_, rfl, ?_⟩
    intro k' rest' he
    cases he
    have := h _ _ rfl
    omega

/-- what a token leaves -/
def Tok.Left (n : Nat) : Tok → Prop
  | .leaf _ rest => rest.length ≤ n
  | .opens _ _ rest => rest.length ≤ n
  | .bad => True

/-- one branch of a chain of tests -/
theorem ite_pred {α : Type} {P : α → Prop} {c : Prop} [Decidable c] {a b : α} (h1 : P a) (h2 : P b) : P (if c then a else b) := by
  split
  · exact h1
  · exact h2

theorem left_drop {n k : Nat} {r : Text} {a : Node} (h : r.length ≤ n) : (Tok.leaf a (r.drop k)).Left n := by
  simp only [Tok.Left, List.length_drop]; omega

theorem span_len {p : Nat → Bool} {r a b : Text} (h : r.span p = (a, b)) : b.length ≤ r.length := by
  rw [List.span_eq_takeWhile_dropWhile] at h
  cases h
  exact (List.dropWhile_sublist _).length_le

theorem escTrace_left (x : Ctx) (st : CState) (r : Text) : ∀ b, (escTrace x b r).Left r.length := by
  intro b
  unfold escTrace
  repeat' split
  all_goals first | exact left_drop (Nat.le_refl _) | trivial

theorem escName_left (x : Ctx) (st : CState) (r : Text) : (escName x st r).Left r.length := by
  unfold escName
  repeat' split
  all_goals first | exact left_drop (Nat.le_refl _) | trivial

theorem escOther_left (x : Ctx) (st : CState) (r : Text) : (escOther x r).Left r.length := by
  unfold escOther escOther.escChar
  repeat' (first | split | dsimp only)
  all_goals first | exact left_drop (Nat.le_refl _) | trivial

theorem token_left (x : Ctx) (st : CState) (c : Nat) (r : Text) : (token x st c r).Left r.length := by
  have e1 : (escTok x st r).Left r.length := by
    unfold escTok
    split
    · exact left_drop (Nat.le_refl _)
    · split
      · exact escTrace_left x st r true
      · split
        · exact escTrace_left x st r false
        · split
          · exact escName_left x st r
          · exact escOther_left x st r
  have e2 : (questTok r).Left r.length := by
    unfold questTok
    repeat' split
    all_goals first | exact left_drop (Nat.le_refl _) | exact Nat.le_refl _
  have e3 : ∀ s, (starTok s r).Left r.length := by
    intro s; unfold starTok
    split
    · exact left_drop (Nat.le_refl _)
    · exact Nat.le_refl _
  have e4 : (bracesTok r).Left r.length := by
    unfold bracesTok
    split
    · trivial
    · rename_i content z rest h
      have hl := span_len h
      simp only [List.length_cons] at hl
      split
      · trivial
      · split
        · exact left_drop (by omega)
        · show rest.length ≤ r.length; omega
  have e5 : (openTok x st r).Left r.length := by
    unfold openTok
    repeat' split
    all_goals first | trivial | (simp only [Tok.Left, List.length_drop]; omega) | exact Nat.le_refl _
  have e6 : (classTok x (c :: r)).Left r.length := by
    unfold classTok
    obtain ⟨o, e, h⟩ := class_ends x x.ignoreCase (c :: r) (by simp)
    rw [e]
    cases o with
    | none => trivial
    | some v =>
      have := h v.1 v.2 rfl
      simp only [List.length_cons] at this
      show v.2.length ≤ r.length
      omega
  unfold token
  refine ite_pred (P := fun k : Tok => k.Left r.length) e1 ?_
  refine ite_pred (P := fun k : Tok => k.Left r.length) (Nat.le_refl _) ?_
  refine ite_pred (P := fun k : Tok => k.Left r.length) (Nat.le_refl _) ?_
  refine ite_pred (P := fun k : Tok => k.Left r.length) (Nat.le_refl _) ?_
  refine ite_pred (P := fun k : Tok => k.Left r.length) (Nat.le_refl _) ?_
  refine ite_pred (P := fun k : Tok => k.Left r.length) e2 ?_
  refine ite_pred (P := fun k : Tok => k.Left r.length) (e3 _) ?_
  refine ite_pred (P := fun k : Tok => k.Left r.length) (e3 _) ?_
  refine ite_pred (P := fun k : Tok => k.Left r.length) (Nat.le_refl _) ?_
  refine ite_pred (P := fun k : Tok => k.Left r.length) e4 ?_
  refine ite_pred (P := fun k : Tok => k.Left r.length) e5 ?_
  refine ite_pred (P := fun k : Tok => k.Left r.length) e6 ?_
  refine ite_pred (P := fun k : Tok => k.Left r.length) trivial ?_
  exact (Nat.le_refl _)

/-! ## The scanner ends -/

theorem push_ne_fuel {n : Node} {s : Scan} (h : s ≠ .fuel) : s.push n ≠ .fuel := by
  cases s with
  | fuel => exact absurd rfl h
  | bad => exact h
  | ok l st r => intro h; cases h

theorem push_rest {n : Node} {s : Scan} {l st r} (h : s.push n = .ok l st r) : ∃ l', s = .ok l' st r ∧ l = n :: l' := by
  cases s with
  | fuel => cases h
  | bad => cases h
  | ok l' st' r' => cases h; exact ⟨l', rfl, rfl⟩

/-- the scanner does not depend on the number of rounds, if there are more than characters -/
theorem scan_ends (x : Ctx) (f : Nat) : ∀ (st : CState) (t : Text), t.length < f →
    scan x f st t ≠ .fuel ∧ (∀ g, t.length < g → scan x g st t = scan x f st t) ∧
    ∀ l st' rest, scan x f st t = .ok l st' (some rest) → rest.length < t.length := by
  induction f with
  | zero => intro _ t h; omega
  | succ f ih =>
    intro st t ht
    cases t with
    | nil =>
      refine ⟨by simp [scan], ?_, ?_⟩
      · intro g hg
        cases g with
        | zero => simp at hg
        | succ g => simp [scan]
      · intro l st' rest h; simp [scan] at h
    | cons c r =>
      simp only [List.length_cons] at ht
      have key : ∀ t' : Text, t'.length ≤ r.length → ∀ st', scan x f st' t' ≠ .fuel ∧
          (∀ g, r.length < g → scan x g st' t' = scan x f st' t') ∧ (∀ l st2 rest, scan x f st' t' = .ok l st2 (some rest) → rest.length < t'.length) := by
        intro t' h st'
        obtain ⟨a, b, d⟩ := ih st' t' (by omega)
        exact ⟨a, fun g hg => b g (by omega), d⟩
      have hl := token_left x st c r
      have main : scan x (f + 1) st (c :: r) ≠ .fuel ∧ (∀ g, r.length < g → scan x (g + 1) st (c :: r) = scan x (f + 1) st (c :: r)) ∧
          ∀ l st' rest, scan x (f + 1) st (c :: r) = .ok l st' (some rest) → rest.length < r.length + 1 := by
        simp only [scan]
        split
        · obtain ⟨a, b, d⟩ := key r (Nat.le_refl _) st
          exact ⟨a, b, fun l st' rest h => by have := d l st' rest h; omega⟩
        · split
          · exact ⟨by simp, fun _ _ => rfl, by rintro l st' rest h; cases h; omega⟩
          · cases htok : token x st c r with
            | bad => exact ⟨by simp, fun _ _ => rfl, by rintro l st' rest h; cases h⟩
            | leaf n rest0 =>
              rw [htok] at hl
              have hl : rest0.length ≤ r.length := hl
              obtain ⟨a, b, d⟩ := key rest0 hl st
              dsimp only
              refine ⟨push_ne_fuel a, fun g hg => by rw [b g hg], ?_⟩
              intro l st' rest h
              obtain ⟨l', h, -⟩ := push_rest h
              have := d _ _ _ h
              omega
            | opens mk st1 rest0 =>
              rw [htok] at hl
              have hl : rest0.length ≤ r.length := hl
              obtain ⟨a, b, d⟩ := key rest0 hl st1
              dsimp only
              cases hs : scan x f st1 rest0 with
              | fuel => exact absurd hs a
              | bad => exact ⟨by simp, fun g hg => by rw [b g hg, hs], by rintro l st' rest h; cases h⟩
              | ok l1 st2 o =>
                cases o with
                | none => exact ⟨by simp, fun g hg => by rw [b g hg, hs], by rintro l st' rest h; cases h⟩
                | some rest2 =>
                  have h2 := d _ _ _ hs
                  obtain ⟨a2, b2, d2⟩ := key rest2 (by omega) st2
                  dsimp only
                  cases hf : finish x rest0 l1 with
                  | none => exact ⟨by simp, fun g hg => by rw [b g hg, hs]; dsimp only; rw [hf], by rintro l st' rest h; cases h⟩
                  | some body =>
                    refine ⟨push_ne_fuel a2, fun g hg => by rw [b g hg, hs]; dsimp only; rw [hf, b2 g hg], ?_⟩
                    intro l st' rest h
                    obtain ⟨l', h, -⟩ := push_rest h
                    have := d2 _ _ _ h
                    omega
      refine ⟨main.1, ?_, main.2.2⟩
      intro g hg
      cases g with
      | zero => omega
      | succ g => exact main.2.1 g (by simp only [List.length_cons] at hg; omega)

/-- the first loop on a text, with as many rounds as it needs -/
def S (x : Ctx) (st : CState) (t : Text) : Scan := scan x (t.length + 1) st t

theorem S_eq {x : Ctx} {f : Nat} {st : CState} {t : Text} (h : t.length < f) : scan x f st t = S x st t :=
  (scan_ends x f st t h).2.1 (t.length + 1) (by omega) ▸ rfl

theorem S_nil (x : Ctx) (st : CState) : S x st [] = .ok [] st none := rfl

theorem S_cons (x : Ctx) (st : CState) (c : Nat) (r : Text) : S x st (c :: r) =
    if x.extend && x.isSpace c then S x st r
    else if c = 41 then .ok [] st (some r)
    else match token x st c r with
      | .bad => .bad
      | .leaf n rest => (S x st rest).push n
      | .opens mk st' rest =>
        match S x st' rest with
        | .fuel => .fuel
        | .bad => .bad
        | .ok _ _ none => .bad
        | .ok l st2 (some rest2) => match finish x rest l with
          | none => .bad
          | some body => (S x st2 rest2).push (mk body) := by
  have hl := token_left x st c r
  unfold S
  rw [scan.eq_def]
  simp only [List.length_cons]
  split
  · rfl
  · split
    · rfl
    · cases htok : token x st c r with
      | bad => rfl
      | leaf n rest0 =>
        rw [htok] at hl
        have hl : rest0.length ≤ r.length := hl
        dsimp only
        rw [S_eq (by omega)]; rfl
      | opens mk st1 rest0 =>
        rw [htok] at hl
        have hl : rest0.length ≤ r.length := hl
        dsimp only
        rw [S_eq (x := x) (st := st1) (f := r.length + 1) (by omega : rest0.length < r.length + 1)]
        have e : scan x (rest0.length + 1) st1 rest0 = S x st1 rest0 := rfl
        rw [e]
        cases hs : S x st1 rest0 with
        | fuel => rfl
        | bad => rfl
        | ok l1 st2 o =>
          cases o with
          | none => rfl
          | some rest2 =>
            have := (scan_ends x (rest0.length + 1) st1 rest0 (by omega)).2.2 l1 st2 rest2 (by rw [e, hs])
            dsimp only
            cases finish x rest0 l1 with
            | none => rfl
            | some body => dsimp only; rw [S_eq (by omega)]; rfl

theorem S_ends (x : Ctx) (st : CState) (t : Text) : S x st t ≠ .fuel := (scan_ends x (t.length + 1) st t (by omega)).1

/-! ## What is inside the tables -/

mutual
/-- groups have no number or one below `m` (named ones below `n`), and 0 only if all 16 are used up (the code gives further groups the
number 0); references to own groups are digits, to own names names below `n`; references
to the start expression are inside its 16 groups (names: below `b`) -/
def inTables (m n b : Nat) : List Node → Bool
  | [] => true
  | a :: r => inTablesN m n b a && inTables m n b r
def inTablesN (m n b : Nat) : Node → Bool
  | .empty | .msym _ | .symb _ | .word _ | .enum _ | .nenum _ => true
  | .brackets i c => (match i with | none => true | some k => decide (k < m ∧ (0 < k ∨ 16 ≤ m))) && inTables m n b c
  | .named i c => (match i with | none => true | some k => decide (k < n)) && inTables m n b c
  | .bkTrace k | .bkTraceN k => decide (k < 16)
  | .bkTraceName k | .bkTraceNName k => decide (k < b)
  | .bkBrack k => decide (k < 10)
  | .bkBrackName k => decide (k < n)
  | .behind k c | .nbehind k c => decide (k < 10) && inTables m n b c
  | .ahead c | .nahead c | .or c | .rangeN _ c | .rangeNM _ _ c | .ngRangeN _ c | .ngRangeNM _ _ c => inTables m n b c
end

theorem inTables_append (m n b : Nat) (l k : List Node) : inTables m n b (l ++ k) = (inTables m n b l && inTables m n b k) := by
  induction l with
  | nil => rfl
  | cons a r ih => simp only [List.cons_append, inTables, ih, Bool.and_assoc]

theorem inTables_mem {m n b : Nat} {l : List Node} : inTables m n b l = true ↔ ∀ a ∈ l, inTablesN m n b a = true := by
  induction l with
  | nil => simp [inTables]
  | cons a r ih => simp [inTables, ih]

mutual
theorem inTables_mono {m n m' n' b : Nat} (hm : m ≤ m') (hn : n ≤ n') : ∀ l : List Node, inTables m n b l = true → inTables m' n' b l = true
  | [], _ => rfl
  | a :: r, h => by
    simp only [inTables, Bool.and_eq_true] at h ⊢
    exact ⟨inTablesN_mono hm hn a h.1, inTables_mono hm hn r h.2⟩
theorem inTablesN_mono {m n m' n' b : Nat} (hm : m ≤ m') (hn : n ≤ n') : ∀ a : Node, inTablesN m n b a = true → inTablesN m' n' b a = true
  | .empty, _ | .msym _, _ | .symb _, _ | .word _, _ | .enum _, _ | .nenum _, _ => rfl
  | .brackets i c, h => by
    simp only [inTablesN, Bool.and_eq_true] at h ⊢
    refine ⟨?_, inTables_mono hm hn c h.2⟩
    cases i with
    | none => rfl
    | some k => have := h.1; simp only [decide_eq_true_eq] at this ⊢; omega
  | .named i c, h => by
    simp only [inTablesN, Bool.and_eq_true] at h ⊢
    refine ⟨?_, inTables_mono hm hn c h.2⟩
    cases i with
    | none => rfl
    | some k => have := h.1; simp only [decide_eq_true_eq] at this ⊢; omega
  | .bkTrace k, h | .bkTraceN k, h | .bkTraceName k, h | .bkTraceNName k, h | .bkBrack k, h => h
  | .bkBrackName k, h => by simp only [inTablesN, decide_eq_true_eq] at h ⊢; omega
  | .behind k c, h | .nbehind k c, h => by
    simp only [inTablesN, Bool.and_eq_true] at h ⊢
    exact ⟨h.1, inTables_mono hm hn c h.2⟩
  | .ahead c, h | .nahead c, h | .or c, h | .rangeN _ c, h | .rangeNM _ _ c, h | .ngRangeN _ c, h | .ngRangeNM _ _ c, h => by
    simp only [inTablesN] at h ⊢
    exact inTables_mono hm hn c h
end

/-- the compiler's tables -/
structure StOk (st : CState) : Prop where
  pos : 0 < st.cMatch
  le  : st.cMatch ≤ 16
  nle : st.names.length ≤ 16

def Ctx.backCount (x : Ctx) : Nat := match x.back with | none => 0 | some l => l.length

theorem withBody_tables {m n b : Nat} {a : Node} {c : List Node} (ha : inTablesN m n b a = true) (hc : inTables m n b c = true) :
    inTablesN m n b (withBody a c) = true := by
  cases a <;> simp_all [withBody, inTablesN]

theorem gen_tables {m n b : Nat} (l : List Node) : ∀ (acc r : List Node), inTables m n b acc = true → inTables m n b l = true → gen acc l = some r →
    inTables m n b r = true := by
  induction l with
  | nil =>
    intro acc r ha _ h
    simp only [gen, Option.some.injEq] at h
    subst h
    rw [inTables_mem] at ha ⊢
    simpa using ha
  | cons a l ih =>
    intro acc r ha hl h
    simp only [inTables, Bool.and_eq_true] at hl
    rw [gen.eq_def] at h
    dsimp only at h
    split at h
    · cases acc with
      | nil => cases h
      | cons b0 acc' =>
        simp only [inTables, Bool.and_eq_true] at ha
        dsimp only at h
        split at h
        · refine ih _ _ ?_ hl.2 h
          simp only [inTables, Bool.and_eq_true]
          refine ⟨withBody_tables hl.1 ?_, ?_⟩
          · rw [inTables_mem] at ha ⊢
            intro k hk
            simp only [List.mem_append, List.mem_reverse, List.mem_singleton] at hk
            rcases hk with hk | rfl
            · exact ha.2 k ((List.takeWhile_sublist _).subset hk)
            · exact ha.1
          · rw [inTables_mem] at ha ⊢
            exact fun k hk => ha.2 k ((List.dropWhile_sublist _).subset hk)
        · refine ih _ _ ?_ hl.2 h
          simp only [inTables, Bool.and_eq_true]
          exact ⟨withBody_tables hl.1 (by simp [inTables, ha.1]), ha.2⟩
    · exact ih _ _ (by simp [inTables, hl.1, ha]) hl.2 h

theorem words_tables {m n b : Nat} (f : Nat) : ∀ l : List Node, inTables m n b l = true → inTables m n b (words f l) = true := by
  induction f with
  | zero => intro l h; exact h
  | succ f ih =>
    intro l h
    cases l with
    | nil => rfl
    | cons a r =>
      rw [words]
      split
      · simp only [inTables, inTablesN, Bool.true_and]
        refine ih _ ?_
        rw [inTables_mem] at h ⊢
        exact fun k hk => h k (List.mem_of_mem_drop hk)
      · simp only [inTables, Bool.and_eq_true] at h ⊢
        exact ⟨h.1, ih _ h.2⟩

theorem fix_tables {m n b : Nat} (l : List Node) : ∀ first, inTables m n b l = true → inTables m n b (fix first l) = true := by
  induction l with
  | nil => intro _ _; rfl
  | cons a r ih =>
    intro first h
    simp only [inTables, Bool.and_eq_true] at h
    rw [fix]
    have he : ∀ q : Bool, inTables m n b (if q = true then [Node.empty] else []) = true := by intro q; cases q <;> rfl
    simp only [inTables_append, List.cons_append, inTables, he, h.1, ih false h.2, Bool.and_self]

theorem finish_tables {x : Ctx} {t : Text} {m n b : Nat} {l r : List Node} (hl : inTables m n b l = true) (h : finish x t l = some r) :
    inTables m n b r = true := by
  have hf : inTables m n b (flatOf x t l) = true := by
    unfold flatOf
    cases t with
    | nil => rfl
    | cons c t => dsimp only; split <;> simp [inTables, inTablesN, hl]
  exact gen_tables _ [] r rfl (fix_tables _ _ (words_tables _ _ hf)) h

/-- what a token may be -/
def Tok.Ok (b : Nat) (st : CState) : Tok → Prop
  | .leaf n _ => inTablesN st.cMatch st.names.length b n = true
  | .opens mk st' _ => StOk st' ∧ st.cMatch ≤ st'.cMatch ∧ st.names.length ≤ st'.names.length ∧
      ∀ m n l, st'.cMatch ≤ m → st'.names.length ≤ n → inTables m n b l = true → inTablesN m n b (mk l) = true
  | .bad => True

theorem getHex_lt {x : Ctx} {c n : Nat} (h : getHex x c = some n) : n < 16 := by
  unfold getHex at h
  dsimp only at h
  generalize (x.lower c + 65536 - 48) % 65536 = d at h
  split at h
  · simp only [Option.some.injEq] at h; omega
  · split at h
    · cases h
    · simp only [Option.some.injEq] at h; omega

theorem findIdx_lt {x : Ctx} {names : List Text} {name : Text} {n : Nat} (h : bracketNo x names name = some n) : n < names.length := by
  unfold bracketNo at h
  exact (List.findIdx?_eq_some_iff_findIdx_eq.1 h).1

theorem escLetter_ok {m n b : Nat} (c : Nat) : ∀ a, escLetter c = some a → inTablesN m n b a = true := by
  unfold escLetter
  refine ite_pred (P := fun o : Option Node => ∀ a, o = some a → inTablesN m n b a = true) (by intro a h; cases h; rfl) ?_
  refine ite_pred (P := fun o : Option Node => ∀ a, o = some a → inTablesN m n b a = true) (by intro a h; cases h; rfl) ?_
  refine ite_pred (P := fun o : Option Node => ∀ a, o = some a → inTablesN m n b a = true) (by intro a h; cases h; rfl) ?_
  refine ite_pred (P := fun o : Option Node => ∀ a, o = some a → inTablesN m n b a = true) (by intro a h; cases h; rfl) ?_
  refine ite_pred (P := fun o : Option Node => ∀ a, o = some a → inTablesN m n b a = true) (by intro a h; cases h; rfl) ?_
  refine ite_pred (P := fun o : Option Node => ∀ a, o = some a → inTablesN m n b a = true) (by intro a h; cases h; rfl) ?_
  refine ite_pred (P := fun o : Option Node => ∀ a, o = some a → inTablesN m n b a = true) (by intro a h; cases h; rfl) ?_
  refine ite_pred (P := fun o : Option Node => ∀ a, o = some a → inTablesN m n b a = true) (by intro a h; cases h; rfl) ?_
  refine ite_pred (P := fun o : Option Node => ∀ a, o = some a → inTablesN m n b a = true) (by intro a h; cases h; rfl) ?_
  refine ite_pred (P := fun o : Option Node => ∀ a, o = some a → inTablesN m n b a = true) (by intro a h; cases h; rfl) ?_
  refine ite_pred (P := fun o : Option Node => ∀ a, o = some a → inTablesN m n b a = true) (by intro a h; cases h; rfl) ?_
  refine ite_pred (P := fun o : Option Node => ∀ a, o = some a → inTablesN m n b a = true) (by intro a h; cases h; rfl) ?_
  refine ite_pred (P := fun o : Option Node => ∀ a, o = some a → inTablesN m n b a = true) (by intro a h; cases h; rfl) ?_
  refine ite_pred (P := fun o : Option Node => ∀ a, o = some a → inTablesN m n b a = true) (by intro a h; cases h; rfl) ?_
  refine ite_pred (P := fun o : Option Node => ∀ a, o = some a → inTablesN m n b a = true) (by intro a h; cases h; rfl) ?_
  refine ite_pred (P := fun o : Option Node => ∀ a, o = some a → inTablesN m n b a = true) (by intro a h; cases h; rfl) ?_
  intro a h
  cases h

theorem escTrace_ok (x : Ctx) (st : CState) (r : Text) : ∀ b, (escTrace x b r).Ok x.backCount st := by
  intro b
  unfold escTrace
  split
  · rename_i n hn
    have := getHex_lt hn
    cases b <;> simpa [Tok.Ok, inTablesN] using this
  · split
    · rename_i name names hname hback
      split
      · rename_i k hk
        have := findIdx_lt hk
        cases b <;> simpa [Tok.Ok, inTablesN, Ctx.backCount, hback] using this
      · trivial
    · trivial

theorem escName_ok (x : Ctx) (st : CState) (r : Text) : (escName x st r).Ok x.backCount st := by
  unfold escName
  split
  · split
    · rename_i k hk
      have := findIdx_lt hk
      simpa [Tok.Ok, inTablesN] using this
    · trivial
  · trivial

theorem escOther_ok (x : Ctx) (st : CState) (r : Text) : (escOther x r).Ok x.backCount st := by
  have h5 : (escOther.escChar x r).Ok x.backCount st := by
    unfold escOther.escChar
    dsimp only
    split
    · trivial
    · rfl
  unfold escOther
  split
  · split
    · simp only [Tok.Ok, inTablesN, decide_eq_true_eq]; omega
    · exact h5
  · exact h5

theorem token_ok (x : Ctx) (st : CState) (c : Nat) (r : Text) (hs : StOk st) : (token x st c r).Ok x.backCount st := by
  have h0 := hs.pos
  have h1 := hs.le
  have h2 := hs.nle
  have e1 : (escTok x st r).Ok x.backCount st := by
    unfold escTok
    split
    · rename_i n hn
      exact escLetter_ok _ _ hn
    · split
      · exact escTrace_ok x st r true
      · split
        · exact escTrace_ok x st r false
        · split
          · exact escName_ok x st r
          · exact escOther_ok x st r
  have e2 : (questTok r).Ok x.backCount st := by
    unfold questTok
    repeat' split
    all_goals first
      | rfl
      | (rename_i hd _; simp only [isDigitC, decide_eq_true_eq] at hd; simp [Tok.Ok, inTablesN, inTables]; omega)
      | (rename_i hd; simp only [isDigitC, decide_eq_true_eq] at hd; simp [Tok.Ok, inTablesN, inTables]; omega)
  have e3 : ∀ s, (starTok s r).Ok x.backCount st := by
    intro s; unfold starTok
    split <;> rfl
  have e4 : (bracesTok r).Ok x.backCount st := by
    unfold bracesTok
    split
    · trivial
    · split
      · trivial
      · rename_i n hn
        have : inTablesN st.cMatch st.names.length x.backCount n = true := by
          unfold bracesNode at hn
          repeat' (first | split at hn | dsimp only at hn)
          all_goals first
            | cases hn; done
            | (cases hn; rfl)
        split <;> exact this
  have e5 : (openTok x st r).Ok x.backCount st := by
    unfold openTok
    repeat' split
    all_goals first
      | trivial
      | (refine ⟨hs, Nat.le_refl _, Nat.le_refl _, ?_⟩; intro m n l _ _ hl; simp only [inTablesN, Bool.true_and]; exact hl)
      | skip
    · rename_i h
      refine ⟨⟨h0, h1, ?_⟩, Nat.le_refl _, ?_, ?_⟩
      · simp only [List.length_append, List.length_cons, List.length_nil]; unfold MATCHES at h; omega
      · simp only [List.length_append]; omega
      · intro m n l hm hn hl
        simp only [List.length_append, List.length_cons, List.length_nil] at hn
        simp only [inTablesN, Bool.and_eq_true, decide_eq_true_eq]
        exact ⟨by omega, hl⟩
    · rename_i h
      refine ⟨hs, Nat.le_refl _, Nat.le_refl _, ?_⟩
      intro m n l hm hn hl
      unfold MATCHES at h
      simp only [inTablesN, Bool.and_eq_true, decide_eq_true_eq]
      exact ⟨by omega, hl⟩
    · rename_i h
      unfold MATCHES at h
      refine ⟨⟨Nat.succ_pos _, h, h2⟩, Nat.le_succ _, Nat.le_refl _, ?_⟩
      intro m n l hm hn hl
      have hm : st.cMatch + 1 ≤ m := hm
      simp only [inTablesN, Bool.and_eq_true, decide_eq_true_eq]
      exact ⟨by omega, hl⟩
    · rename_i h
      unfold MATCHES at h
      refine ⟨hs, Nat.le_refl _, Nat.le_refl _, ?_⟩
      intro m n l hm hn hl
      simp only [inTablesN, Bool.and_eq_true, decide_eq_true_eq]
      exact ⟨by omega, hl⟩
  have e6 : (classTok x (c :: r)).Ok x.backCount st := by
    unfold classTok
    repeat' split
    all_goals first | rfl | trivial
  unfold token
  refine ite_pred (P := fun k : Tok => k.Ok x.backCount st) e1 ?_
  refine ite_pred (P := fun k : Tok => k.Ok x.backCount st) rfl ?_
  refine ite_pred (P := fun k : Tok => k.Ok x.backCount st) rfl ?_
  refine ite_pred (P := fun k : Tok => k.Ok x.backCount st) rfl ?_
  refine ite_pred (P := fun k : Tok => k.Ok x.backCount st) rfl ?_
  refine ite_pred (P := fun k : Tok => k.Ok x.backCount st) e2 ?_
  refine ite_pred (P := fun k : Tok => k.Ok x.backCount st) (e3 _) ?_
  refine ite_pred (P := fun k : Tok => k.Ok x.backCount st) (e3 _) ?_
  refine ite_pred (P := fun k : Tok => k.Ok x.backCount st) rfl ?_
  refine ite_pred (P := fun k : Tok => k.Ok x.backCount st) e4 ?_
  refine ite_pred (P := fun k : Tok => k.Ok x.backCount st) e5 ?_
  refine ite_pred (P := fun k : Tok => k.Ok x.backCount st) e6 ?_
  refine ite_pred (P := fun k : Tok => k.Ok x.backCount st) trivial ?_
  exact rfl

theorem scan_tables (x : Ctx) (f : Nat) : ∀ (st : CState) (t : Text), StOk st → ∀ l st' rest, scan x f st t = .ok l st' rest →
    StOk st' ∧ st.cMatch ≤ st'.cMatch ∧ st.names.length ≤ st'.names.length ∧ inTables st'.cMatch st'.names.length x.backCount l = true := by
  induction f with
  | zero => intro st t _ l st' rest h; cases h
  | succ f ih =>
    intro st t hs l st' rest h
    cases t with
    | nil => simp only [scan, Scan.ok.injEq] at h; obtain ⟨rfl, rfl, -⟩ := h; exact ⟨hs, Nat.le_refl _, Nat.le_refl _, rfl⟩
    | cons c r =>
      rw [scan] at h
      split at h
      · exact ih st r hs l st' rest h
      · split at h
        · simp only [Scan.ok.injEq] at h; obtain ⟨rfl, rfl, -⟩ := h; exact ⟨hs, Nat.le_refl _, Nat.le_refl _, rfl⟩
        · have hok := token_ok x st c r hs
          cases htok : token x st c r with
          | bad => rw [htok] at h; cases h
          | leaf n rest0 =>
            rw [htok] at h hok
            dsimp only at h
            obtain ⟨l', h', rfl⟩ := push_rest h
            obtain ⟨a, b, d, e⟩ := ih st rest0 hs l' st' rest h'
            refine ⟨a, b, d, ?_⟩
            simp only [inTables, Bool.and_eq_true]
            exact ⟨inTablesN_mono b d n hok, e⟩
          | opens mk st1 rest0 =>
            rw [htok] at h hok
            obtain ⟨k1, k2, k3, k4⟩ := hok
            dsimp only at h
            cases hs1 : scan x f st1 rest0 with
            | fuel => rw [hs1] at h; cases h
            | bad => rw [hs1] at h; cases h
            | ok l1 st2 o =>
              rw [hs1] at h
              obtain ⟨a, b, d, e⟩ := ih st1 rest0 k1 _ _ _ hs1
              cases o with
              | none => cases h
              | some rest2 =>
                dsimp only at h
                cases hf : finish x rest0 l1 with
                | none => rw [hf] at h; cases h
                | some body =>
                  rw [hf] at h
                  dsimp only at h
                  obtain ⟨l', h', rfl⟩ := push_rest h
                  obtain ⟨a2, b2, d2, e2⟩ := ih st2 rest2 a _ _ _ h'
                  refine ⟨a2, by omega, by omega, ?_⟩
                  simp only [inTables, Bool.and_eq_true]
                  exact ⟨k4 _ _ _ (by omega) (by omega) (inTables_mono b2 d2 _ (finish_tables e hf)), e2⟩

/-! ## The theorems -/

/-- C55: compiling ends for every text: with an expression or with an error. -/
theorem C55_compiling_ends (x : Ctx) (t : Text) : ∃ r, setRE x t = some r := by
  unfold setRE
  cases t with
  | nil => exact ⟨_, rfl⟩
  | cons c t =>
    dsimp only
    split
    · cases hl : lastSlash _ with
      | none => exact ⟨_, rfl⟩
      | some v =>
        obtain ⟨b, fl⟩ := v
        dsimp only
        have := S_ends { x with ignoreCase := fl.contains 105, extend := fl.contains 120 } ⟨1, []⟩ b
        unfold S at this
        split
        · rename_i h; exact absurd h this
        · exact ⟨_, rfl⟩
        · exact ⟨_, rfl⟩
        · split <;> exact ⟨_, rfl⟩
    · exact ⟨_, rfl⟩

/-- C55: whatever was compiled, all group numbers are inside the tables of 16 groups, names inside those the expression (or the start
expression) has, and group 0 is there. So `matches->s[...]`, `ns[...]`, `brnames[...]`, `backTrace->s[...]` are never indexed outside. -/
theorem C55_inside_the_tables (x : Ctx) (t : Text) (e : Expr) (h : setRE x t = some (.ok e)) :
    e.ok = true ∧ 0 < e.cMatch ∧ e.cMatch ≤ 16 ∧ e.cnMatch ≤ 16 ∧ inTables e.cMatch e.cnMatch x.backCount e.body = true := by
  unfold setRE at h
  cases t with
  | nil => cases h
  | cons c t =>
    dsimp only at h
    split at h
    · cases hl : lastSlash _ with
      | none => rw [hl] at h; cases h
      | some v =>
        obtain ⟨b, fl⟩ := v
        rw [hl] at h
        dsimp only at h
        split at h
        · cases h
        · cases h
        · cases h
        · rename_i l st hsc
          split at h
          · cases h
          · rename_i body hf
            simp only [Option.some.injEq, Except.ok.injEq] at h
            subst h
            obtain ⟨a, -, -, k⟩ := scan_tables _ _ ⟨1, []⟩ _ ⟨by decide, by decide, by decide⟩ _ _ _ hsc
            exact ⟨rfl, a.pos, a.le, a.nle, finish_tables k hf⟩
    · cases h

end Verif.RegExp
