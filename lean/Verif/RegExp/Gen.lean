import Verif.RegExp.PlainMatch

/-!
# The second and the third loop of the compiler
-/
namespace Verif.RegExp

/-! ## Words -/

/-- runs of symbols that are not followed by an operator were put together -/
inductive Merged : List Node → List Node → Prop where
  | nil : Merged [] []
  | keep (n : Node) {l l'} : Merged l l' → Merged (n :: l) (n :: l')
  | word (w : Text) {l l'} : 0 < w.length → headOp l = false → Merged l l' → Merged (w.map .symb ++ l) (.word w :: l')

theorem symbols_eq : ∀ l : List Node, l = (symbols l).1.map .symb ++ (symbols l).2
  | [] => rfl
  | .symb c :: r => by
    rw [symbols, List.map_cons, List.cons_append, ← symbols_eq r]
  | .empty :: _ | .msym _ :: _ | .word _ :: _ | .enum _ :: _ | .nenum _ :: _ | .brackets _ _ :: _ | .named _ _ :: _ | .bkTrace _ :: _
  | .bkTraceN _ :: _ | .bkTraceName _ :: _ | .bkTraceNName _ :: _ | .bkBrack _ :: _ | .bkBrackName _ :: _ | .ahead _ :: _ | .nahead _ :: _
  | .behind _ _ :: _ | .nbehind _ _ :: _ | .or _ :: _ | .rangeN _ _ :: _ | .rangeNM _ _ _ :: _ | .ngRangeN _ _ :: _ | .ngRangeNM _ _ _ :: _ => rfl

theorem words_merged (f : Nat) : ∀ l : List Node, l.length ≤ f → Merged l (words f l) := by
  induction f with
  | zero =>
    intro l h
    obtain rfl : l = [] := List.length_eq_zero_iff.1 (by omega)
    exact .nil
  | succ f ih =>
    intro l hl
    cases l with
    | nil => exact .nil
    | cons a r =>
      rw [words]
      split
      · rename_i hw
        have e := symbols_eq (a :: r)
        generalize hk : wordSize (a :: r) = k at hw
        generalize hs : (symbols (a :: r)).1 = s at e
        generalize hrest : (symbols (a :: r)).2 = rest at e
        have hk' : k = if headOp rest then s.length - 1 else s.length := by rw [← hk, wordSize, hs, hrest]
        have hks : k ≤ s.length := by rw [hk']; split <;> omega
        have e2 : a :: r = (s.take k).map .symb ++ (a :: r).drop k := by
          conv => lhs; rw [← List.take_append_drop k (a :: r)]
          congr 1
          rw [e, List.take_append_of_le_length (by simpa using hks), List.map_take]
        have key : Merged ((s.take k).map .symb ++ (a :: r).drop k) (.word (s.take k) :: words f ((a :: r).drop k)) := by
          refine .word _ (by rw [List.length_take]; omega) ?_ (ih _ ?_)
          · rw [e, List.drop_append_of_le_length (by simpa using hks)]
            by_cases ho : headOp rest = true
            · rw [if_pos ho] at hk'
              have : s.drop k = [s[k]'(by omega)] := by
                rw [List.drop_eq_getElem_cons (by omega), List.drop_eq_nil_of_le (by omega)]
              rw [← List.map_drop, this]; rfl
            · rw [if_neg ho] at hk'
              rw [List.drop_eq_nil_of_le (by simp [hk'])]
              simpa using ho
          · simp only [List.length_drop, List.length_cons] at hl ⊢; omega
        rw [← e2] at key
        exact key
      · exact .keep a (ih r (by simp only [List.length_cons] at hl; omega))

theorem merged_shape {l l' : List Node} (h : Merged l l') : l.isEmpty = l'.isEmpty ∧ headOp l = headOp l' := by
  cases h with
  | nil => exact ⟨rfl, rfl⟩
  | keep n h => exact ⟨rfl, rfl⟩
  | word w hw ho h =>
    cases w with
    | nil => simp at hw
    | cons c w => exact ⟨rfl, rfl⟩

theorem fix_symbs (w : Text) (l : List Node) (hw : 0 < w.length) (b : Bool) : fix b (w.map .symb ++ l) = w.map .symb ++ fix false l := by
  induction w generalizing b with
  | nil => simp at hw
  | cons c w ih =>
    simp only [List.map_cons, List.cons_append, fix, isOr, Bool.false_and, Bool.false_eq_true, if_false, List.nil_append, List.append_nil]
    cases w with
    | nil => rfl
    | cons d w => rw [ih (by simp)]

theorem fix_head (l : List Node) : headOp (fix false l) = headOp l ∧ (fix false l).isEmpty = l.isEmpty := by
  cases l with
  | nil => exact ⟨rfl, rfl⟩
  | cons n r => simp [fix, headOp]

theorem Merged.prefix {l l' : List Node} (h : Merged l l') (k : List Node) : Merged (k ++ l) (k ++ l') := by
  induction k with
  | nil => exact h
  | cons a k ih => exact .keep a ih

theorem fix_merged {l l' : List Node} (h : Merged l l') : ∀ b, Merged (fix b l) (fix b l') := by
  induction h with
  | nil => intro b; exact .nil
  | keep n h ih =>
    intro b
    obtain ⟨h1, h2⟩ := merged_shape h
    simp only [fix, h1, h2, List.append_assoc]
    exact ((Merged.keep n ((ih false).prefix _))).prefix _
  | word w hw ho h ih =>
    intro b
    rw [fix_symbs _ _ hw]
    simp only [fix, isOr, Bool.false_and, Bool.false_eq_true, if_false, List.nil_append, List.append_nil]
    exact .word w hw (by rw [(fix_head _).1]; exact ho) (ih false)

/-! ## Operands -/

/-- nodes with the same plain form -/
def SameN (n n' : Node) : Prop := isOr n = isOr n' ∧ plainN n = plainN n'

inductive AR : List Node → List Node → Prop where
  | nil : AR [] []
  | node {n n' a a'} : SameN n n' → AR a a' → AR (n :: a) (n' :: a')
  | word (w : Text) {a a'} : AR a a' → AR ((w.map .symb).reverse ++ a) (.word w :: a')

/-- the last nodes are the same -/
def Top (a a' : List Node) : Prop := (a = [] ∧ a' = []) ∨ ∃ n n' b b', a = n :: b ∧ a' = n' :: b' ∧ SameN n n' ∧ AR b b'

theorem Top.ar {a a' : List Node} (h : Top a a') : AR a a' := by
  rcases h with ⟨rfl, rfl⟩ | ⟨n, n', b, b', rfl, rfl, h1, h2⟩
  · exact .nil
  · exact .node h1 h2

theorem AR.plain {a a' : List Node} (h : AR a a') : plain a.reverse = plain a'.reverse := by
  induction h with
  | nil => rfl
  | node h1 h2 ih => rw [List.reverse_cons, List.reverse_cons, plain_append, plain_append, ih]; simp [Verif.RegExp.plain, h1.2]
  | word w h ih =>
    rw [List.reverse_append, List.reverse_cons, plain_append, plain_append, ih, List.reverse_reverse, plain_symbs]
    simp [Verif.RegExp.plain, plainN]

theorem symbs_takeWhile (w : Text) (a : List Node) : ((w.map Node.symb).reverse ++ a).takeWhile (fun k => !isOr k) =
    (w.map Node.symb).reverse ++ a.takeWhile (fun k => !isOr k) := by
  rw [List.takeWhile_append_of_pos]
  intro n hn
  rw [List.mem_reverse, List.mem_map] at hn
  obtain ⟨c, -, rfl⟩ := hn
  rfl

theorem symbs_dropWhile (w : Text) (a : List Node) : ((w.map Node.symb).reverse ++ a).dropWhile (fun k => !isOr k) = a.dropWhile (fun k => !isOr k) := by
  rw [List.dropWhile_append_of_pos]
  intro n hn
  rw [List.mem_reverse, List.mem_map] at hn
  obtain ⟨c, -, rfl⟩ := hn
  rfl

theorem AR.split {a a' : List Node} (h : AR a a') :
    AR (a.takeWhile fun k => !isOr k) (a'.takeWhile fun k => !isOr k) ∧ AR (a.dropWhile fun k => !isOr k) (a'.dropWhile fun k => !isOr k) := by
  induction h with
  | nil => exact ⟨.nil, .nil⟩
  | @node n n' a a' h1 h2 ih =>
    cases ho : isOr n with
    | true =>
      have ho' : isOr n' = true := by rw [← h1.1, ho]
      simp only [List.takeWhile_cons, List.dropWhile_cons, ho, ho', Bool.not_true, Bool.false_eq_true, if_false]
      exact ⟨.nil, .node h1 h2⟩
    | false =>
      have ho' : isOr n' = false := by rw [← h1.1, ho]
      simp only [List.takeWhile_cons, List.dropWhile_cons, ho, ho', Bool.not_false, if_true]
      exact ⟨.node h1 ih.1, ih.2⟩
  | word w h ih =>
    rw [symbs_takeWhile, symbs_dropWhile]
    simp only [List.takeWhile_cons, List.dropWhile_cons, isOr, Bool.not_false, if_true]
    exact ⟨.word w ih.1, ih.2⟩

theorem isOp_body {n : Node} (h : isOp n = true) (b b' : List Node) (hb : plain b = plain b') : SameN (withBody n b) (withBody n b') := by
  cases n <;> simp only [isOp, Bool.false_eq_true] at h <;> simp [withBody, SameN, isOr, plainN, hb]

theorem gen_symbs (w : Text) (l acc : List Node) : gen acc (w.map .symb ++ l) = gen ((w.map .symb).reverse ++ acc) l := by
  induction w generalizing acc with
  | nil => rfl
  | cons c w ih =>
    rw [List.map_cons, List.cons_append, gen.eq_def]
    simp only [isOp, Bool.false_eq_true, if_false]
    rw [ih]
    simp

theorem gen_merged {l l' : List Node} (h : Merged l l') : ∀ {acc acc' R : List Node}, AR acc acc' → (headOp l = true → Top acc acc') →
    gen acc l = some R → ∃ R', gen acc' l' = some R' ∧ plain R' = plain R := by
  induction h with
  | nil =>
    intro acc acc' R ha _ h
    simp only [gen, Option.some.injEq] at h ⊢
    subst h
    exact ⟨_, rfl, ha.plain.symm⟩
  | @keep n l l' hm ih =>
    intro acc acc' R ha ht h
    rw [gen.eq_def] at h ⊢
    dsimp only at h ⊢
    by_cases ho : isOp n = true
    · rw [if_pos ho] at h ⊢
      rcases ht ho with ⟨rfl, rfl⟩ | ⟨a, a', b, b', rfl, rfl, h1, h2⟩
      · cases h
      · dsimp only at h ⊢
        by_cases hor : isOr n = true
        · rw [if_pos hor] at h ⊢
          have hs := h2.split
          have hb : plain ((b.takeWhile fun k => !isOr k).reverse ++ [a]) = plain ((b'.takeWhile fun k => !isOr k).reverse ++ [a']) := by
            rw [plain_append, plain_append, hs.1.plain]
            simp [plain, h1.2]
          exact ih (.node (isOp_body ho _ _ hb) hs.2) (fun _ => Or.inr ⟨_, _, _, _, rfl, rfl, isOp_body ho _ _ hb, hs.2⟩) h
        · rw [if_neg hor] at h ⊢
          have hb : plain [a] = plain [a'] := by simp [plain, h1.2]
          exact ih (.node (isOp_body ho _ _ hb) h2) (fun _ => Or.inr ⟨_, _, _, _, rfl, rfl, isOp_body ho _ _ hb, h2⟩) h
    · rw [if_neg ho] at h ⊢
      exact ih (.node ⟨rfl, rfl⟩ ha) (fun _ => Or.inr ⟨_, _, _, _, rfl, rfl, ⟨rfl, rfl⟩, ha⟩) h
  | @word w l l' hw ho hm ih =>
    intro acc acc' R ha ht h
    rw [gen_symbs] at h
    rw [gen.eq_def]
    simp only [isOp, Bool.false_eq_true, if_false]
    exact ih (.word w ha) (fun h => by rw [ho] at h; cases h) h

/-- words do not matter for the result -/
theorem gen_words {l R : List Node} (h : gen [] (fix true l) = some R) :
    ∃ R', gen [] (fix true (words l.length l)) = some R' ∧ plain R' = plain R :=
  gen_merged (fix_merged (words_merged _ l (Nat.le_refl _)) true) .nil (fun _ => Or.inl ⟨rfl, rfl⟩) h

/-! ## Alternatives -/

/-- `l`: the nodes of one alternative as read, `d`: with their operands -/
structure Seg (l d : List Node) : Prop where
  gen : ∀ acc r, gen acc (l ++ r) = gen (d.reverse ++ acc) r
  fix : ∀ b r, l ≠ [] → fix b (l ++ r) = l ++ Verif.RegExp.fix false r
  noOr : ∀ n ∈ d, isOr n = false
  head : l ≠ [] → ∀ r, headOp (l ++ r) = false
  nil : l = [] ↔ d = []

theorem seg_nil : Seg [] [] := ⟨fun _ _ => rfl, fun _ _ h => absurd rfl h, by simp, fun h => absurd rfl h, by simp⟩

theorem seg_leaf {n : Node} (h : isOp n = false) : Seg [n] [n] := by
  have ho : isOr n = false := by cases n <;> first | rfl | cases h
  refine ⟨fun acc r => ?_, fun b r _ => ?_, by simpa using ho, fun _ r => ?_, by simp⟩
  · rw [List.cons_append, List.nil_append, Verif.RegExp.gen.eq_def]; simp [h]
  · rw [List.cons_append, List.nil_append, Verif.RegExp.fix]; simp [ho]
  · exact h

theorem seg_append {l d l2 d2 : List Node} (h : Seg l d) (h2 : Seg l2 d2) : Seg (l ++ l2) (d ++ d2) := by
  refine ⟨fun acc r => ?_, fun b r hn => ?_, ?_, fun hn r => ?_, ?_⟩
  · rw [List.append_assoc, h.gen, h2.gen]; simp
  · rw [List.append_assoc]
    by_cases hl : l = []
    · subst hl; simpa using h2.fix b r (by simpa using hn)
    · rw [h.fix b _ hl]
      by_cases hl2 : l2 = []
      · subst hl2; simp
      · rw [h2.fix false r hl2]; simp
  · intro n hn
    rcases List.mem_append.1 hn with hn | hn
    · exact h.noOr n hn
    · exact h2.noOr n hn
  · rw [List.append_assoc]
    by_cases hl : l = []
    · subst hl; exact h2.head (by simpa using hn) r
    · exact h.head hl _
  · rw [List.append_eq_nil_iff, List.append_eq_nil_iff, h.nil, h2.nil]

theorem seg_op {l : List Node} {n o : Node} (h : Seg l [n]) (ho : isOp o = true) (hor : isOr o = false) : Seg (l ++ [o]) [withBody o [n]] := by
  have hl : l ≠ [] := fun e => by have := h.nil.1 e; cases this
  refine ⟨fun acc r => ?_, fun b r _ => ?_, ?_, fun _ r => ?_, by simp⟩
  · rw [List.append_assoc, h.gen]
    simp only [List.reverse_cons, List.reverse_nil, List.nil_append, List.cons_append]
    rw [Verif.RegExp.gen.eq_def]
    simp [ho, hor]
  · rw [List.append_assoc, h.fix b _ hl]
    simp [Verif.RegExp.fix, hor]
  · cases o <;> simp [withBody, isOr] at hor ⊢
  · rw [List.append_assoc]; exact h.head hl _

/-- the nodes of alternatives with `|` between them -/
def joinOr : List (List Node) → List Node
  | [] => []
  | [l] => l
  | l :: m :: r => l ++ .or [] :: joinOr (m :: r)

/-- the node chain of alternatives -/
def altTree : List (List Node) → List Node
  | [] => []
  | [d] => d
  | d :: e :: r => .or d :: altTree (e :: r)

/-- an empty alternative has an empty node -/
def full (d : List Node) : List Node := if d.isEmpty then [.empty] else d

theorem plain_full (d : List Node) : plain (full d) = plain d := by
  cases d <;> rfl

theorem full_noOr {d : List Node} (h : ∀ n ∈ d, isOr n = false) : ∀ n ∈ full d, isOr n = false := by
  cases d with
  | nil => simp [full, isOr]
  | cons a d => exact h

theorem gen_or {d accOr r : List Node} (h : ∀ n ∈ d, isOr n = false) (hne : d ≠ []) (ha : ∀ n ∈ accOr, isOr n = true) :
    gen (d.reverse ++ accOr) (.or [] :: r) = gen (.or d :: accOr) r := by
  obtain ⟨a, d', rfl⟩ : ∃ a d', d = d' ++ [a] := ⟨d.getLast hne, d.dropLast, (List.dropLast_concat_getLast hne).symm⟩
  simp only [List.reverse_append, List.reverse_cons, List.reverse_nil, List.nil_append, List.cons_append]
  rw [gen.eq_def]
  have ho : isOr (.or []) = true := rfl
  simp only [isOp, if_true, ho, withBody]
  have h1 : (d'.reverse ++ accOr).takeWhile (fun k => !isOr k) = d'.reverse := by
    rw [List.takeWhile_append_of_pos (by intro n hn; simp [h n (by simp at hn; simp [hn])])]
    cases accOr with
    | nil => simp
    | cons b t => simp [ha b List.mem_cons_self]
  have h2 : (d'.reverse ++ accOr).dropWhile (fun k => !isOr k) = accOr := by
    rw [List.dropWhile_append_of_pos (by intro n hn; simp [h n (by simp at hn; simp [hn])])]
    cases accOr with
    | nil => simp
    | cons b t => simp [ha b List.mem_cons_self]
  rw [h1, h2, List.reverse_reverse]

theorem seg_full {l d : List Node} (h : Seg l d) (acc r : List Node) : gen acc (full l ++ r) = gen ((full d).reverse ++ acc) r := by
  by_cases hl : l = []
  · have hd := h.nil.1 hl
    subst hl hd
    show gen acc (.empty :: r) = gen (.empty :: acc) r
    rw [gen.eq_def]; simp [isOp]
  · have hd : d ≠ [] := fun e => hl (h.nil.2 e)
    have e1 : full l = l := by cases l with | nil => exact absurd rfl hl | cons => rfl
    have e2 : full d = d := by cases d with | nil => exact absurd rfl hd | cons => rfl
    rw [e1, e2, h.gen]

/-- what `fix` makes of alternatives: `b`: it is the first, `e`: it follows a `|` and so it has its empty node already -/
theorem fix_join : ∀ (segs : List (List Node × List Node)), (∀ s ∈ segs, Seg s.1 s.2) → ∀ b : Bool,
    (segs.length = 1 → b = true → fix b (joinOr (segs.map Prod.fst)) = joinOr (segs.map Prod.fst)) ∧
    (2 ≤ segs.length ∨ b = false → segs ≠ [] →
      (if b then [] else (if (joinOr (segs.map Prod.fst)).isEmpty || headOp (joinOr (segs.map Prod.fst)) then [Node.empty] else [])) ++
        fix b (joinOr (segs.map Prod.fst)) = joinOr (segs.map fun s => full s.1)) := by
  intro segs
  induction segs with
  | nil => intro _ b; simp
  | cons s t ih =>
    obtain ⟨l, d⟩ := s
    intro hs b
    have hseg : Seg l d := hs (l, d) List.mem_cons_self
    have ht : ∀ s ∈ t, Seg s.1 s.2 := fun s h => hs s (List.mem_cons_of_mem _ h)
    cases t with
    | nil =>
      have e : b = true ∨ l ≠ [] → fix b l = l := by
        intro h
        by_cases hl : l = []
        · subst hl; rfl
        · have := hseg.fix b [] hl
          simpa [Verif.RegExp.fix] using this
      refine ⟨fun _ hb => e (Or.inl hb), fun h _ => ?_⟩
      have hb : b = false := by rcases h with h | h; simp at h; exact h
      subst hb
      simp only [List.map_cons, List.map_nil, joinOr, Bool.false_eq_true, if_false]
      by_cases hl : l = []
      · subst hl; rfl
      · have hh := hseg.head hl []
        rw [List.append_nil] at hh
        have he : l.isEmpty = false := by cases l with | nil => exact absurd rfl hl | cons => rfl
        rw [hh, he, e (Or.inr hl)]
        simp [full, he]
    | cons s2 t =>
      refine ⟨fun h => by simp at h, fun _ _ => ?_⟩
      obtain ⟨-, ih2⟩ := ih ht false
      have ih2 := ih2 (Or.inr rfl) (by simp)
      simp only [Bool.false_eq_true, if_false] at ih2
      simp only [List.map_cons] at ih2 ⊢
      rw [joinOr, joinOr]
      generalize hJ : joinOr (s2.1 :: List.map Prod.fst t) = J at ih2 ⊢
      rw [← ih2]
      by_cases hl : l = []
      · subst hl
        cases b <;> simp [full, Verif.RegExp.fix, isOr, headOp, isOp]
      · have hh := hseg.head hl (.or [] :: J)
        have he : l.isEmpty = false := by cases l with | nil => exact absurd rfl hl | cons => rfl
        have he2 : (l ++ Node.or [] :: J).isEmpty = false := by cases l <;> rfl
        rw [hh, he2, hseg.fix b _ hl]
        simp [full, he, Verif.RegExp.fix, isOr]

theorem gen_join : ∀ (segs : List (List Node × List Node)), (∀ s ∈ segs, Seg s.1 s.2) → segs ≠ [] → ∀ accOr : List Node, (∀ n ∈ accOr, isOr n = true) →
    gen accOr (joinOr (segs.map fun s => full s.1)) = some (accOr.reverse ++ altTree (segs.map fun s => full s.2)) := by
  intro segs
  induction segs with
  | nil => intro _ h; exact absurd rfl h
  | cons s t ih =>
    obtain ⟨l, d⟩ := s
    intro hs _ accOr ha
    have hseg : Seg l d := hs (l, d) List.mem_cons_self
    have ht : ∀ s ∈ t, Seg s.1 s.2 := fun s h => hs s (List.mem_cons_of_mem _ h)
    cases t with
    | nil =>
      have := seg_full hseg accOr []
      simp only [List.append_nil] at this
      simp [joinOr, altTree, this, gen]
    | cons s2 t =>
      simp only [List.map_cons]
      rw [joinOr, altTree, seg_full hseg, gen_or (full_noOr hseg.noOr) (by cases d <;> simp [full]) ha]
      have := ih ht (by simp) (.or (full d) :: accOr) (by intro n hn; rcases List.mem_cons.1 hn with rfl | hn; rfl; exact ha n hn)
      simp only [List.map_cons] at this
      rw [this]
      simp

theorem altTree_plain (ds : List (List Node)) : plain (altTree (ds.map full)) = plain (altTree ds) := by
  induction ds with
  | nil => rfl
  | cons d t ih =>
    cases t with
    | nil => exact plain_full d
    | cons e t =>
      simp only [List.map_cons, altTree] at ih ⊢
      simp only [plain, plainN, plain_full, List.cons_append, List.nil_append]
      rw [ih]

/-- the result for alternatives -/
theorem gen_alts {segs : List (List Node × List Node)} (hs : ∀ s ∈ segs, Seg s.1 s.2) (hne : segs ≠ []) :
    ∃ R, gen [] (fix true (joinOr (segs.map Prod.fst))) = some R ∧ plain R = plain (altTree (segs.map Prod.snd)) := by
  obtain ⟨h1, h2⟩ := fix_join segs hs true
  by_cases hl : segs.length = 1
  · obtain ⟨s, rfl⟩ := List.length_eq_one_iff.1 hl
    rw [h1 hl rfl]
    have := (hs s (by simp)).gen [] []
    simp only [List.append_nil] at this
    refine ⟨s.2, ?_, rfl⟩
    simp [joinOr, this, gen]
  · have hl2 : 2 ≤ segs.length := by
      cases segs with
      | nil => exact absurd rfl hne
      | cons a t => cases t with
        | nil => simp at hl
        | cons b t => simp
    have h2 := h2 (Or.inl hl2) hne
    simp only [if_true, List.nil_append] at h2
    rw [h2, gen_join segs hs hne [] (by simp)]
    refine ⟨_, rfl, ?_⟩
    have := altTree_plain (segs.map Prod.snd)
    rw [List.map_map] at this
    simpa [Function.comp_def] using this

/-- a call of setStructs on a text: the nodes as read are those of alternatives, and there may be an empty node in front -/
theorem finish_alts {x : Ctx} {t : Text} {segs : List (List Node × List Node)} (hs : ∀ s ∈ segs, Seg s.1 s.2) (hne : segs ≠ [])
    (h0 : t = [] → joinOr (segs.map Prod.fst) = []) :
    ∃ R, finish x t (joinOr (segs.map Prod.fst)) = some R ∧ plain R = plain (altTree (segs.map Prod.snd)) := by
  have key : ∃ segs' : List (List Node × List Node), (∀ s ∈ segs', Seg s.1 s.2) ∧ segs' ≠ [] ∧
      flatOf x t (joinOr (segs.map Prod.fst)) = joinOr (segs'.map Prod.fst) ∧
      plain (altTree (segs'.map Prod.snd)) = plain (altTree (segs.map Prod.snd)) := by
    have hcons : ∃ segs' : List (List Node × List Node), (∀ s ∈ segs', Seg s.1 s.2) ∧ segs' ≠ [] ∧
        .empty :: joinOr (segs.map Prod.fst) = joinOr (segs'.map Prod.fst) ∧
        plain (altTree (segs'.map Prod.snd)) = plain (altTree (segs.map Prod.snd)) := by
      cases segs with
      | nil => exact absurd rfl hne
      | cons s u =>
        refine ⟨(.empty :: s.1, .empty :: s.2) :: u, ?_, by simp, ?_, ?_⟩
        · intro k hk
          rcases List.mem_cons.1 hk with rfl | hk
          · exact seg_append (seg_leaf (n := .empty) rfl) (hs s List.mem_cons_self)
          · exact hs k (List.mem_cons_of_mem _ hk)
        · cases u <;> simp [joinOr]
        · cases u <;> simp [altTree, plain, plainN]
    unfold flatOf
    cases t with
    | nil =>
      rw [h0 rfl] at hcons ⊢
      exact hcons
    | cons c t =>
      dsimp only
      split
      · exact hcons
      · exact ⟨segs, hs, hne, rfl, rfl⟩
  obtain ⟨segs', hs', hne', e1, e2⟩ := key
  obtain ⟨R, hR, hp⟩ := gen_alts hs' hne'
  rw [finish, e1]
  obtain ⟨R', hR', hp'⟩ := gen_words hR
  exact ⟨R', hR', by rw [hp', hp, e2]⟩

end Verif.RegExp
