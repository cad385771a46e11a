import Verif.RegExp.Plain

/-!
# Words and empty nodes do not matter: matching
-/
namespace Verif.RegExp

theorem MatchL_append (env : Env) (l k : List Node) (h : ∀ n ∈ l, isOr n = false) (p q : Int) :
    MatchL env (l ++ k) p q ↔ ∃ r, MatchL env l p r ∧ MatchL env k r q := by
  induction l generalizing p with
  | nil => simp [MatchL]
  | cons a l ih =>
    have ha := h a List.mem_cons_self
    simp only [List.cons_append, MatchL, ha, Bool.false_eq_true, if_false]
    simp only [ih fun n hn => h n (List.mem_cons_of_mem _ hn)]
    constructor
    · rintro ⟨r, h1, r2, h2, h3⟩; exact ⟨r2, ⟨r, h1, h2⟩, h3⟩
    · rintro ⟨r2, ⟨r, h1, h2⟩, h3⟩; exact ⟨r, h1, r2, h2, h3⟩

/-! ## Places stay inside the text -/

theorem Iter_range {R : Int → Int → Prop} {stop : Int} (h : ∀ p q, 0 ≤ p → p ≤ stop → R p q → p ≤ q ∧ q ≤ stop) (k : Nat) :
    ∀ p q, 0 ≤ p → p ≤ stop → Iter R k p q → p ≤ q ∧ q ≤ stop := by
  induction k with
  | zero => intro p q h0 h1 hi; simp only [Iter] at hi; omega
  | succ k ih =>
    rintro p q h0 h1 ⟨r, hr, hi⟩
    have a := h p r h0 h1 hr
    have b := ih r q (by omega) a.2 hi
    omega

theorem Take_range {env : Env} {P : Nat → Prop} {p q : Int} (h : Take env P p q) : p ≤ q ∧ q ≤ env.stop := by
  obtain ⟨rfl, h, -⟩ := h; omega

theorem Trace_range {env : Env} {s e : Matches → Int} {P : Nat → Nat → Prop} {p q : Int} (h : TraceAt env s e P p q) : p ≤ q ∧ q ≤ env.stop := by
  obtain ⟨t, tr, -, rfl, h, -⟩ := h; omega

theorem Meta_range {env : Env} {k : Meta} {p q : Int} (h1 : p ≤ env.stop) (h : MetaAt env k p q) : p ≤ q ∧ q ≤ env.stop := by
  cases k <;> first
    | exact Take_range h
    | (obtain ⟨rfl, -⟩ := h; omega)
    | exact h.elim

mutual
theorem MatchL_range (env : Env) : ∀ (l : List Node) (p q : Int), 0 ≤ p → p ≤ env.stop → MatchL env l p q → p ≤ q ∧ q ≤ env.stop
  | [], p, q, _, h1, h => by simp only [MatchL] at h; omega
  | n :: r, p, q, h0, h1, h => by
    rw [MatchL] at h
    split at h
    · rcases h with h | h
      · exact MatchN_range env n p q h0 h1 h
      · exact MatchL_range env r p q h0 h1 h
    · obtain ⟨k, ha, hb⟩ := h
      have a := MatchN_range env n p k h0 h1 ha
      have b := MatchL_range env r k q (by omega) a.2 hb
      omega
theorem MatchN_range (env : Env) : ∀ (n : Node) (p q : Int), 0 ≤ p → p ≤ env.stop → MatchN env n p q → p ≤ q ∧ q ≤ env.stop
  | .empty, p, q, _, h1, h => by simp only [MatchN] at h; omega
  | .msym k, p, q, _, h1, h => by rw [MatchN] at h; exact Meta_range h1 h
  | .symb c, p, q, _, h1, h => by rw [MatchN] at h; exact Take_range h
  | .enum c, p, q, _, h1, h => by rw [MatchN] at h; exact Take_range h
  | .nenum c, p, q, _, h1, h => by rw [MatchN] at h; exact Take_range h
  | .word w, p, q, _, h1, h => by
    rw [MatchN] at h
    split at h
    · obtain ⟨rfl, h, -⟩ := h; omega
    · obtain ⟨rfl, h, -⟩ := h; omega
  | .brackets _ b, p, q, h0, h1, h => by rw [MatchN] at h; exact MatchL_range env b p q h0 h1 h
  | .named _ b, p, q, h0, h1, h => by rw [MatchN] at h; exact MatchL_range env b p q h0 h1 h
  | .or b, p, q, h0, h1, h => by rw [MatchN] at h; exact MatchL_range env b p q h0 h1 h
  | .bkTrace k, p, q, _, _, h => by rw [MatchN] at h; exact Trace_range h
  | .bkTraceN k, p, q, _, _, h => by rw [MatchN] at h; exact Trace_range h
  | .bkTraceName k, p, q, _, _, h => by rw [MatchN] at h; exact Trace_range h
  | .bkTraceNName k, p, q, _, _, h => by rw [MatchN] at h; exact Trace_range h
  | .bkBrack k, p, q, _, _, h => by rw [MatchN] at h; exact h.elim
  | .bkBrackName k, p, q, _, _, h => by rw [MatchN] at h; exact h.elim
  | .ahead b, p, q, _, h1, h => by rw [MatchN] at h; obtain ⟨rfl, -⟩ := h; omega
  | .nahead b, p, q, _, h1, h => by rw [MatchN] at h; obtain ⟨rfl, -⟩ := h; omega
  | .behind _ b, p, q, _, h1, h => by rw [MatchN] at h; obtain ⟨rfl, -⟩ := h; omega
  | .nbehind _ b, p, q, _, h1, h => by rw [MatchN] at h; obtain ⟨rfl, -⟩ := h; omega
  | .rangeN s b, p, q, h0, h1, h => by
    rw [MatchN] at h; obtain ⟨k, -, h⟩ := h
    exact Iter_range (fun p q h0 h1 h => MatchL_range env b p q h0 h1 h) k p q h0 h1 h
  | .ngRangeN s b, p, q, h0, h1, h => by
    rw [MatchN] at h; obtain ⟨k, -, h⟩ := h
    exact Iter_range (fun p q h0 h1 h => MatchL_range env b p q h0 h1 h) k p q h0 h1 h
  | .rangeNM s e b, p, q, h0, h1, h => by
    rw [MatchN] at h; obtain ⟨k, -, -, h⟩ := h
    exact Iter_range (fun p q h0 h1 h => MatchL_range env b p q h0 h1 h) k p q h0 h1 h
  | .ngRangeNM s e b, p, q, h0, h1, h => by
    rw [MatchN] at h; obtain ⟨k, -, -, h⟩ := h
    exact Iter_range (fun p q h0 h1 h => MatchL_range env b p q h0 h1 h) k p q h0 h1 h
end

/-! ## Words -/

theorem Copy_cons {env : Env} {c : Nat} {w : Text} {p q : Int} :
    Copy env (c :: w) (fun c d => c = d) 0 (w.length + 1) p q ↔
    Take env (fun d => d = c) p (p + 1) ∧ Copy env w (fun c d => c = d) 0 w.length (p + 1) q := by
  unfold Copy Take
  constructor
  · rintro ⟨rfl, h1, h2⟩
    refine ⟨⟨rfl, by omega, ?_⟩, by omega, h1, ?_⟩
    · obtain ⟨a, b, ha, hb, rfl⟩ := h2 0 (by omega)
      simp at ha hb
      exact ⟨a, by simpa using ha, hb.symm⟩
    · intro j hj
      obtain ⟨a, b, ha, hb, rfl⟩ := h2 (j + 1) (by omega)
      refine ⟨a, a, ?_, ?_, rfl⟩
      · rw [← ha]; congr 2; omega
      · rw [← hb]
        have : (0 + ((j + 1 : Nat) : Int)).toNat = (0 + (j : Int)).toNat + 1 := by omega
        rw [this, List.getElem?_cons_succ]
  · rintro ⟨⟨-, h1, a, ha, rfl⟩, rfl, h2, h3⟩
    refine ⟨by omega, by omega, ?_⟩
    intro j hj
    cases j with
    | zero => exact ⟨a, a, by simpa using ha, by simp, rfl⟩
    | succ j =>
      obtain ⟨b, b', hb, hb', rfl⟩ := h3 j (by omega)
      refine ⟨b, b, ?_, ?_, rfl⟩
      · rw [← hb]; congr 2; omega
      · rw [← hb']
        have : (0 + ((j + 1 : Nat) : Int)).toNat = (0 + (j : Int)).toNat + 1 := by omega
        rw [this, List.getElem?_cons_succ]

theorem MatchL_symbs {env : Env} (ht : env.stop ≤ env.text.length) (w : Text) (hc : CaseFor env w) :
    ∀ p q, 0 ≤ p → p ≤ env.stop → (MatchL env (w.map .symb) p q ↔ MatchN env (.word w) p q) := by
  induction w with
  | nil =>
    intro p q h0 h1
    simp only [List.map_nil, MatchL, MatchN]
    split
    · rename_i hi
      simp [(hc hi).nil]; omega
    · simp [Copy]; omega
  | cons c w ih =>
    intro p q h0 h1
    have ih := ih (hc.mono fun z hz => List.mem_cons_of_mem _ hz)
    have key : MatchL env (List.map Node.symb (c :: w)) p q ↔ MatchN env (.symb c) p (p + 1) ∧ MatchN env (.word w) (p + 1) q := by
      simp only [List.map_cons, MatchL, isOr, Bool.false_eq_true, if_false]
      constructor
      · rintro ⟨r, h2, h3⟩
        have h4 : r = p + 1 := by rw [MatchN] at h2; exact h2.1
        subst h4
        have := MatchN_range env _ _ _ h0 h1 h2
        exact ⟨h2, (ih _ _ (by omega) (by omega)).1 h3⟩
      · rintro ⟨h2, h3⟩
        have := MatchN_range env _ _ _ h0 h1 h2
        exact ⟨_, h2, (ih _ _ (by omega) (by omega)).2 h3⟩
    rw [key]
    simp only [MatchN]
    cases hi : env.flags.ignoreCase with
    | false =>
      simp only [Bool.false_eq_true, if_false, List.length_cons]
      rw [Copy_cons]
    | true =>
      simp only [if_true, List.length_cons]
      have hw := hc hi
      have hm : ∀ z ∈ (env.text.drop p.toNat).take (w.length + 1), z ∈ env.text ∨ z ∈ c :: w := fun z hz =>
        Or.inl (List.mem_of_mem_drop (List.mem_of_mem_take hz))
      constructor
      · rintro ⟨⟨-, h2, d, hd, he⟩, rfl, h3, h4⟩
        refine ⟨by omega, by omega, ?_⟩
        have e : (env.text.drop p.toNat) = d :: env.text.drop (p + 1).toNat := by
          have : (p + 1).toNat = p.toNat + 1 := by omega
          rw [this]
          have hl : p.toNat < env.text.length := by omega
          rw [List.drop_eq_getElem_cons hl]
          rw [List.getElem?_eq_getElem hl] at hd
          cases hd; rfl
        rw [e, List.take_succ_cons] at hm ⊢
        rw [hw.cons _ _ _ _ _ hm (fun z hz => Or.inr hz)]
        · exact ⟨he, h4⟩
        · simp only [List.length_take, List.length_drop]; omega
      · rintro ⟨rfl, h3, h4⟩
        have hl : p.toNat < env.text.length := by omega
        have e : (env.text.drop p.toNat) = env.text[p.toNat] :: env.text.drop (p + 1).toNat := by
          have : (p + 1).toNat = p.toNat + 1 := by omega
          rw [this, List.drop_eq_getElem_cons hl]
        rw [e, List.take_succ_cons] at hm h4
        rw [hw.cons _ _ _ _ (by simp only [List.length_take, List.length_drop]; omega) hm (fun z hz => Or.inr hz)] at h4
        exact ⟨⟨rfl, by omega, _, List.getElem?_eq_getElem hl, h4.1⟩, by omega, by omega, h4.2⟩

/-! ## All -/

theorem Iter_iff {R R' : Int → Int → Prop} {stop : Int} (h : ∀ p q, 0 ≤ p → p ≤ stop → (R p q ↔ R' p q))
    (hr : ∀ p q, 0 ≤ p → p ≤ stop → R' p q → p ≤ q ∧ q ≤ stop) (k : Nat) :
    ∀ p q, 0 ≤ p → p ≤ stop → (Iter R k p q ↔ Iter R' k p q) := by
  induction k with
  | zero => intro p q h0 h1; simp [Iter]
  | succ k ih =>
    intro p q h0 h1
    simp only [Iter]
    constructor
    · rintro ⟨r, h2, h3⟩
      have h2' := (h p r h0 h1).1 h2
      have := hr p r h0 h1 h2'
      exact ⟨r, h2', (ih r q (by omega) (by omega)).1 h3⟩
    · rintro ⟨r, h2, h3⟩
      have := hr p r h0 h1 h2
      exact ⟨r, (h p r h0 h1).2 h2, (ih r q (by omega) (by omega)).2 h3⟩

mutual
theorem MatchL_plain {env : Env} (ht : env.stop ≤ env.text.length) :
    ∀ (l : List Node), CaseFor env (letters l) → ∀ (p q : Int), 0 ≤ p → p ≤ env.stop → (MatchL env (plain l) p q ↔ MatchL env l p q)
  | [], _, p, q, _, _ => Iff.rfl
  | n :: r, hc, p, q, h0, h1 => by
    rw [plain]
    cases h : isOr n with
    | true =>
      have e := (MatchN_plain ht n hc.head).2
      obtain ⟨b, rfl⟩ := plainN_or h
      simp only [plainN, List.cons_append, List.nil_append, MatchL, MatchN, isOr, if_true]
      rw [e b rfl p q h0 h1, MatchL_plain ht r hc.tail p q h0 h1]
    | false =>
      rw [MatchL_append env _ _ (plainN_noOr h), MatchL, h, if_neg (by simp)]
      have e := (MatchN_plain ht n hc.head).1 h
      constructor
      · rintro ⟨k, ha, hb⟩
        have ha' := (e p k h0 h1).1 ha
        have := MatchN_range env n p k h0 h1 ha'
        exact ⟨k, ha', (MatchL_plain ht r hc.tail k q (by omega) (by omega)).1 hb⟩
      · rintro ⟨k, ha, hb⟩
        have := MatchN_range env n p k h0 h1 ha
        exact ⟨k, (e p k h0 h1).2 ha, (MatchL_plain ht r hc.tail k q (by omega) (by omega)).2 hb⟩
theorem MatchN_plain {env : Env} (ht : env.stop ≤ env.text.length) :
    ∀ (n : Node), CaseFor env (lettersN n) → (isOr n = false → ∀ p q : Int, 0 ≤ p → p ≤ env.stop → (MatchL env (plainN n) p q ↔ MatchN env n p q)) ∧
      (∀ b, n = .or b → ∀ p q : Int, 0 ≤ p → p ≤ env.stop → (MatchL env (plain b) p q ↔ MatchL env b p q))
  | .or b => fun hc => ⟨(fun h => by cases h), (fun c h => by cases h; exact MatchL_plain ht b hc)⟩
  | .empty => fun hc => ⟨fun _ p q _ _ => by simp [plainN, MatchL, MatchN], fun c h => by cases h⟩
  | .word w => fun hc => ⟨fun _ p q h0 h1 => by rw [plainN]; exact MatchL_symbs ht w hc p q h0 h1, fun c h => by cases h⟩
  | .msym _ | .symb _ | .enum _ | .nenum _ | .bkTrace _ | .bkTraceN _ | .bkTraceName _ | .bkTraceNName _ | .bkBrack _ | .bkBrackName _ =>
    fun hc => ⟨fun _ p q h0 h1 => by simp [plainN, MatchL, isOr], fun c h => by cases h⟩
  | .brackets _ b => fun hc => ⟨fun _ p q h0 h1 => by simp [plainN, MatchL, MatchN, isOr, MatchL_plain ht b hc p _ h0 h1], fun c h => by cases h⟩
  | .named _ b => fun hc => ⟨fun _ p q h0 h1 => by simp [plainN, MatchL, MatchN, isOr, MatchL_plain ht b hc p _ h0 h1], fun c h => by cases h⟩
  | .ahead b => fun hc => ⟨fun _ p q h0 h1 => by simp [plainN, MatchL, MatchN, isOr, MatchL_plain ht b hc p _ h0 h1], fun c h => by cases h⟩
  | .nahead b => fun hc => ⟨fun _ p q h0 h1 => by simp [plainN, MatchL, MatchN, isOr, MatchL_plain ht b hc p _ h0 h1], fun c h => by cases h⟩
  | .behind k b => fun hc => ⟨fun _ p q h0 h1 => by
      have e : 0 ≤ p - k → ∀ r, MatchL env (plain b) (p - k) r ↔ MatchL env b (p - k) r := fun h r => MatchL_plain ht b hc (p - k) r h (by omega)
      simp only [plainN, MatchL, MatchN, isOr, Bool.false_eq_true, if_false]
      constructor
      · rintro ⟨r, ⟨rfl, h, s, hs⟩, rfl⟩; exact ⟨rfl, h, s, (e h s).1 hs⟩
      · rintro ⟨rfl, h, s, hs⟩; exact ⟨_, ⟨rfl, h, s, (e h s).2 hs⟩, rfl⟩, fun c h => by cases h⟩
  | .nbehind k b => fun hc => ⟨fun _ p q h0 h1 => by
      have e : 0 ≤ p - k → ∀ r, MatchL env (plain b) (p - k) r ↔ MatchL env b (p - k) r := fun h r => MatchL_plain ht b hc (p - k) r h (by omega)
      simp only [plainN, MatchL, MatchN, isOr, Bool.false_eq_true, if_false]
      constructor
      · rintro ⟨r, ⟨rfl, h⟩, rfl⟩; exact ⟨rfl, fun ⟨g, s, hs⟩ => h ⟨g, s, (e g s).2 hs⟩⟩
      · rintro ⟨rfl, h⟩; exact ⟨_, ⟨rfl, fun ⟨g, s, hs⟩ => h ⟨g, s, (e g s).1 hs⟩⟩, rfl⟩, fun c h => by cases h⟩
  | .rangeN s b => fun hc => ⟨fun _ p q h0 h1 => by
      have e := fun k q => Iter_iff (MatchL_plain ht b hc) (MatchL_range env b) k p q h0 h1
      simp [plainN, MatchL, MatchN, isOr, e], fun c h => by cases h⟩
  | .ngRangeN s b => fun hc => ⟨fun _ p q h0 h1 => by
      have e := fun k q => Iter_iff (MatchL_plain ht b hc) (MatchL_range env b) k p q h0 h1
      simp [plainN, MatchL, MatchN, isOr, e], fun c h => by cases h⟩
  | .rangeNM s e b => fun hc => ⟨fun _ p q h0 h1 => by
      have e := fun k q => Iter_iff (MatchL_plain ht b hc) (MatchL_range env b) k p q h0 h1
      simp [plainN, MatchL, MatchN, isOr, e], fun c h => by cases h⟩
  | .ngRangeNM s e b => fun hc => ⟨fun _ p q h0 h1 => by
      have e := fun k q => Iter_iff (MatchL_plain ht b hc) (MatchL_range env b) k p q h0 h1
      simp [plainN, MatchL, MatchN, isOr, e], fun c h => by cases h⟩
end

/-- chains with the same plain form match the same -/
theorem same_plain {env : Env} (ht : env.stop ≤ env.text.length) {l k : List Node} (hl : CaseFor env (letters l))
    (hk : CaseFor env (letters k))
    (h : plain l = plain k) {p q : Int} (h0 : 0 ≤ p) (h1 : p ≤ env.stop) : MatchL env l p q ↔ MatchL env k p q := by
  rw [← MatchL_plain ht l hl p q h0 h1, h, MatchL_plain ht k hk p q h0 h1]

end Verif.RegExp
