import Verif.CharClass.LegacyRead
/-!
# What is written is what the built-in strings read
-/
namespace Verif.CharClass
open Verif.RegExp

/-! ## Characters -/

theorem getHexL_val {x : Ctx} (hx : CtxOk x) {c n : Nat} (h : hexVal c = some n) : getHexL x c = (n : Int) ∧ n < 16 := by
  unfold hexVal at h
  unfold getHexL
  split at h
  · rename_i h1
    rw [hx.digit c h1.1 h1.2]
    cases h
    dsimp only
    rw [if_neg (by omega), if_neg (by omega)]
    omega
  · split at h
    · rename_i h1
      rw [hx.small c h1.1 h1.2]
      cases h
      dsimp only
      rw [if_pos (by omega)]
      omega
    · split at h
      · rename_i h1
        rw [hx.big c h1.1 h1.2]
        cases h
        dsimp only
        rw [if_pos (by omega)]
        omega
      · cases h

theorem hexGo_val {x : Ctx} (hx : CtxOk x) (l : Text) : ∀ (j n : Nat), l.all isHex = true → j + l.length ≤ 8 →
    hexGo x (4 * j) n l = some ((n + 2 ^ (4 * j) * l.foldr (fun c a => 16 * a + (hexVal c).getD 0) 0 : Nat) : Int) := by
  induction l with
  | nil => intro j n _ _; simp [hexGo]
  | cons c l ih =>
    intro j n h hl
    simp only [List.all_cons, Bool.and_eq_true] at h
    simp only [List.length_cons] at hl
    obtain ⟨e, e16⟩ := getHexL_val hx (isHex_val h.1)
    rw [hexGo, if_neg (by rw [e]; omega), if_neg (by omega), e]
    have := ih (j + 1) (n + (hexVal c).getD 0 * 2 ^ (4 * j)) h.2 (by omega)
    have e4 : 4 * j + 4 = 4 * (j + 1) := by omega
    rw [e4]
    have en : ((n : Int) + (((hexVal c).getD 0 : Nat) : Int) * 2 ^ (4 * j)) = ((n + (hexVal c).getD 0 * 2 ^ (4 * j) : Nat) : Int) := by
      push_cast; rfl
    rw [en, this]
    congr 2
    rw [List.foldr_cons, show 4 * (j + 1) = 4 * j + 4 from rfl, Nat.pow_add]
    rw [Nat.mul_add, show (2 : Nat) ^ 4 = 16 from rfl, Nat.mul_comm ((hexVal c).getD 0), Nat.mul_assoc]
    omega

theorem hexNumL_val {x : Ctx} (hx : CtxOk x) (ds : Text) (h : ds.all isHex = true) (hl : ds.length ≤ 8) : hexNumL x ds = some ((hexNum ds : Nat) : Int) := by
  have := hexGo_val hx ds.reverse 0 0 (by rw [List.all_reverse]; exact h) (by simpa using hl)
  unfold hexNumL
  rw [show (0 : Nat) = 4 * 0 from rfl]
  refine Eq.trans this ?_
  simp [hexNum, List.foldr_reverse]

theorem mkEsc_ok {v k : Nat} (h : v < BAD) : mkEsc v k = .ok v k := by unfold mkEsc; rw [if_neg (by omega)]

/-- a character as it is written, wherever it stands -/
theorem escL_ch {x : Ctx} (hx : CtxOk x) {P : Nat → Prop} (hP : P 92) {w : Ch} (h : w.Ok P) (hs : Short w) (r : Text) :
    escL x (w.text ++ r) = .ok w.val (w.text.length - 1) := by
  have hv := Ch.val_lt h
  cases w with
  | plain c =>
    have hc : c ≠ 92 := by rintro rfl; exact h.1 hP
    simp only [Ch.text, List.cons_append, List.nil_append, escL]
    rw [if_pos hc]
    exact mkEsc_ok hv
  | esc c =>
    have hc : c ≠ 120 := by rintro rfl; have := h.1; revert this; decide
    simp only [Ch.text, List.cons_append, List.nil_append, escL]
    rw [if_neg (by decide), if_pos hc]
    exact mkEsc_ok hv
  | hex2 a b =>
    obtain ⟨ha, hb⟩ := h
    have hc : a ≠ 123 := by rintro rfl; revert ha; decide
    have e := hexNumL_val hx [a, b] (by simp [ha, hb]) (by simp)
    have hv := hex2_lt a b
    simp only [Ch.text, List.cons_append, List.nil_append, escL]
    rw [if_neg (by decide), if_neg (by decide), if_neg hc]
    unfold escTwo
    rw [if_neg (by simp)]
    simp only [List.take_succ_cons, List.take_zero, e]
    rw [if_neg (by omega)]
    have : (((hexNum [a, b] : Nat) : Int) % 65536).toNat = hexNum [a, b] := by unfold BAD at hv; omega
    rw [this]
    exact mkEsc_ok hv
  | hexN ds =>
    obtain ⟨hd, hl⟩ := h
    have e := hexNumL_val hx ds hd hs
    have e2 := curly_name (hex_name hx hd) r
    have : (Ch.hexN ds).text ++ r = 92 :: 120 :: 123 :: (ds ++ 125 :: r) := by simp [Ch.text]
    rw [this]
    simp only [escL]
    rw [if_neg (by decide), if_neg (by decide), if_pos trivial]
    unfold escCurly
    simp only [e2, e]
    rw [if_neg (by unfold BAD at hl; omega)]
    have l : (Ch.hexN ds).text.length - 1 = ds.length + 3 := by simp [Ch.text]
    rw [l]
    simp only [Int.toNat_natCast]
    exact mkEsc_ok hl

/-! ## Steps -/

theorem addLetter_none {T : Tables} {ic : Bool} {c : CC} {k : Nat} (h : k ∉ [100, 68, 119, 87, 115, 83, 108, 117]) : c.addLetter T ic k = none := by
  simp only [List.mem_cons, List.not_mem_nil, or_false, not_or] at h
  simp [CC.addLetter, h]

/-- a character in a class -/
theorem lStep_ch {x : Ctx} (hx : CtxOk x) {T : Tables} {ic : Bool} {c : CC} {prev : Nat} {w : Ch} {r : Text} (h : w.Ok clsSpecial) (hs : Short w)
    (h2 : w.text = [38] → ∀ v, r ≠ 38 :: 91 :: v) :
    ∃ k t, w.text ++ r = k :: t ∧ lStep x T ic c prev k t = .next (c.addCased x ic w.val) w.val r := by
  have he := escL_ch hx (P := clsSpecial) (by simp [clsSpecial]) h hs r
  have esc : ∀ k t, w.text ++ r = 92 :: k :: t → k ∉ [100, 68, 119, 87, 115, 83, 108, 117] → ∃ k t, w.text ++ r = k :: t ∧
      lStep x T ic c prev k t = .next (c.addCased x ic w.val) w.val r := by
    intro k t e hk
    refine ⟨92, k :: t, e, ?_⟩
    unfold lStep
    rw [if_neg (by decide), if_neg (by decide), if_pos ⟨rfl, by simp⟩]
    simp only [List.headD_cons, List.drop_succ_cons, List.drop_zero, lBack, addLetter_none hk, lEsc]
    rw [← e, he]
    dsimp only
    congr 1
    have : k :: t = (w.text ++ r).drop 1 := by rw [e]; rfl
    rw [this, List.drop_drop, show 1 + (w.text.length - 1) = w.text.length by have := Ch.len (w := w); omega, List.drop_left]
  cases w with
  | plain k =>
    refine ⟨k, r, rfl, ?_⟩
    have hk := h.1
    simp only [clsSpecial, List.mem_cons, List.not_mem_nil, or_false, not_or] at hk
    obtain ⟨h93, h91, h123, h92, h45⟩ := hk
    unfold lStep
    rw [if_neg h93, if_neg h123, if_neg (by simp [h92]), if_neg (by simp [h45]), if_neg, if_neg h91, if_neg (by simp [h45])]
    · rfl
    · rintro ⟨rfl, e1, e2⟩
      match r, e1, e2 with
      | a :: b :: v, e1, e2 =>
        simp only [List.head?_cons, Option.some.injEq, List.drop_succ_cons, List.drop_zero] at e1 e2
        subst e1 e2
        exact h2 rfl v rfl
      | [a], _, e2 => simp at e2
      | [], e1, _ => simp at e1
  | esc k =>
    refine esc k r rfl ?_
    have := h.1
    intro hm
    simp only [List.mem_cons, List.not_mem_nil, or_false] at hm
    rcases hm with rfl | rfl | rfl | rfl | rfl | rfl | rfl | rfl <;> revert this <;> decide
  | hex2 a b => exact esc 120 _ rfl (by decide)
  | hexN ds => exact esc 120 (123 :: (ds ++ 125 :: r)) (by simp [Ch.text]) (by decide)

theorem lBegin_bra {neg : Bool} {t : Text} (ht : t ≠ []) (h : neg = false → t.head? ≠ some 94) : lBegin ((bra neg ++ t).drop 1) = some (neg, t) := by
  cases neg with
  | true => rfl
  | false =>
    have h := h rfl
    show lBegin t = some (false, t)
    cases t with
    | nil => exact absurd rfl ht
    | cons c t =>
      simp only [List.head?_cons, ne_eq, Option.some.injEq] at h
      simp [lBegin, h]

theorem lLoop_next {x : Ctx} {T : Tables} {f : Nat} {ic : Bool} {c c' : CC} {prev p k : Nat} {r rest : Text}
    (h : lStep x T ic c prev k r = .next (some c') p rest) : lLoop x T (f + 1) ic c prev (k :: r) = lLoop x T f ic c' p rest := by
  rw [lLoop, h]

/-- what a reading gave: the class meant, or undefined behaviour in `&&[…]` -/
def Gave (k : CR) (o : Option LRes) (v : Text) (S : Nat → Prop) : Prop :=
  (∃ c, o = some (.ok c v) ∧ Rep c S) ∨ ¬ NoInter k ∧ o = some .ub

theorem Gave.mono {k k' : CR} {o : Option LRes} {v : Text} {S : Nat → Prop} (h : Gave k o v S) (hi : NoInter k' → NoInter k) : Gave k' o v S :=
  h.imp id fun h => ⟨fun e => h.1 (hi e), h.2⟩

/-- a class in a class -/
theorem lLoop_inner {x : Ctx} {T : Tables} {f : Nat} {ic ic' : Bool} {c : CC} {prev ch : Nat} {r : Text} {g : CC → Option CC} {neg : Bool} {k k2 : CR} {w v : Text}
    {Q S : Nat → Prop} (hst : lStep x T ic c prev ch r = .inner g ic' (bra neg ++ (k.text ++ 93 :: w)))
    (hneg : neg = false → k.text.head? ≠ some 94) (hk : Gave k (lLoop x T f ic' CC.empty BAD (k.text ++ 93 :: w)) w Q)
    (hg : ∀ d, Rep d (negIf neg Q) → (g d = none ∧ ¬ NoInter k2) ∨ ∃ c', g d = some c' ∧ Gave k2 (lLoop x T f ic c' BAD w) v S)
    (hi : NoInter k2 → NoInter k) : Gave k2 (lLoop x T (f + 1) ic c prev (ch :: r)) v S := by
  rw [lLoop, hst]
  dsimp only
  rw [lBegin_bra (by simp) fun e => head_append (hneg e)]
  dsimp only
  rcases hk with ⟨d, e, hd⟩ | ⟨e1, e2⟩
  · rw [e]
    dsimp only
    obtain ⟨d', e3, hd'⟩ := rep_inv hd neg
    rw [e3, Option.bind_some]
    rcases hg d' hd' with ⟨e4, e5⟩ | ⟨c', e4, e5⟩
    · rw [e4]; exact .inr ⟨e5, rfl⟩
    · rw [e4]; exact e5
  · rw [e2]; exact .inr ⟨fun e => e1 (hi e), rfl⟩

/-- what is written is what is read -/
theorem lLoop_text {x : Ctx} (hx : CtxOk x) (hc : CasesOk x) (T : Tables) (ic : Bool) (k : CR) : ∀ (v : Text) (f : Nat) (c : CC) (P : Nat → Prop) (prev : Nat),
    OkL x ic k (93 :: v) → prev = BAD ∨ NoRange (k.text ++ 93 :: v) → Rep c P → (k.text ++ 93 :: v).length < f →
    Gave k (lLoop x T f ic c prev (k.text ++ 93 :: v)) v (setI (ctxOf x T) ic P k) := by
  induction k with
  | nil =>
    intro v f c P prev _ _ hr hf
    obtain ⟨f, rfl⟩ : ∃ g, f = g + 1 := ⟨f - 1, by omega⟩
    refine .inl ⟨c, ?_, hr⟩
    show lLoop x T (f + 1) ic c prev (93 :: v) = _
    rw [lLoop]
    simp [lStep]
  | ch w r ih =>
    intro v f c P prev h _ hr hf
    obtain ⟨h1, hs, h2, h3, h4⟩ := h
    simp only [CR.text, List.append_assoc] at hf ⊢
    obtain ⟨kk, t, e1, e2⟩ := lStep_ch hx (T := T) (ic := ic) (c := c) (prev := prev) h1 hs h3
    obtain ⟨c', e3, hr'⟩ := rep_cased hc ic hr (k := w.val) (by have := Ch.val_lt h1; unfold BAD at this; omega)
    rw [List.length_append] at hf
    obtain ⟨f, rfl⟩ : ∃ g, f = g + 1 := ⟨f - 1, by omega⟩
    rw [e1, lLoop_next (by rw [e2, e3])]
    have := Ch.len (w := w)
    exact ih v f c' _ _ h4 (.inr h2) hr' (by omega)
  | range a b r ih =>
    intro v f c P prev h _ hr hf
    obtain ⟨hi, ha, has, hb, hbs, hab, hok, h2, h4⟩ := h
    subst hi
    simp only [CR.text, List.append_assoc, List.cons_append] at hf ⊢
    obtain ⟨kk, t, e1, e2⟩ := lStep_ch hx (T := T) (ic := false) (c := c) (prev := prev) (r := 45 :: (b.text ++ (r.text ++ 93 :: v))) ha has
      (by intro _ u e; cases e)
    obtain ⟨c', e3, hr'⟩ := rep_cased hc false hr (k := a.val) (by have := Ch.val_lt ha; unfold BAD at this; omega)
    have hbv := Ch.val_lt hb
    obtain ⟨c2, e4, hr2⟩ := rep_range hr' hab (by unfold BAD at hbv; omega) hok
    have hal := Ch.len (w := a)
    have hbl := Ch.len (w := b)
    simp only [List.length_append, List.length_cons] at hf
    obtain ⟨f, rfl⟩ : ∃ g, f = g + 2 := ⟨f - 2, by omega⟩
    rw [e1, lLoop_next (by rw [e2, e3])]
    have eb := escL_ch hx (P := clsSpecial) (by simp [clsSpecial]) hb hbs (r.text ++ 93 :: v)
    have hb1 : (b.text ++ (r.text ++ 93 :: v)).head? ≠ some 91 ∧ (b.text ++ (r.text ++ 93 :: v)).head? ≠ some 93 := by
      cases b with
      | plain k =>
        have hk := hb.1
        simp only [clsSpecial, List.mem_cons, List.not_mem_nil, or_false, not_or] at hk
        simp [Ch.text, hk]
      | esc k | hex2 _ _ | hexN _ => simp [Ch.text]
    have hst : lStep x T false c' a.val 45 (b.text ++ (r.text ++ 93 :: v)) = .next (some c2) a.val (r.text ++ 93 :: v) := by
      unfold lStep
      rw [if_neg (by decide), if_neg (by decide), if_neg (by simp), if_neg (fun e => hb1.1 e.2), if_neg (by simp), if_neg (by decide), if_pos]
      · unfold lRange
        rw [eb]
        dsimp only
        rw [e4]
        congr 1
        rw [show b.text.length - 1 + 1 = b.text.length by omega, List.drop_left]
      · have := Ch.val_lt ha
        exact ⟨rfl, by omega, by simp, hb1.2⟩
    rw [lLoop_next hst]
    refine ih v f c2 _ _ h4 (.inr h2) (hr2.congr fun d _ => ?_) (by simp only [List.length_append, List.length_cons]; omega)
    simp only [folded, Bool.false_eq_true, false_and, or_false]
    constructor
    · rintro ((h | h) | h)
      · exact .inl h
      · exact .inr (by omega)
      · exact .inr h
    · rintro (h | h)
      · exact .inl (.inl h)
      · exact .inr h
  | letter kk r ih =>
    intro v f c P prev h _ hr hf
    obtain ⟨h1, h2⟩ := h
    obtain ⟨c', e3, hr'⟩ := rep_letter T x ic h1 hr
    simp only [CR.text, List.cons_append] at hf ⊢
    simp only [List.length_cons] at hf
    obtain ⟨f, rfl⟩ : ∃ g, f = g + 1 := ⟨f - 1, by omega⟩
    have hst : lStep x T ic c prev 92 (kk :: (r.text ++ 93 :: v)) = .next (some c') BAD (r.text ++ 93 :: v) := by
      unfold lStep
      rw [if_neg (by decide), if_neg (by decide), if_pos ⟨rfl, by simp⟩]
      simp only [List.headD_cons, List.drop_succ_cons, List.drop_zero, lBack, e3]
    rw [lLoop_next hst]
    exact ih v f c' _ _ h2 (.inl rfl) hr' (by omega)
  | categ n r ih =>
    intro v f c P prev h _ hr hf
    obtain ⟨h1, h2, h3⟩ := h
    obtain ⟨c', e3, hr'⟩ := rep_addNamed T x h1 hr
    simp only [CR.text, List.cons_append, List.append_assoc] at hf ⊢
    simp only [List.length_cons, List.length_append] at hf
    obtain ⟨f, rfl⟩ : ∃ g, f = g + 1 := ⟨f - 1, by omega⟩
    have hst : lStep x T ic c prev 123 (n ++ 125 :: (r.text ++ 93 :: v)) = .next (some c') BAD (r.text ++ 93 :: v) := by
      unfold lStep
      rw [if_neg (by decide), if_pos rfl]
      unfold lCurly
      rw [curly_name h2]
      dsimp only
      rw [e3]
      congr 1
      simp [List.drop_append]
    rw [lLoop_next hst]
    exact ih v f c' _ _ h3 (.inl rfl) hr' (by simp only [List.length_append, List.length_cons]; omega)
  | dash r ih =>
    intro v f c P prev h hp hr hf
    obtain ⟨h1, h2, h3⟩ := h
    obtain ⟨c', e3, hr'⟩ := rep_cased hc ic hr (k := 45) (by decide)
    simp only [CR.text, List.cons_append] at hf hp ⊢
    simp only [List.length_cons] at hf
    obtain ⟨f, rfl⟩ : ∃ g, f = g + 1 := ⟨f - 1, by omega⟩
    have hst : lStep x T ic c prev 45 (r.text ++ 93 :: v) = .next (some c') 45 (r.text ++ 93 :: v) := by
      unfold lStep
      rw [if_neg (by decide), if_neg (by decide), if_neg (by simp), if_neg (fun e => h1 e.2), if_neg (by simp), if_neg (by decide), if_neg]
      · rw [e3]
      · rintro ⟨-, h4, -, h5⟩
        rcases hp with hp | hp
        · exact h4 hp
        · rcases hp _ rfl with e | e
          · exact h1 e
          · exact h5 e
    rw [lLoop_next hst]
    refine ih v f c' _ _ h3 (.inr h2) (hr'.congr fun d _ => ?_) (by omega)
    obtain ⟨d1, d2, d3⟩ := hc.dash
    simp only [folded, ctxOf]
    constructor
    · rintro (h | h | ⟨_, e, rfl, h⟩)
      · exact .inl h
      · exact .inr h
      · rw [d1, d2, d3] at h; exact .inr (by simpa using h)
    · rintro (h | h)
      · exact .inl h
      · exact .inr (.inl h)
  | union neg k r ihk ihr =>
    intro v f c P prev h _ hr hf
    obtain ⟨h1, h2, h3⟩ := h
    simp only [CR.text, List.append_assoc, List.cons_append] at hf ⊢
    have hl : (bra neg).length ≥ 1 := by cases neg <;> simp [bra]
    simp only [List.length_cons, List.length_append] at hf
    obtain ⟨f, rfl⟩ : ∃ g, f = g + 1 := ⟨f - 1, by omega⟩
    have hk := ihk (r.text ++ 93 :: v) f CC.empty (fun _ => False) BAD h2 (.inl rfl) rep_empty (by simp only [List.length_cons, List.length_append]; omega)
    obtain ⟨t, ht⟩ := bra_head neg (k.text ++ 93 :: (r.text ++ 93 :: v))
    have hst : lStep x T ic c prev 91 t = .inner (fun t => some (c.addClass t)) ic (bra neg ++ (k.text ++ 93 :: (r.text ++ 93 :: v))) := by
      rw [ht]; simp [lStep]
    rw [ht]
    refine lLoop_inner hst h1 hk (fun d hd => .inr ⟨_, rfl, ?_⟩) fun e => e.1
    exact (ihr v f _ _ BAD h3 (.inl rfl) (rep_union hr hd) (by simp only [List.length_cons, List.length_append]; omega)).mono fun e => e.2
  | minus neg k r ihk ihr =>
    intro v f c P prev h _ hr hf
    obtain ⟨hi, h1, h2, h3⟩ := h
    subst hi
    simp only [CR.text, List.append_assoc, List.cons_append] at hf ⊢
    simp only [List.length_cons, List.length_append] at hf
    obtain ⟨f, rfl⟩ : ∃ g, f = g + 1 := ⟨f - 1, by omega⟩
    have hk := ihk (r.text ++ 93 :: v) f CC.empty (fun _ => False) BAD h2 (.inl rfl) rep_empty (by simp only [List.length_cons, List.length_append]; omega)
    obtain ⟨t, ht⟩ := bra_head neg (k.text ++ 93 :: (r.text ++ 93 :: v))
    have hst : lStep x T false c prev 45 (91 :: t) = .inner (fun t => some (c.clearClass t)) false (bra neg ++ (k.text ++ 93 :: (r.text ++ 93 :: v))) := by
      rw [ht]; simp [lStep]
    rw [ht]
    refine lLoop_inner hst h1 hk (fun d hd => .inr ⟨_, rfl, ?_⟩) fun e => e.1
    exact (ihr v f _ _ BAD h3 (.inl rfl) (rep_minus hr hd) (by simp only [List.length_cons, List.length_append]; omega)).mono fun e => e.2
  | inter neg k r ihk ihr =>
    intro v f c P prev h _ hr hf
    obtain ⟨hi, h1, h2, h3⟩ := h
    subst hi
    simp only [CR.text, List.append_assoc, List.cons_append] at hf ⊢
    simp only [List.length_cons, List.length_append] at hf
    obtain ⟨f, rfl⟩ : ∃ g, f = g + 1 := ⟨f - 1, by omega⟩
    have hk := ihk (r.text ++ 93 :: v) f CC.empty (fun _ => False) BAD h2 (.inl rfl) rep_empty (by simp only [List.length_cons, List.length_append]; omega)
    obtain ⟨t, ht⟩ := bra_head neg (k.text ++ 93 :: (r.text ++ 93 :: v))
    have hst : lStep x T false c prev 38 (38 :: 91 :: t) =
        .inner (fun t => c.intersectClass t) false (bra neg ++ (k.text ++ 93 :: (r.text ++ 93 :: v))) := by
      rw [ht]; simp [lStep]
    rw [ht]
    refine lLoop_inner hst h1 hk (fun d hd => ?_) (fun e => e.elim)
    cases hic : c.intersectClass d with
    | none => exact .inl ⟨rfl, fun e => e⟩
    | some c' =>
      refine .inr ⟨_, rfl, ?_⟩
      exact (ihr v f _ _ BAD h3 (.inl rfl) (rep_inter hr hd hic) (by simp only [List.length_cons, List.length_append]; omega)).mono fun e => e.elim

/-! ## Every text is read -/

theorem lBegin_len {t t' : Text} {neg : Bool} (h : lBegin t = some (neg, t')) : t'.length ≤ t.length := by
  cases t with
  | nil => simp [lBegin] at h
  | cons c r =>
    simp only [lBegin] at h
    by_cases hc : c = 94
    · rw [if_pos hc] at h; cases h; simp
    · rw [if_neg hc] at h; cases h; simp

/-- a round leaves at most `n` characters -/
def LStep.Leaves (n : Nat) : LStep → Prop
  | .stop rest => rest.length ≤ n
  | .null | .ub => True
  | .next _ _ rest => rest.length ≤ n
  | .inner _ _ rest => rest.length ≤ n + 1

theorem lStep_leaves {x : Ctx} {T : Tables} {ic : Bool} {c : CC} {prev k : Nat} {r : Text} : (lStep x T ic c prev k r).Leaves r.length := by
  unfold lStep
  split
  · exact Nat.le_refl _
  split
  · unfold lCurly
    cases curlyLoop x r with
    | none => trivial
    | some v => show (r.drop _).length ≤ _; simp
  split
  · unfold lBack
    cases c.addLetter T ic (r.headD 0) with
    | some o => show (r.drop 1).length ≤ _; simp
    | none =>
      dsimp only
      unfold lEsc
      rename_i h
      have hr : r.headD 0 :: r.drop 1 = r := by
        cases r with
        | nil => exact absurd rfl h.2
        | cons a r => rfl
      rw [hr]
      cases escL x (92 :: r) with
      | ub => trivial
      | bad => show (r.drop 1).length ≤ _; simp
      | ok v k => show (r.drop k).length ≤ _; simp
  split
  · exact Nat.le_succ _
  split
  · show (r.drop 1).length ≤ _; simp; omega
  split
  · exact Nat.le_refl _
  split
  · unfold lRange
    cases escL x r with
    | ub => trivial
    | bad => trivial
    | ok v k => show (r.drop _).length ≤ _; simp
  · exact Nat.le_refl _

/-- the loop ends, and what it leaves is no longer than what it was given -/
theorem lLoop_total {x : Ctx} {T : Tables} (f : Nat) : ∀ (ic : Bool) (c : CC) (prev : Nat) (t : Text), t.length < f →
    ∃ o, lLoop x T f ic c prev t = some o ∧ ∀ d v, o = .ok d v → v.length ≤ t.length := by
  induction f with
  | zero => intro ic c prev t h; omega
  | succ f ih =>
    intro ic c prev t h
    cases t with
    | nil => exact ⟨.null, rfl, fun d v e => by cases e⟩
    | cons k r =>
      simp only [List.length_cons] at h
      have hl := lStep_leaves (x := x) (T := T) (ic := ic) (c := c) (prev := prev) (k := k) (r := r)
      rw [lLoop]
      revert hl
      cases lStep x T ic c prev k r with
      | stop rest => intro hl; exact ⟨_, rfl, fun d v e => by cases e; simp only [LStep.Leaves] at hl; simp; omega⟩
      | null => intro _; exact ⟨_, rfl, fun d v e => by cases e⟩
      | ub => intro _; exact ⟨_, rfl, fun d v e => by cases e⟩
      | next o p rest =>
        intro hl
        simp only [LStep.Leaves] at hl
        cases o with
        | none => exact ⟨_, rfl, fun d v e => by cases e⟩
        | some c' =>
          obtain ⟨o, e1, e2⟩ := ih ic c' p rest (by omega)
          exact ⟨o, e1, fun d v e => by have := e2 d v e; simp; omega⟩
      | inner g ic' rest =>
        intro hl
        simp only [LStep.Leaves] at hl
        dsimp only
        cases hb : lBegin (rest.drop 1) with
        | none => exact ⟨_, rfl, fun d v e => by cases e⟩
        | some nt =>
          obtain ⟨neg, t⟩ := nt
          have ht := lBegin_len hb
          simp only [List.length_drop] at ht
          obtain ⟨o, e1, e2⟩ := ih ic' CC.empty BAD t (by omega)
          dsimp only
          rw [e1]
          cases o with
          | null => exact ⟨_, rfl, fun d v e => by cases e⟩
          | ub => exact ⟨_, rfl, fun d v e => by cases e⟩
          | ok d rest' =>
            dsimp only
            have := e2 d rest' rfl
            cases (lInv neg d).bind g with
            | none => exact ⟨_, rfl, fun d v e => by cases e⟩
            | some c' =>
              obtain ⟨o, e3, e4⟩ := ih ic c' BAD rest' (by omega)
              exact ⟨o, e3, fun d v e => by have := e4 d v e; simp; omega⟩

end Verif.CharClass
