import Verif.CharClass.Lemmas
/-! # C17: character classes denote the set they spell -/
namespace Verif.CharClass

/-- every existing page has 8 words (`new BitArray()` = 256 bits) -/
def WF (c : CC) : Prop := ∀ p b, c p = some b → b.size = 8

theorem new_size : (BA.new 256).size = 8 := by decide
theorem page_size {c : CC} (h : WF c) (p : Nat) : (page (c p)).size = 8 := by
  cases hp : c p with
  | none => exact new_size
  | some b => exact h p b hp
theorem page_bit (c : CC) (p x : Nat) : (page (c p)).getBit x = argBit (c p) x := by
  cases c p with
  | none => rfl
  | some b => rfl
theorem inClass_eq (c : CC) (ch : Nat) : c.inClass ch = argBit (c (pageOf ch)) (ch % 256) := by
  unfold CC.inClass argBit
  cases c (pageOf ch) <;> rfl
theorem pageOf_eq {ch : Nat} (h : ch < 65536) : pageOf ch = ch / 256 := by unfold pageOf; omega
theorem wf_set {c : CC} (h : WF c) (i : Nat) {b : BA} (hb : b.size = 8) : WF (c.set i b) := by
  intro p b' hp
  unfold CC.set at hp
  split at hp
  · cases hp; exact hb
  · exact h p b' hp

theorem addChar_spec {c : CC} (h : WF c) {x : Nat} (hx : x < 65536) :
    ∃ c', c.addChar x = some c' ∧ WF c' ∧ ∀ ch, ch < 65536 → c'.inClass ch = (decide (ch = x) || c.inClass ch) := by
  have hs := page_size h (pageOf x)
  obtain ⟨b', e1, e2, e3⟩ := setBit_spec (b := page (c (pageOf x))) (pos := x % 256) (by omega)
  refine ⟨c.set (pageOf x) b', by rw [CC.addChar, e1]; rfl, wf_set h _ (by omega), ?_⟩
  intro ch hch
  rw [inClass_eq, inClass_eq]
  unfold CC.set
  by_cases hp : pageOf ch = pageOf x
  · rw [if_pos hp]
    simp only [argBit]
    rw [e3, page_bit, hp]
    rw [pageOf_eq hx, pageOf_eq hch] at hp
    have : (ch % 256 = x % 256) = (ch = x) := by apply propext; constructor <;> omega
    simp only [this]; rfl
  · rw [if_neg hp]
    have : ch ≠ x := by rintro rfl; exact hp rfl
    simp [this]

theorem clearChar_spec {c : CC} (h : WF c) {x : Nat} (hx : x < 65536) :
    ∃ c', c.clearChar x = some c' ∧ WF c' ∧ ∀ ch, ch < 65536 → c'.inClass ch = (c.inClass ch && !decide (ch = x)) := by
  unfold CC.clearChar
  cases hc : c (pageOf x) with
  | none =>
    refine ⟨c, rfl, h, ?_⟩
    intro ch _
    by_cases hx : ch = x
    · subst hx; rw [inClass_eq, hc]; simp [argBit]
    · simp [hx]
  | some b =>
    have hs := h _ b hc
    obtain ⟨b', e1, e2, e3⟩ := clearBit_spec (b := b) (pos := x % 256) (by omega)
    refine ⟨c.set (pageOf x) b', by simp only [e1]; rfl, wf_set h _ (by omega), ?_⟩
    intro ch hch
    rw [inClass_eq, inClass_eq]
    unfold CC.set
    by_cases hp : pageOf ch = pageOf x
    · rw [if_pos hp]
      simp only [argBit]
      rw [e3, hp, hc]
      rw [pageOf_eq hx, pageOf_eq hch] at hp
      have : (ch % 256 = x % 256) = (ch = x) := by apply propext; constructor <;> omega
      simp only [this]; rw [Bool.and_comm]
    · rw [if_neg hp]
      have : ch ≠ x := by rintro rfl; exact hp rfl
      simp [this]

/-- the page loop does to every page what `f` does, given a per-page specification -/
theorem pagesLoop_spec (f : BA → Nat → Nat → Option BA) (g : Nat → Bool → Bool) (s e k ti : Nat) (c : CC) (h : WF c)
    (hf : ∀ t, ti ≤ t → t < ti + k → ∀ b : BA, b.size = 8 →
      ∃ b', f b (if t = s / 256 then s % 256 else 0) (if t = e / 256 then e % 256 else 255) = some b' ∧ b'.size = 8 ∧
        ∀ x, x < 256 → b'.getBit x = g (256 * t + x) (b.getBit x)) :
    ∃ c', pagesLoop f s e c ti k = some c' ∧ WF c' ∧
      ∀ p x, x < 256 → argBit (c' p) x = if ti ≤ p ∧ p < ti + k then g (256 * p + x) (argBit (c p) x) else argBit (c p) x := by
  induction k generalizing ti c with
  | zero =>
    refine ⟨c, rfl, h, ?_⟩
    intro p x _
    rw [if_neg (by omega)]
  | succ k ih =>
    obtain ⟨b', e1, e2, e3⟩ := hf ti (by omega) (by omega) (page (c ti)) (page_size h ti)
    rw [pagesLoop, e1]
    simp only
    obtain ⟨c', f1, f2, f3⟩ := ih (ti + 1) (c.set ti b') (wf_set h _ e2) (fun t h1 h2 => hf t (by omega) (by omega))
    refine ⟨c', f1, f2, ?_⟩
    intro p x hx
    rw [f3 p x hx]
    by_cases hp : p = ti
    · subst hp
      rw [if_neg (by omega), if_pos (by omega)]
      simp only [CC.set, if_pos]
      rw [← page_bit]
      exact e3 x hx
    · have : argBit ((c.set ti b') p) x = argBit (c p) x := by simp only [CC.set, if_neg hp]
      rw [this]
      by_cases h2 : ti + 1 ≤ p ∧ p < ti + 1 + k
      · rw [if_pos h2, if_pos (by omega)]
      · rw [if_neg h2, if_neg (by omega)]

/-- **What `addRange` really does** (exact, for all ordered ranges of 16 bit characters): it adds the range - and, when
the range starts on a multiple of 32 and ends inside the same 32-character cell, the whole cell. -/
theorem addRange_exact {c : CC} (h : WF c) {s e : Nat} (hse : s ≤ e) (he : e < 65536) :
    ∃ c', c.addRange s e = some c' ∧ WF c' ∧
      ∀ ch, ch < 65536 → c'.inClass ch = (decide (s ≤ ch ∧ ch ≤ addTo s e) || c.inClass ch ||
        decide (s / 256 < e / 256 ∧ e % 256 < 32 ∧ e / 256 = ch / 256 ∧ ch % 256 < 32)) := by
  have hps : pageOf s = s / 256 := pageOf_eq (by omega)
  have hpe : pageOf e = e / 256 := pageOf_eq he
  unfold CC.addRange
  rw [hps, hpe]
  obtain ⟨c', e1, e2, e3⟩ := pagesLoop_spec BA.addRange
    (fun ch o => decide (s ≤ ch ∧ ch ≤ addTo s e) || o ||
        decide (s / 256 < e / 256 ∧ e % 256 < 32 ∧ e / 256 = ch / 256 ∧ ch % 256 < 32)) s e (e / 256 + 1 - s / 256) (s / 256) c h (by
      intro t h1 h2 b hb
      obtain ⟨b', f1, f2, f3⟩ := addRange_spec (b := b) (s := if t = s / 256 then s % 256 else 0)
        (e := if t = e / 256 then e % 256 else 255) (by split <;> split <;> omega) (by rw [hb]; split <;> omega)
      refine ⟨b', f1, by omega, ?_⟩
      intro x hx
      rw [f3 x (by omega)]
      have : (decide ((if t = s / 256 then s % 256 else 0) ≤ x ∧
            x ≤ addTo (if t = s / 256 then s % 256 else 0) (if t = e / 256 then e % 256 else 255))) =
          (decide (s ≤ 256 * t + x ∧ 256 * t + x ≤ addTo s e) ||
            decide (s / 256 < e / 256 ∧ e % 256 < 32 ∧ e / 256 = (256 * t + x) / 256 ∧ (256 * t + x) % 256 < 32)) := by
        rw [← Bool.decide_or]
        congr 1; apply propext
        unfold addTo
        by_cases q1 : t = s / 256 <;> by_cases q2 : t = e / 256 <;> simp only [q1, q2, if_true, if_false] <;>
          (repeat' split) <;> omega
      rw [this]
      cases b.getBit x <;> simp)
  refine ⟨c', e1, e2, ?_⟩
  intro ch hch
  rw [inClass_eq, inClass_eq, pageOf_eq hch, e3 _ _ (by omega)]
  have hx : 256 * (ch / 256) + ch % 256 = ch := by omega
  rw [hx]
  split
  · rfl
  · rename_i hn
    have h1 : ¬ (s ≤ ch ∧ ch ≤ addTo s e) := by
      unfold addTo; split <;> omega
    have h2 : ¬ (s / 256 < e / 256 ∧ e % 256 < 32 ∧ e / 256 = ch / 256 ∧ ch % 256 < 32) := by omega
    rw [decide_eq_false h1, decide_eq_false h2]; simp

theorem addRange_ok {c : CC} (h : WF c) {s e : Nat} (hse : s ≤ e) (he : e < 65536) (hok : AddOk s e) :
    ∃ c', c.addRange s e = some c' ∧ WF c' ∧
      ∀ ch, ch < 65536 → c'.inClass ch = (decide (s ≤ ch ∧ ch ≤ e) || c.inClass ch) := by
  obtain ⟨c', e1, e2, e3⟩ := addRange_exact h hse he
  refine ⟨c', e1, e2, ?_⟩
  intro ch hch
  rw [e3 ch hch, addTo_ok hse hok]
  by_cases hq : s / 256 < e / 256 ∧ e % 256 < 32 ∧ e / 256 = ch / 256 ∧ ch % 256 < 32
  · have h2 : s ≤ ch ∧ ch ≤ e := by
      have := hok.2 hq.1
      omega
    simp [h2]
  · rw [decide_eq_false hq]; simp

theorem clearRange_ok {c : CC} (h : WF c) {s e : Nat} (hse : s ≤ e) (he : e < 65536) (hok : ClearOk s e) :
    ∃ c', c.clearRange s e = some c' ∧ WF c' ∧
      ∀ ch, ch < 65536 → c'.inClass ch = (c.inClass ch && !decide (s ≤ ch ∧ ch ≤ e)) := by
  have hps : pageOf s = s / 256 := pageOf_eq (by omega)
  have hpe : pageOf e = e / 256 := pageOf_eq he
  unfold CC.clearRange
  rw [hps, hpe]
  obtain ⟨c', e1, e2, e3⟩ := pagesLoop_spec BA.clearRange
    (fun ch o => o && !decide (s ≤ ch ∧ ch ≤ e)) s e (e / 256 + 1 - s / 256) (s / 256) c h (by
      intro t h1 h2 b hb
      obtain ⟨b', f1, f2, f3⟩ := clearRange_spec (b := b) (s := if t = s / 256 then s % 256 else 0)
        (e := if t = e / 256 then e % 256 else 255) (by split <;> split <;> omega) (by rw [hb]; split <;> omega) (by
          unfold ClearOk at hok
          by_cases q1 : t = s / 256 <;> by_cases q2 : t = e / 256 <;> simp only [q1, q2, if_true, if_false] at hok ⊢
          · have q3 : s / 256 = e / 256 := by omega
            simp only [q3, if_true] at hok ⊢
            exact hok
          · have q3 : ¬ s / 256 = e / 256 := by omega
            simp only [q3, if_false] at hok ⊢
            exact hok.1
          · have q3 : ¬ s / 256 = e / 256 := by omega
            have q4 : ¬ e / 256 = s / 256 := by omega
            simp only [q3, q4, if_false] at hok ⊢
            exact hok.2
          · unfold ClearOkBA; omega)
      refine ⟨b', f1, by omega, ?_⟩
      intro x hx
      rw [f3 x (by omega)]
      have : (decide ((if t = s / 256 then s % 256 else 0) ≤ x ∧ x ≤ (if t = e / 256 then e % 256 else 255))) =
          decide (s ≤ 256 * t + x ∧ 256 * t + x ≤ e) := by
        congr 1; apply propext
        by_cases q1 : t = s / 256 <;> by_cases q2 : t = e / 256 <;> simp only [q1, q2, if_true, if_false] <;>
          (repeat' split) <;> omega
      rw [this, Bool.and_comm])
  refine ⟨c', e1, e2, ?_⟩
  intro ch hch
  rw [inClass_eq, inClass_eq, pageOf_eq hch, e3 _ _ (by omega)]
  have hx : 256 * (ch / 256) + ch % 256 = ch := by omega
  rw [hx]
  split
  · rfl
  · rename_i hn
    have h1 : ¬ (s ≤ ch ∧ ch ≤ e) := by omega
    rw [decide_eq_false h1]; simp

theorem fill_ok {c : CC} (h : WF c) : ∃ c', c.fill = some c' ∧ WF c' ∧ ∀ ch, c'.inClass ch = true := by
  unfold CC.fill
  obtain ⟨c', e1, e2, e3⟩ := pagesLoop_spec (fun b _ _ => b.addRange 0 255) (fun _ _ => true) 0 0 256 0 c h (by
      intro t h1 h2 b hb
      obtain ⟨b', f1, f2, f3⟩ := addRange_spec (b := b) (s := 0) (e := 255) (by omega) (by omega)
      refine ⟨b', f1, by omega, ?_⟩
      intro x hx
      rw [f3 x (by omega)]
      have : 0 ≤ x ∧ x ≤ addTo 0 255 := by unfold addTo; split <;> omega
      simp [this])
  refine ⟨c', e1, e2, ?_⟩
  intro ch
  rw [inClass_eq, e3 _ _ (by omega), if_pos]
  unfold pageOf; omega

theorem addClass_ok {c d : CC} (h : WF c) : WF (c.addClass d) ∧ ∀ ch, (c.addClass d).inClass ch = (c.inClass ch || d.inClass ch) := by
  constructor
  · intro p b hb
    unfold CC.addClass at hb
    split at hb
    · cases hb; rw [(addBA_spec _ _).1]; exact page_size h p
    · exact h p b hb
  · intro ch
    have hp : pageOf ch < 256 := by unfold pageOf; omega
    rw [inClass_eq, inClass_eq, inClass_eq]
    simp only [CC.addClass, if_pos hp, argBit]
    rw [(addBA_spec _ _).2, page_bit]
    rfl

theorem clearClass_ok {c d : CC} (h : WF c) : WF (c.clearClass d) ∧ ∀ ch, (c.clearClass d).inClass ch = (c.inClass ch && !d.inClass ch) := by
  constructor
  · intro p b hb
    unfold CC.clearClass at hb
    split at hb
    · cases hc : c p with
      | none => rw [hc] at hb; simp at hb
      | some b0 => rw [hc] at hb; simp at hb; subst hb; rw [(clearBA_spec _ _).1]; exact h p b0 hc
    · exact h p b hb
  · intro ch
    have hp : pageOf ch < 256 := by unfold pageOf; omega
    rw [inClass_eq, inClass_eq, inClass_eq]
    simp only [CC.clearClass, if_pos hp]
    cases hc : c (pageOf ch) with
    | none => simp [argBit]
    | some b =>
      simp only [Option.map_some, argBit]
      rw [(clearBA_spec _ _).2]
      rfl

theorem interLoop_spec (d : CC) (k p : Nat) (c c' : CC) (h : WF c) (he : interLoop d c p k = some c') :
    WF c' ∧ ∀ q x, argBit (c' q) x = if p ≤ q ∧ q < p + k then (argBit (c q) x && argBit (d q) x) else argBit (c q) x := by
  induction k generalizing p c with
  | zero =>
    cases he
    refine ⟨h, ?_⟩
    intro q x
    rw [if_neg (by omega)]
  | succ k ih =>
    rw [interLoop] at he
    cases hc : c p with
    | none =>
      simp only [hc] at he
      obtain ⟨h1, h2⟩ := ih _ _ h he
      refine ⟨h1, ?_⟩
      intro q x
      rw [h2]
      by_cases hq : q = p
      · subst hq; rw [if_neg (by omega), if_pos (by omega), hc]; simp [argBit]
      · by_cases h3 : p + 1 ≤ q ∧ q < p + 1 + k
        · rw [if_pos h3, if_pos (by omega)]
        · rw [if_neg h3, if_neg (by omega)]
    | some b =>
      simp only [hc] at he
      cases hi : b.intersectBA (d p) with
      | none => simp [hi] at he
      | some b' =>
        simp only [hi] at he
        obtain ⟨s1, s2⟩ := intersectBA_spec hi
        obtain ⟨h1, h2⟩ := ih _ _ (wf_set h _ (by rw [s1]; exact h p b hc)) he
        refine ⟨h1, ?_⟩
        intro q x
        rw [h2]
        by_cases hq : q = p
        · subst hq
          rw [if_neg (by omega), if_pos (by omega), hc]
          simp only [CC.set, if_pos, argBit]
          rw [s2]; rfl
        · have : argBit ((c.set p b') q) x = argBit (c q) x := by simp only [CC.set, if_neg hq]
          rw [this]
          by_cases h3 : p + 1 ≤ q ∧ q < p + 1 + k
          · rw [if_pos h3, if_pos (by omega)]
          · rw [if_neg h3, if_neg (by omega)]

theorem intersect_ok {c d c' : CC} (h : WF c) (he : c.intersectClass d = some c') :
    WF c' ∧ ∀ ch, c'.inClass ch = (c.inClass ch && d.inClass ch) := by
  obtain ⟨h1, h2⟩ := interLoop_spec d 256 0 c c' h he
  refine ⟨h1, ?_⟩
  intro ch
  rw [inClass_eq, inClass_eq, inClass_eq, h2, if_pos]
  unfold pageOf; omega

/-- **C17 (partial)** For every set expression (any depth) over 16 bit characters whose ranges are of the handled kind:
if building the class does not hit the sentinel deletion of `intersect`, membership is exactly the set meant.
Missing from the full claim: the ranges excluded by `AddOk`/`ClearOk` and characters above U+FFFF, where the code
is wrong (see `C17_violated_*`). -/
theorem C17_class_denotes_its_set_partial (x : Expr) (hok : x.Ok) (c : CC) (he : x.eval = some c) :
    ∀ ch, ch < 65536 → (c.inClass ch = true ↔ x.den ch) := by
  suffices h : WF c ∧ ∀ ch, ch < 65536 → (c.inClass ch = true ↔ x.den ch) from h.2
  induction x generalizing c with
  | empty =>
    cases he
    refine ⟨?_, ?_⟩
    · intro p b hb; simp [CC.empty] at hb
    · intro ch _; simp [CC.inClass, CC.empty, Expr.den]
  | addChar x a ih =>
    simp only [Expr.eval, Option.bind_eq_some_iff] at he
    obtain ⟨cx, h1, h2⟩ := he
    obtain ⟨w, m⟩ := ih hok.1 cx h1
    obtain ⟨c', e1, e2, e3⟩ := addChar_spec w hok.2
    rw [e1] at h2; cases h2
    refine ⟨e2, ?_⟩
    intro ch hch
    rw [e3 ch hch]
    simp [Expr.den, m ch hch]
  | clearChar x a ih =>
    simp only [Expr.eval, Option.bind_eq_some_iff] at he
    obtain ⟨cx, h1, h2⟩ := he
    obtain ⟨w, m⟩ := ih hok.1 cx h1
    obtain ⟨c', e1, e2, e3⟩ := clearChar_spec w hok.2
    rw [e1] at h2; cases h2
    refine ⟨e2, ?_⟩
    intro ch hch
    rw [e3 ch hch]
    simp [Expr.den, m ch hch]
  | addRange x s e ih =>
    simp only [Expr.eval, Option.bind_eq_some_iff] at he
    obtain ⟨cx, h1, h2⟩ := he
    obtain ⟨w, m⟩ := ih hok.1 cx h1
    obtain ⟨c', e1, e2, e3⟩ := addRange_ok w hok.2.1 hok.2.2.1 hok.2.2.2
    rw [e1] at h2; cases h2
    refine ⟨e2, ?_⟩
    intro ch hch
    rw [e3 ch hch]
    simp [Expr.den, m ch hch]
  | clearRange x s e ih =>
    simp only [Expr.eval, Option.bind_eq_some_iff] at he
    obtain ⟨cx, h1, h2⟩ := he
    obtain ⟨w, m⟩ := ih hok.1 cx h1
    obtain ⟨c', e1, e2, e3⟩ := clearRange_ok w hok.2.1 hok.2.2.1 hok.2.2.2
    rw [e1] at h2; cases h2
    refine ⟨e2, ?_⟩
    intro ch hch
    rw [e3 ch hch]
    simp only [Expr.den, Bool.and_eq_true, m ch hch, Bool.not_eq_true', decide_eq_false_iff_not]
  | addClass x y ihx ihy =>
    simp only [Expr.eval, Option.bind_eq_some_iff, Option.map_eq_some_iff] at he
    obtain ⟨cx, h1, cy, h2, rfl⟩ := he
    obtain ⟨w, m⟩ := ihx hok.1 cx h1
    obtain ⟨w2, m2⟩ := ihy hok.2 cy h2
    refine ⟨(addClass_ok w).1, ?_⟩
    intro ch hch
    rw [(addClass_ok w).2]
    simp [Expr.den, m ch hch, m2 ch hch]
  | clearClass x y ihx ihy =>
    simp only [Expr.eval, Option.bind_eq_some_iff, Option.map_eq_some_iff] at he
    obtain ⟨cx, h1, cy, h2, rfl⟩ := he
    obtain ⟨w, m⟩ := ihx hok.1 cx h1
    obtain ⟨w2, m2⟩ := ihy hok.2 cy h2
    refine ⟨(clearClass_ok w).1, ?_⟩
    intro ch hch
    rw [(clearClass_ok w).2]
    simp [Expr.den, m ch hch, ← m2 ch hch]
  | intersect x y ihx ihy =>
    simp only [Expr.eval, Option.bind_eq_some_iff] at he
    obtain ⟨cx, h1, cy, h2, h3⟩ := he
    obtain ⟨w, m⟩ := ihx hok.1 cx h1
    obtain ⟨w2, m2⟩ := ihy hok.2 cy h2
    obtain ⟨g1, g2⟩ := intersect_ok w h3
    refine ⟨g1, ?_⟩
    intro ch hch
    rw [g2]
    simp [Expr.den, m ch hch, m2 ch hch]
  | fill x ih =>
    simp only [Expr.eval, Option.bind_eq_some_iff] at he
    obtain ⟨cx, h1, h2⟩ := he
    obtain ⟨w, m⟩ := ih hok cx h1
    obtain ⟨c', e1, e2, e3⟩ := fill_ok w
    rw [e1] at h2; cases h2
    exact ⟨e2, fun ch _ => by simp [e3, Expr.den]⟩

/-- no `intersect` in the expression -/
def Expr.NoInter : Expr → Prop
  | .empty => True
  | .addChar x _ => x.NoInter
  | .clearChar x _ => x.NoInter
  | .addRange x _ _ => x.NoInter
  | .clearRange x _ _ => x.NoInter
  | .addClass x y => x.NoInter ∧ y.NoInter
  | .clearClass x y => x.NoInter ∧ y.NoInter
  | .intersect _ _ => False
  | .fill x => x.NoInter

/-- **C17** Building a class without intersections never leaves the arrays and always succeeds. -/
theorem C17_class_construction_is_safe (x : Expr) (hok : x.Ok) (hn : x.NoInter) : ∃ c, x.eval = some c := by
  suffices h : ∃ c, x.eval = some c ∧ WF c from h.imp fun _ h => h.1
  induction x with
  | empty => exact ⟨_, rfl, by intro p b hb; simp [CC.empty] at hb⟩
  | addChar x a ih =>
    obtain ⟨c, h1, w⟩ := ih hok.1 hn
    obtain ⟨c', e1, e2, _⟩ := addChar_spec w hok.2
    exact ⟨c', by simp [Expr.eval, h1, e1], e2⟩
  | clearChar x a ih =>
    obtain ⟨c, h1, w⟩ := ih hok.1 hn
    obtain ⟨c', e1, e2, _⟩ := clearChar_spec w hok.2
    exact ⟨c', by simp [Expr.eval, h1, e1], e2⟩
  | addRange x s e ih =>
    obtain ⟨c, h1, w⟩ := ih hok.1 hn
    obtain ⟨c', e1, e2, _⟩ := addRange_ok w hok.2.1 hok.2.2.1 hok.2.2.2
    exact ⟨c', by simp [Expr.eval, h1, e1], e2⟩
  | clearRange x s e ih =>
    obtain ⟨c, h1, w⟩ := ih hok.1 hn
    obtain ⟨c', e1, e2, _⟩ := clearRange_ok w hok.2.1 hok.2.2.1 hok.2.2.2
    exact ⟨c', by simp [Expr.eval, h1, e1], e2⟩
  | addClass x y ihx ihy =>
    obtain ⟨c, h1, w⟩ := ihx hok.1 hn.1
    obtain ⟨d, h2, _⟩ := ihy hok.2 hn.2
    exact ⟨c.addClass d, by simp [Expr.eval, h1, h2], (addClass_ok w).1⟩
  | clearClass x y ihx ihy =>
    obtain ⟨c, h1, w⟩ := ihx hok.1 hn.1
    obtain ⟨d, h2, _⟩ := ihy hok.2 hn.2
    exact ⟨c.clearClass d, by simp [Expr.eval, h1, h2], (clearClass_ok w).1⟩
  | intersect x y => exact hn.elim
  | fill x ih =>
    obtain ⟨c, h1, w⟩ := ih hok hn
    obtain ⟨c', e1, e2, _⟩ := fill_ok w
    exact ⟨c', by simp [Expr.eval, h1, e1], e2⟩

/-! ## The full claim is false of the code -/

/-- **C17 is violated** by the range from space to slash (U+0020..U+002F): the digit `0` is a member (BitArray.cpp:41-53). -/
theorem C17_violated_aligned_range : ∃ c, (Expr.addRange .empty 0x20 0x2F).eval = some c ∧ c.inClass 0x30 = true ∧
    ¬ (Expr.addRange .empty 0x20 0x2F).den 0x30 := by
  refine ⟨((Expr.addRange .empty 0x20 0x2F).eval).get (by decide +kernel), by simp, by decide +kernel, ?_⟩
  simp [Expr.den]

/-- **C17 is violated** by clearing `[b-d]` from `[a-z]`: `e` is lost too (BitArray.cpp:67). -/
theorem C17_violated_clear_range : ∃ c, (Expr.clearRange (.addRange .empty 0x61 0x7A) 0x62 0x64).eval = some c ∧
    c.inClass 0x65 = false ∧ (Expr.clearRange (.addRange .empty 0x61 0x7A) 0x62 0x64).den 0x65 := by
  refine ⟨((Expr.clearRange (.addRange .empty 0x61 0x7A) 0x62 0x64).eval).get (by decide +kernel), by simp, by decide +kernel, ?_⟩
  simp [Expr.den]

/-- **C17 is violated** by `[{ALL}&&[a]]`: intersecting a full page with an absent one deletes the sentinel pointer
(BitArray.cpp:114-118). -/
theorem C17_violated_intersect_full : (Expr.intersect (.fill .empty) (.addChar .empty 0x61)).eval.isNone = true := by
  decide +kernel

/-- **C17 is violated** above U+FFFF: U+10041 is a member of `[A]` (CharacterClass.cpp:331). -/
theorem C17_violated_astral : ∃ c, (Expr.addChar .empty 0x41).eval = some c ∧ c.inClass 0x10041 = true := by
  exact ⟨((Expr.addChar .empty 0x41).eval).get (by decide +kernel), by simp, by decide +kernel⟩

/-! ## Concrete case: `[A-Za-z_0-9-[b]&&[^c]]` -/
def exClass : Expr :=
  .intersect (.clearClass (.addRange (.addChar (.addRange (.addRange .empty 0x41 0x5A) 0x61 0x7A) 0x5F) 0x30 0x39) (.addChar .empty 0x62))
    (.clearClass (.fill .empty) (.addChar .empty 0x63))
example : exClass.Ok := by simp [exClass, Expr.Ok, AddOk]
example : exClass.eval.isSome = true := by decide +kernel
example : (exClass.eval.map fun c => [c.inClass 0x61, c.inClass 0x62, c.inClass 0x63, c.inClass 0x64]) = some [true, false, false, true] := by
  decide +kernel
example : (Expr.clearRange (.fill .empty) 0x41 0x85).Ok := by simp [Expr.Ok, ClearOk, ClearOkBA]

end Verif.CharClass
