import Verif.RegExp.Total
import Verif.RegExp.Syntax

/-!
# Characters and classes are read as they are written (C57)
-/
namespace Verif.RegExp

/-! ## Characters -/

theorem getHex_val {x : Ctx} (hx : CtxOk x) {c n : Nat} (h : hexVal c = some n) : getHex x c = some n := by
  unfold hexVal at h
  unfold getHex
  split at h
  · rename_i h1
    rw [hx.digit c h1.1 h1.2]
    have : (c + 65536 - 48) % 65536 = c - 48 := by omega
    dsimp only
    rw [this, if_neg (by omega), if_neg (by omega)]
    exact h
  · split at h
    · rename_i h1
      rw [hx.small c h1.1 h1.2]
      have : (c + 65536 - 48) % 65536 = c - 48 := by omega
      dsimp only
      rw [this, if_pos (by omega)]
      rw [← h]; congr 1
    · split at h
      · rename_i h1
        rw [hx.big c h1.1 h1.2]
        have : (c + 32 + 65536 - 48) % 65536 = c + 32 - 48 := by omega
        dsimp only
        rw [this, if_pos (by omega)]
        rw [← h]; congr 1
      · cases h

theorem isHex_val {c : Nat} (h : isHex c = true) : hexVal c = some ((hexVal c).getD 0) := by
  unfold isHex at h
  cases hc : hexVal c with
  | none => rw [hc] at h; cases h
  | some n => rfl

theorem getHex_not {x : Ctx} (hx : CtxOk x) {c : Nat} (hc : c < 65536) (h : isHex c = false) : getHex x c = none := by
  obtain ⟨h1, h2⟩ := hx.other c hc h
  unfold getHex
  generalize x.lower c = d at h1 h2
  have h3 : ¬ (48 ≤ d ∧ d ≤ 57) := by
    intro h; simp [isHex, hexVal, h] at h2
  have h4 : ¬ (97 ≤ d ∧ d ≤ 102) := by
    intro h
    have : ¬ (48 ≤ d ∧ d ≤ 57) := by omega
    simp [isHex, hexVal, h, this] at h2
  by_cases h5 : 48 ≤ d
  · have : (d + 65536 - 48) % 65536 = d - 48 := by omega
    dsimp only
    rw [this, if_neg (by omega), if_pos (by omega)]
  · have : (d + 65536 - 48) % 65536 = d + 65488 := by omega
    dsimp only
    rw [this, if_neg (by omega), if_pos (by omega)]

theorem getHexNumber_val {x : Ctx} (hx : CtxOk x) (ds : Text) (h : ds.all isHex = true) : getHexNumber x ds = some (hexNum ds) := by
  unfold getHexNumber hexNum
  have key : ∀ a : Nat, ds.foldl (fun a c => match a, getHex x c with | some n, some d => some (16 * n + d) | _, _ => none) (some a) =
      some (ds.foldl (fun a c => 16 * a + (hexVal c).getD 0) a) := by
    induction ds with
    | nil => intro a; rfl
    | cons c ds ih =>
      intro a
      simp only [List.all_cons, Bool.and_eq_true] at h
      simp only [List.foldl_cons]
      rw [getHex_val hx (isHex_val h.1)]
      exact ih h.2 _
  exact key 0

theorem curly_name {x : Ctx} {n : Text} (h : NameOk x n) (r : Text) : curlyLoop x (n ++ 125 :: r) = some n := by
  induction n with
  | nil => rfl
  | cons c n ih =>
    obtain ⟨h1, h2⟩ := h c List.mem_cons_self
    rw [List.cons_append, curlyLoop, if_neg h2, if_pos h1, ih fun d hd => h d (List.mem_cons_of_mem _ hd)]
    rfl

theorem getCurly_name {x : Ctx} {n : Text} (h : NameOk x n) (r : Text) : getCurly x (123 :: (n ++ 125 :: r)) = some n := by
  unfold getCurly
  rw [if_pos (by rfl)]
  exact curly_name h r

theorem hex_name {x : Ctx} (hx : CtxOk x) {ds : Text} (h : ds.all isHex = true) : NameOk x ds := by
  intro c hc
  have := List.all_eq_true.1 h c hc
  refine ⟨hx.graph c this, ?_⟩
  rintro rfl
  revert this
  decide

theorem hexVal_lt {c : Nat} : (hexVal c).getD 0 < 16 := by
  unfold hexVal
  repeat' split
  all_goals simp only [Option.getD_some, Option.getD_none]; omega

theorem hex2_lt (a b : Nat) : hexNum [a, b] < BAD := by
  have h1 := hexVal_lt (c := a)
  have h2 := hexVal_lt (c := b)
  simp only [hexNum, List.foldl_cons, List.foldl_nil, BAD]
  omega

theorem Ch.val_lt {P : Nat → Prop} {w : Ch} (h : w.Ok P) : w.val < BAD := by
  cases w with
  | plain c => exact h.2
  | esc c => exact h.2
  | hex2 a b => exact hex2_lt a b
  | hexN ds => exact h.2

theorem Ch.len {w : Ch} : 0 < w.text.length := by
  cases w <;> simp [Ch.text]

/-- a character as it is written, wherever it stands -/
theorem getEscaped_ch {x : Ctx} (hx : CtxOk x) {P : Nat → Prop} (hP : P 92) {w : Ch} (h : w.Ok P) (r : Text) :
    getEscaped x (w.text ++ r) = (w.val, w.text.length - 1) := by
  cases w with
  | plain c =>
    have hc : c ≠ 92 := by rintro rfl; exact h.1 hP
    simp [getEscaped, Ch.text, Ch.val, ch, hc]
  | esc c =>
    have hc : c ≠ 120 := by rintro rfl; have := h.1; revert this; decide
    simp [getEscaped, Ch.text, Ch.val, ch, hc]
  | hex2 a b =>
    obtain ⟨ha, hb⟩ := h
    have hc : a ≠ 123 := by rintro rfl; revert ha; decide
    have e := getHexNumber_val hx [a, b] (by simp [ha, hb])
    simp [getEscaped, Ch.text, Ch.val, ch, hc, e]
  | hexN ds =>
    obtain ⟨hd, hl⟩ := h
    have hl' : ¬ (65535 < hexNum ds) := by unfold BAD at hl; omega
    have e := getHexNumber_val hx ds hd
    have e2 := getCurly_name (hex_name hx hd) r
    simp [getEscaped, Ch.text, Ch.val, ch, e, e2, hl']

/-! ## The class loop -/

theorem clsLoop_more (x : Ctx) (f : Nat) : ∀ (g : Nat) (ic : Bool) (s : Cls) (prev : Nat) (t : Text), t.length < f → t.length < g →
    clsLoop x f ic s prev t = clsLoop x g ic s prev t := by
  induction f with
  | zero => intro _ _ _ _ t h; omega
  | succ f ih =>
    intro g ic s prev t hf hg
    cases g with
    | zero => omega
    | succ g =>
      cases t with
      | nil => rfl
      | cons c r =>
        simp only [List.length_cons] at hf hg
        obtain ⟨h1, h2, h3⟩ := clsStep_len x ic s prev c r
        rw [clsLoop, clsLoop]
        cases hc : clsStep x ic s prev c r with
        | stop rest => rfl
        | bad => rfl
        | next s' p rest =>
          have := h2 _ _ _ hc
          exact ih g ic s' p rest (by omega) (by omega)
        | inner k ic' rest =>
          have := h3 _ _ _ hc
          have hb := clsBegin_len (rest.drop 1)
          simp only [List.length_drop] at hb
          dsimp only
          rw [ih g ic' (fun _ => false) BAD _ (by omega) (by omega)]
          obtain ⟨o, e, hr⟩ := clsLoop_ends x g ic' (fun _ => false) BAD (clsBegin (rest.drop 1)).2 (by omega)
          rw [e]
          cases o with
          | none => rfl
          | some v =>
            obtain ⟨k', rest'⟩ := v
            have := hr _ _ rfl
            exact ih g _ _ _ _ (by omega) (by omega)

/-- the class loop, with as many rounds as it needs -/
def K (x : Ctx) (ic : Bool) (s : Cls) (prev : Nat) (t : Text) : Option (Option (Cls × Text)) := clsLoop x (t.length + 1) ic s prev t

theorem K_next {x : Ctx} {ic : Bool} {s : Cls} {prev c : Nat} {r : Text} {s' : Cls} {p : Nat} {rest : Text}
    (h : clsStep x ic s prev c r = .next s' p rest) : K x ic s prev (c :: r) = K x ic s' p rest := by
  have := (clsStep_len x ic s prev c r).2.1 _ _ _ h
  unfold K
  rw [clsLoop, h]
  simp only [List.length_cons]
  exact clsLoop_more x _ _ _ _ _ _ (by omega) (by omega)

theorem K_inner {x : Ctx} {ic ic' : Bool} {s : Cls} {prev c : Nat} {r : Text} {g : Cls → Cls} {rest rest' : Text} {k : Cls}
    (h : clsStep x ic s prev c r = .inner g ic' rest)
    (hk : K x ic' (fun _ => false) BAD (clsBegin (rest.drop 1)).2 = some (some (k, rest'))) :
    K x ic s prev (c :: r) = K x ic (g (if (clsBegin (rest.drop 1)).1 then fun d => !k d else k)) BAD rest' := by
  have h1 := (clsStep_len x ic s prev c r).2.2 _ _ _ h
  have hb := clsBegin_len (rest.drop 1)
  simp only [List.length_drop] at hb
  unfold K at hk ⊢
  obtain ⟨o, e, hr⟩ := clsLoop_ends x _ ic' (fun _ => false) BAD (clsBegin (rest.drop 1)).2 (Nat.lt_succ_self _)
  rw [hk] at e
  cases e
  have h2 := hr _ _ rfl
  rw [clsLoop, h]
  simp only [List.length_cons]
  rw [clsLoop_more x (r.length + 1) ((clsBegin (rest.drop 1)).2.length + 1) ic' (fun _ => false) BAD _ (by omega) (by omega), hk]
  exact clsLoop_more x _ _ _ _ _ _ (by omega) (by omega)

theorem K_stop {x : Ctx} {ic : Bool} {s : Cls} {prev : Nat} {r : Text} : K x ic s prev (93 :: r) = some (some (s, r)) := by
  unfold K
  rw [clsLoop]
  have : clsStep x ic s prev 93 r = .stop r := by simp [clsStep]
  rw [this]

/-- the set as computed -/
def CR.setB (x : Ctx) : Cls → CR → Cls
  | s, .nil => s
  | s, .ch w r => r.setB x (s.addCh w.val)
  | s, .range a b r => r.setB x ((s.addCh a.val).range a.val b.val)
  | s, .letter c r => r.setB x (match escClass x false c with | some f => f s | none => s)
  | s, .categ n r => r.setB x (s.union (x.categ n))
  | s, .dash r => r.setB x (s.addCh 45)
  | s, .union neg k r => r.setB x (s.union (if neg then fun d => !(k.setB x fun _ => false) d else k.setB x fun _ => false))
  | s, .minus neg k r => r.setB x (s.minus (if neg then fun d => !(k.setB x fun _ => false) d else k.setB x fun _ => false))
  | s, .inter neg k r => r.setB x (s.inter (if neg then fun d => !(k.setB x fun _ => false) d else k.setB x fun _ => false))

theorem step_plain {x : Ctx} {s : Cls} {prev c : Nat} {r : Text} (h : ¬ clsSpecial c) (h2 : c = 38 → ∀ v, r ≠ 38 :: 91 :: v) :
    clsStep x false s prev c r = .next (s.addCh c) c r := by
  simp only [clsSpecial, List.mem_cons, List.not_mem_nil, or_false, not_or] at h
  obtain ⟨h93, h91, h123, h92, h45⟩ := h
  have h3 : ¬ (c = 38 ∧ ch r 0 = 38 ∧ ch r 1 = 91 ∧ 1 < r.length) := by
    rintro ⟨e, a, b, d⟩
    match r, d with
    | p :: q :: v, _ =>
      simp only [ch, List.getD_cons_zero, List.getD_cons_succ] at a b
      exact h2 e v (by rw [a, b])
  unfold clsStep
  rw [if_neg h93, if_neg h123, if_neg (by simp [h92]), if_neg (by simp [h45]), if_neg h3, if_neg h91, if_neg (by simp [h45])]
  rfl

theorem escClass_none {x : Ctx} {c : Nat} (h : c ∉ [100, 68, 119, 87, 115, 83, 108, 117]) : escClass x false c = none := by
  simp only [List.mem_cons, List.not_mem_nil, or_false, not_or] at h
  simp [escClass, h]

theorem step_esc {x : Ctx} {s : Cls} {prev c : Nat} {r : Text} {v k : Nat} (h : c ∉ [100, 68, 119, 87, 115, 83, 108, 117])
    (he : getEscaped x (92 :: c :: r) = (v, k)) (hv : v < BAD) : clsStep x false s prev 92 (c :: r) = .next (s.addCh v) v ((c :: r).drop k) := by
  unfold clsStep
  rw [if_neg (by decide), if_neg (by decide), if_pos ⟨rfl, by simp⟩]
  have : ch (c :: r) 0 = c := rfl
  rw [this, escClass_none h]
  dsimp only
  rw [he, if_neg (by omega)]
  rfl

theorem step_letter {x : Ctx} {s : Cls} {prev c : Nat} {r : Text} {f : Cls → Cls} (h : escClass x false c = some f) :
    clsStep x false s prev 92 (c :: r) = .next (f s) BAD r := by
  unfold clsStep
  rw [if_neg (by decide), if_neg (by decide), if_pos ⟨rfl, by simp⟩]
  have : ch (c :: r) 0 = c := rfl
  rw [this, h]
  rfl

/-- a character in a class -/
theorem K_ch {x : Ctx} (hx : CtxOk x) {s : Cls} {prev : Nat} {w : Ch} {r : Text} (h : w.Ok clsSpecial) (h2 : w.text = [38] → ∀ v, r ≠ 38 :: 91 :: v) :
    K x false s prev (w.text ++ r) = K x false (s.addCh w.val) w.val r := by
  have he := getEscaped_ch hx (P := clsSpecial) (by simp [clsSpecial]) h r
  have hv := Ch.val_lt h
  cases w with
  | plain c =>
    exact K_next (step_plain h.1 fun e => h2 (by rw [e]; rfl))
  | esc c =>
    have hc : c ∉ [100, 68, 119, 87, 115, 83, 108, 117] := by
      have := h.1
      intro hm
      simp only [List.mem_cons, List.not_mem_nil, or_false] at hm
      rcases hm with rfl | rfl | rfl | rfl | rfl | rfl | rfl | rfl <;> revert this <;> decide
    exact K_next (step_esc hc he hv)
  | hex2 a b => exact K_next (step_esc (by decide) he hv)
  | hexN ds =>
    have : (Ch.hexN ds).text ++ r = 92 :: 120 :: (123 :: (ds ++ 125 :: r)) := by simp [Ch.text]
    rw [this] at he ⊢
    rw [K_next (step_esc (by decide) he hv)]
    congr 1
    simp [Ch.text]

theorem clsBegin_bra {neg : Bool} {t : Text} (h : neg = false → t.head? ≠ some 94) : clsBegin ((bra neg ++ t).drop 1) = (neg, t) := by
  cases neg with
  | true => rfl
  | false =>
    have h := h rfl
    show clsBegin t = (false, t)
    cases t with
    | nil => rfl
    | cons c t =>
      simp only [List.head?_cons, ne_eq, Option.some.injEq] at h
      simp [clsBegin, ch, h]

theorem bra_head (neg : Bool) (t : Text) : ∃ v, bra neg ++ t = 91 :: v := by
  cases neg <;> exact ⟨_, rfl⟩

theorem head_append {k : CR} {v : Text} (h : k.text.head? ≠ some 94) : (k.text ++ 93 :: v).head? ≠ some 94 := by
  cases hk : k.text with
  | nil => simp
  | cons c t => rw [hk] at h; simpa using h

/-- what is written is what is read -/
theorem K_text {x : Ctx} (hx : CtxOk x) (k : CR) : ∀ (v : Text) (s : Cls) (prev : Nat), k.Ok x (93 :: v) → prev = BAD ∨ NoRange (k.text ++ 93 :: v) →
    K x false s prev (k.text ++ 93 :: v) = some (some (k.setB x s, v)) := by
  induction k with
  | nil => intro v s prev _ _; exact K_stop
  | ch w r ih =>
    intro v s prev h _
    obtain ⟨h1, h2, h3, h4⟩ := h
    simp only [CR.text, List.append_assoc]
    rw [K_ch hx h1 h3]
    exact ih v _ _ h4 (Or.inr h2)
  | range a b r ih =>
    intro v s prev h _
    obtain ⟨h1, h2, -, h3, h4⟩ := h
    simp only [CR.text, List.append_assoc, List.cons_append]
    rw [K_ch hx h1 (by intro _ v h; cases h)]
    have hv := Ch.val_lt h1
    have hb := Ch.val_lt h2
    have he := getEscaped_ch hx (P := clsSpecial) (by simp [clsSpecial]) h2 (r.text ++ 93 :: v)
    have hh : ch (b.text ++ (r.text ++ 93 :: v)) 0 ≠ 91 ∧ ch (b.text ++ (r.text ++ 93 :: v)) 0 ≠ 93 := by
      cases b with
      | plain c =>
        have := h2.1
        simp only [clsSpecial, List.mem_cons, List.not_mem_nil, or_false, not_or] at this
        exact ⟨this.2.1, this.1⟩
      | esc c => exact ⟨by show (92 : Nat) ≠ 91; decide, by show (92 : Nat) ≠ 93; decide⟩
      | hex2 c d => exact ⟨by show (92 : Nat) ≠ 91; decide, by show (92 : Nat) ≠ 93; decide⟩
      | hexN ds => exact ⟨by show (92 : Nat) ≠ 91; decide, by show (92 : Nat) ≠ 93; decide⟩
    have hne : b.text ++ (r.text ++ 93 :: v) ≠ [] := by simp
    have hst : clsStep x false (s.addCh a.val) a.val 45 (b.text ++ (r.text ++ 93 :: v)) =
        .next ((s.addCh a.val).range a.val b.val) a.val (r.text ++ 93 :: v) := by
      unfold clsStep
      rw [if_neg (by decide), if_neg (by decide), if_neg (by simp), if_neg (by simp [hh.1]), if_neg (by simp), if_neg (by decide),
        if_pos ⟨rfl, by omega, hne, hh.2⟩]
      dsimp only
      rw [he, if_neg (by omega)]
      have hl := b.len
      congr 1
      have : (b.text.length - 1 + 1) = b.text.length := by omega
      rw [this, List.drop_left]
    rw [K_next hst]
    exact ih v _ _ h4 (Or.inr h3)
  | letter c r ih =>
    intro v s prev h _
    obtain ⟨h1, h2⟩ := h
    simp only [CR.text, List.cons_append]
    have hf : ∃ f, escClass x false c = some f := by
      simp only [List.mem_cons, List.not_mem_nil, or_false] at h1
      rcases h1 with rfl | rfl | rfl | rfl | rfl | rfl <;> exact ⟨_, rfl⟩
    obtain ⟨f, hf⟩ := hf
    rw [K_next (step_letter hf), CR.setB, hf]
    exact ih v _ _ h2 (Or.inl rfl)
  | categ n r ih =>
    intro v s prev h _
    obtain ⟨h1, h2, h3⟩ := h
    simp only [CR.text, List.cons_append, List.append_assoc]
    have hst : clsStep x false s prev 123 (n ++ 125 :: (r.text ++ 93 :: v)) = .next (s.union (x.categ n)) BAD (r.text ++ 93 :: v) := by
      unfold clsStep
      rw [if_neg (by decide), if_pos rfl, getCurly_name h2]
      have : n.isEmpty = false := by cases n with | nil => exact absurd rfl h1 | cons => rfl
      simp only [this, Bool.false_eq_true, if_false]
      congr 1
      have e : n ++ 125 :: (r.text ++ 93 :: v) = (n ++ [125]) ++ (r.text ++ 93 :: v) := by simp
      rw [e]
      exact List.drop_left' (by simp)
    rw [K_next hst]
    exact ih v _ _ h3 (Or.inl rfl)
  | dash r ih =>
    intro v s prev h hp
    obtain ⟨h1, h2, h3⟩ := h
    simp only [CR.text, List.cons_append] at hp ⊢
    have hh : ch (r.text ++ 93 :: v) 0 ≠ 91 := by
      revert h1
      cases r.text ++ 93 :: v with
      | nil => intro _; decide
      | cons c t => intro h1; simpa [ch] using h1
    have hst : clsStep x false s prev 45 (r.text ++ 93 :: v) = .next (s.addCh 45) 45 (r.text ++ 93 :: v) := by
      unfold clsStep
      rw [if_neg (by decide), if_neg (by decide), if_neg (by simp), if_neg (by simp [hh]), if_neg (by simp), if_neg (by decide)]
      rw [if_neg]
      · rfl
      · rintro ⟨-, h4, -, h5⟩
        rcases hp with hp | hp
        · exact h4 hp
        · rcases hp _ rfl with e | e
          · exact h1 e
          · apply h5
            revert e
            cases r.text ++ 93 :: v with
            | nil => intro e; cases e
            | cons c t => intro e; simpa [ch] using e
    rw [K_next hst]
    exact ih v _ _ h3 (Or.inr h2)
  | union neg k r ihk ihr =>
    intro v s prev h _
    obtain ⟨h1, h2, h3⟩ := h
    simp only [CR.text, List.append_assoc, List.cons_append]
    have hb := clsBegin_bra (neg := neg) (t := k.text ++ 93 :: (r.text ++ 93 :: v)) (fun e => head_append (h1 e))
    have hk := ihk (r.text ++ 93 :: v) (fun _ => false) BAD h2 (Or.inl rfl)
    obtain ⟨t, ht⟩ := bra_head neg (k.text ++ 93 :: (r.text ++ 93 :: v))
    rw [ht] at hb ⊢
    have hst : clsStep x false s prev 91 t = .inner (fun t => s.union t) false (91 :: t) := by simp [clsStep]
    rw [K_inner hst (by rw [hb]; exact hk), hb]
    exact ihr v _ _ h3 (Or.inl rfl)
  | minus neg k r ihk ihr =>
    intro v s prev h _
    obtain ⟨h1, h2, h3⟩ := h
    simp only [CR.text, List.append_assoc, List.cons_append]
    have hb := clsBegin_bra (neg := neg) (t := k.text ++ 93 :: (r.text ++ 93 :: v)) (fun e => head_append (h1 e))
    have hk := ihk (r.text ++ 93 :: v) (fun _ => false) BAD h2 (Or.inl rfl)
    obtain ⟨t, ht⟩ := bra_head neg (k.text ++ 93 :: (r.text ++ 93 :: v))
    rw [ht] at hb ⊢
    have hst : clsStep x false s prev 45 (91 :: t) = .inner (fun t => s.minus t) false (91 :: t) := by simp [clsStep, ch]
    rw [K_inner hst (by rw [hb]; exact hk), hb]
    exact ihr v _ _ h3 (Or.inl rfl)
  | inter neg k r ihk ihr =>
    intro v s prev h _
    obtain ⟨h1, h2, h3⟩ := h
    simp only [CR.text, List.append_assoc, List.cons_append]
    have hb := clsBegin_bra (neg := neg) (t := k.text ++ 93 :: (r.text ++ 93 :: v)) (fun e => head_append (h1 e))
    have hk := ihk (r.text ++ 93 :: v) (fun _ => false) BAD h2 (Or.inl rfl)
    obtain ⟨t, ht⟩ := bra_head neg (k.text ++ 93 :: (r.text ++ 93 :: v))
    rw [ht] at hb ⊢
    have hst : clsStep x false s prev 38 (38 :: 91 :: t) = .inner (fun t => s.inter t) false (91 :: t) := by simp [clsStep, ch]
    rw [K_inner hst (by rw [hb]; exact hk), hb]
    exact ihr v _ _ h3 (Or.inl rfl)

theorem letter_sets (x : Ctx) (c : Nat) (hc : c ∈ [100, 68, 119, 115, 108, 117]) : ∃ f, escClass x false c = some f ∧
    ∀ s d, f s d = true ↔ s d = true ∨ letterSet x c d := by
  simp only [List.mem_cons, List.not_mem_nil, or_false] at hc
  rcases hc with rfl | rfl | rfl | rfl | rfl | rfl <;> refine ⟨_, rfl, fun s d => ?_⟩ <;>
    simp [letterSet, Cls.union, wordSet, spaceSet, or_assoc]

/-- the computed set is the meant one -/
theorem setB_iff {x : Ctx} (k : CR) : ∀ {u : Text} (s : Cls) (P : Nat → Prop), k.Ok x u → (∀ d, s d = true ↔ P d) → ∀ d, k.setB x s d = true ↔ k.set x P d := by
  induction k with
  | nil => intro u s P _ h; exact h
  | ch w r ih =>
    intro u s P hk h
    exact ih _ _ hk.2.2.2 (fun d => by simp [Cls.addCh, h d])
  | range a b r ih =>
    intro u s P hk h
    refine ih _ _ hk.2.2.2.2 (fun d => ?_)
    have := hk.2.2.1
    simp only [Cls.addCh, Cls.range, Bool.or_eq_true, Bool.and_eq_true, decide_eq_true_eq, h d]
    constructor
    · rintro ((h1 | rfl) | h1)
      · exact Or.inl h1
      · exact Or.inr ⟨Nat.le_refl _, this⟩
      · exact Or.inr h1
    · rintro (h1 | h1)
      · exact Or.inl (Or.inl h1)
      · exact Or.inr h1
  | letter c r ih =>
    intro u s P hk h
    obtain ⟨f, hf, hs⟩ := letter_sets x c hk.1
    simp only [CR.setB, hf]
    exact ih _ _ hk.2 (fun d => by rw [hs, h])
  | categ n r ih =>
    intro u s P hk h
    exact ih _ _ hk.2.2 (fun d => by simp [Cls.union, h d])
  | dash r ih =>
    intro u s P hk h
    exact ih _ _ hk.2.2 (fun d => by simp [Cls.addCh, h d])
  | union neg k r ihk ihr =>
    intro u s P hk h
    have e := ihk (fun _ => false) (fun _ => False) hk.2.1 (by simp)
    exact ihr _ _ hk.2.2 (fun d => by cases neg <;> simp [Cls.union, h d, negIf, e] <;> rw [← e] <;> simp)
  | minus neg k r ihk ihr =>
    intro u s P hk h
    have e := ihk (fun _ => false) (fun _ => False) hk.2.1 (by simp)
    exact ihr _ _ hk.2.2 (fun d => by cases neg <;> simp [Cls.minus, h d, negIf, ← e])
  | inter neg k r ihk ihr =>
    intro u s P hk h
    have e := ihk (fun _ => false) (fun _ => False) hk.2.1 (by simp)
    exact ihr _ _ hk.2.2 (fun d => by cases neg <;> simp [Cls.inter, h d, negIf, ← e])

end Verif.RegExp
