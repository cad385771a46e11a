import Verif.RegExp.Model
/-!
# C28: matching stays inside the text

Specification: `Inside h a b` - a group is unset or lies in `[0, h]`, start before end. Reading outside a string is the outcome `oob`.
-/
namespace Verif.RegExp

/-- a group is unset, or its bounds are in order inside `[0, h]` -/
def Inside (h : Int) (a b : Int) : Prop := (a = -1 ∧ b = -1) ∨ (0 ≤ a ∧ a ≤ b ∧ b ≤ h)

/-- every group of a back trace is empty or inside its text -/
def TraceOk : Option (Text × Matches) → Prop
  | none => True
  | some (t, tr) => ∀ i, (tr.e i ≤ tr.s i ∨ (0 ≤ tr.s i ∧ tr.e i ≤ t.length)) ∧ (tr.ne i ≤ tr.ns i ∨ (0 ≤ tr.ns i ∧ tr.ne i ≤ t.length))

/-! ## Proof: single tests -/

structure EnvOk (env : Env) (H : Int) : Prop where
  stop : env.stop ≤ H
  text : H ≤ env.text.length
  back : TraceOk env.back

theorem rd_some {t : Text} {i : Int} (h0 : 0 ≤ i) (h1 : i < t.length) : ∃ c, rd t i = some c := by
  have : i.toNat < t.length := by omega
  exact ⟨t[i.toNat], by simp [rd, h0, this]⟩

theorem eat_ok {env : Env} {H q : Int} (h : EnvOk env H) (hq : 0 ≤ q) (f : Nat → Bool) :
    eat env q f ≠ .oob ∧ ∀ q', eat env q f = .yes q' → q' = q + 1 ∧ q' ≤ H := by
  have a := h.stop
  have b := h.text
  unfold eat
  by_cases hs : env.stop ≤ q
  · rw [if_pos hs]; simp
  · rw [if_neg hs]
    obtain ⟨c, hc⟩ := rd_some (t := env.text) hq (by omega)
    rw [hc]
    cases hf : f c <;> simp [hf]
    omega

theorem andAt_ok {env : Env} {H : Int} (h : EnvOk env H) (g : Bool) (i : Int) (hg : g = true → 0 ≤ i ∧ i < H) (f : Nat → Bool) :
    ∃ b, andAt env g i f = some b := by
  have b := h.text
  unfold andAt
  cases g with
  | false => exact ⟨_, rfl⟩
  | true =>
    obtain ⟨h1, h2⟩ := hg rfl
    obtain ⟨c, hc⟩ := rd_some (t := env.text) h1 (by omega)
    exact ⟨f c, by simp [hc]⟩

theorem hold_ok (q : Int) (b : Bool) : hold q b ≠ .oob ∧ ∀ q', hold q b = .yes q' → q' = q := by
  unfold hold; cases b <;> simp <;> omega

theorem wordBoundary_ok {env : Env} {H q : Int} (h : EnvOk env H) (hq : 0 ≤ q) (hq2 : q ≤ H) : ∃ b, wordBoundary env q = some b := by
  have a := h.stop
  obtain ⟨x, hx⟩ := andAt_ok h (decide (q < env.stop)) q (by simp; omega) (isWordChar env)
  obtain ⟨y, hy⟩ := andAt_ok h (decide (0 < q)) (q - 1) (by simp; omega) (isWordChar env)
  exact ⟨x != y, by simp [wordBoundary, hx, hy]⟩

/-- what a test may do: no read outside, and forward inside the text -/
def ChkOk (H q : Int) (c : Chk) : Prop := c ≠ .oob ∧ ∀ q', c = .yes q' → q ≤ q' ∧ q' ≤ H

theorem chk_eat {env : Env} {H q : Int} (h : EnvOk env H) (hq : 0 ≤ q) (f : Nat → Bool) : ChkOk H q (eat env q f) := by
  obtain ⟨a, b⟩ := eat_ok h hq f
  exact ⟨a, fun q' hq' => by obtain ⟨c, d⟩ := b q' hq'; omega⟩

theorem chk_hold {H q : Int} (hq2 : q ≤ H) (b : Bool) : ChkOk H q (hold q b) := by
  obtain ⟨a, c⟩ := hold_ok q b
  exact ⟨a, fun q' hq' => by have := c q' hq'; omega⟩

theorem chk_holdO {H q : Int} (hq2 : q ≤ H) {o : Option Bool} (h : ∃ b, o = some b) : ChkOk H q (holdO q o) := by
  obtain ⟨b, rfl⟩ := h
  exact chk_hold hq2 b

theorem map_some {o : Option Bool} (f : Bool → Bool) (h : ∃ b, o = some b) : ∃ b, o.map f = some b := by
  obtain ⟨b, rfl⟩ := h
  exact ⟨f b, rfl⟩

theorem chk_meta {env : Env} {H q : Int} (h : EnvOk env H) (hq : 0 ≤ q) (hq2 : q ≤ H) (m : Meta) : ChkOk H q (checkMeta env m q) := by
  have a := h.stop
  cases m with
  | bad => exact ⟨by simp [checkMeta], by simp [checkMeta]⟩
  | any => exact chk_eat h hq _
  | sol =>
    simp only [checkMeta]
    split
    · exact chk_holdO hq2 (map_some _ (andAt_ok h _ _ (by simp; omega) _))
    · exact chk_hold hq2 _
  | soScheme => exact chk_hold hq2 _
  | eol =>
    simp only [checkMeta]
    split
    · exact chk_holdO hq2 (map_some _ (andAt_ok h _ _ (by simp; omega) _))
    · exact chk_hold hq2 _
  | digit => exact chk_eat h hq _
  | ndigit => exact chk_eat h hq _
  | word => exact chk_eat h hq _
  | nword => exact chk_eat h hq _
  | space => exact chk_eat h hq _
  | nspace => exact chk_eat h hq _
  | upper => exact chk_eat h hq _
  | lower => exact chk_eat h hq _
  | wbound => exact chk_holdO hq2 (wordBoundary_ok h hq hq2)
  | nwbound => exact chk_holdO hq2 (map_some _ (wordBoundary_ok h hq hq2))
  | preNW =>
    simp only [checkMeta]
    split
    · exact chk_hold hq2 true
    · exact chk_holdO hq2 (map_some _ (andAt_ok h _ _ (by simp; omega) _))
  | start => exact chk_hold hq2 true
  | stop => exact chk_hold hq2 true

theorem cmpLoop_ok {env : Env} {H : Int} (h : EnvOk env H) (guard : Bool) (src : Int → Option Nat) (eq : Nat → Nat → Bool) (n : Nat) :
    ∀ (i q : Int), 0 ≤ q → (guard = false → q + n ≤ env.stop) → q ≤ H → (∀ j, i ≤ j → j < i + n → ∃ c, src j = some c) →
      ChkOk H q (cmpLoop env guard src eq n i q) := by
  have hs := h.stop
  have ht := h.text
  induction n with
  | zero => intro i q _ _ hq _; exact ⟨by simp [cmpLoop], by simp [cmpLoop]; omega⟩
  | succ n ih =>
    intro i q hq hg hq2 hsrc
    rw [cmpLoop]
    by_cases hc : (guard && decide (env.stop ≤ q)) = true
    · rw [if_pos hc]; exact ⟨by simp, by simp⟩
    · rw [if_neg hc]
      have hlt : q < env.stop := by
        cases guard with
        | true => simp at hc; exact hc
        | false => have := hg rfl; omega
      obtain ⟨c, hc1⟩ := rd_some (t := env.text) hq (by omega)
      obtain ⟨d, hd⟩ := hsrc i (by omega) (by omega)
      rw [hc1, hd]
      show ChkOk H q (if eq c d = true then _ else _)
      split
      · obtain ⟨a, b⟩ := ih (i + 1) (q + 1) (by omega) (fun e => by have := hg e; omega) (by omega) (fun j h1 h2 => hsrc j (by omega) (by omega))
        exact ⟨a, fun q' hq' => by have := b q' hq'; omega⟩
      · exact ⟨by simp, by simp⟩

theorem chk_ref {env : Env} {H q : Int} (h : EnvOk env H) (t : Text) (eq : Nat → Nat → Bool) (a b : Int)
    (hab : b ≤ a ∨ (0 ≤ a ∧ b ≤ t.length)) (hq : 0 ≤ q) (hq2 : q ≤ H) : ChkOk H q (refLoop env t eq a b q) := by
  refine cmpLoop_ok h true _ eq _ a q hq (by simp) hq2 ?_
  intro j h1 h2
  have : j < b := by omega
  exact rd_some (by omega) (by omega)

theorem chk_word {env : Env} {H q : Int} (h : EnvOk env H) (w : Text) (hq : 0 ≤ q) (hq2 : q ≤ H) : ChkOk H q (checkWord env w q) := by
  have hs := h.stop
  have ht := h.text
  unfold checkWord
  split
  · exact ⟨by simp, by simp⟩
  · split
    · rw [if_pos (by omega)]
      split
      · exact ⟨by simp, by simp; omega⟩
      · exact ⟨by simp, by simp⟩
    · exact cmpLoop_ok h false _ _ _ 0 q hq (fun _ => by omega) hq2 (fun j h1 h2 => rd_some h1 (by omega))

theorem chk_trace {env : Env} {H q : Int} (h : EnvOk env H) (named nocase : Bool) (n : Nat) (hq : 0 ≤ q) (hq2 : q ≤ H) :
    ChkOk H q (checkTrace env named nocase n q) := by
  have hb := h.back
  unfold checkTrace
  cases he : env.back with
  | none => exact ⟨by simp, by simp⟩
  | some x =>
    obtain ⟨t, tr⟩ := x
    rw [he] at hb
    obtain ⟨h1, h2⟩ := hb n
    refine chk_ref h _ _ _ _ ?_ hq hq2
    split
    · exact h2
    · exact h1

/-! ## The memory -/

/-- a bound is unset or inside -/
def Pt (H : Int) (a : Int) : Prop := a = -1 ∨ (0 ≤ a ∧ a ≤ H)

/-- the groups in use are inside; those other than number 0 in order -/
structure MOk (env : Env) (H : Int) (m : Matches) : Prop where
  s0 : 0 < env.cMatch → Pt H (m.s 0) ∧ Pt H (m.e 0)
  grp : ∀ i, 0 < i → i < env.cMatch → Inside H (m.s i) (m.e i)
  nam : ∀ i, i < env.cnMatch → Inside H (m.ns i) (m.ne i)

theorem chk_bkBrack {env : Env} {H q : Int} (h : EnvOk env H) {m : Matches} (hm : MOk env H m) (n : Nat) (hq : 0 ≤ q) (hq2 : q ≤ H) :
    ChkOk H q (checkRef env env.cMatch m.s m.e n q) := by
  have ht := h.text
  unfold checkRef
  split
  · exact ⟨by simp, by simp⟩
  · rename_i hc
    split
    · exact ⟨by simp, by simp⟩
    · rename_i hn
      refine chk_ref h _ _ _ _ ?_ hq hq2
      by_cases h0 : n = 0
      · subst h0
        obtain ⟨a, b⟩ := hm.s0 (by omega)
        unfold Pt at a b
        omega
      · have := hm.grp n (by omega) (by omega)
        unfold Inside at this
        omega

theorem chk_bkBrackName {env : Env} {H q : Int} (h : EnvOk env H) {m : Matches} (hm : MOk env H m) (n : Nat) (hq : 0 ≤ q) (hq2 : q ≤ H) :
    ChkOk H q (checkRef env env.cnMatch m.ns m.ne n q) := by
  have ht := h.text
  unfold checkRef
  split
  · exact ⟨by simp, by simp⟩
  · rename_i hc
    split
    · exact ⟨by simp, by simp⟩
    · rename_i hn
      refine chk_ref h _ _ _ _ ?_ hq hq2
      have := hm.nam n (by omega)
      unfold Inside at this
      omega

theorem close_e (m : Mem) (i : Nat) (start q : Int) (j : Nat) :
    (m.close i start q).m.e j = if j = i ∧ (i ≠ 0 ∨ m.endChange = false) then q else m.m.e j := by
  simp only [Mem.close]
  by_cases h : i ≠ 0 ∨ m.endChange = false
  · rw [if_pos h]
    simp only [h, and_true, upd]
  · simp only [h, and_false, if_false]

theorem close_s_other (m : Mem) (i : Nat) (start q : Int) (j : Nat) (h : j ≠ i) : (m.close i start q).m.s j = m.m.s j := by
  have key : ∀ f : Nat → Int, ∀ v, upd f i v j = f j := fun f v => by simp [upd, h]
  simp only [Mem.close]
  repeat' split
  all_goals simp only [key]

theorem close_s_same (m : Mem) (i : Nat) (start q : Int) :
    (m.close i start q).m.s i = min (if i ≠ 0 ∨ m.startChange = false then start else m.m.s i) ((m.close i start q).m.e i) := by
  have key : ∀ f : Nat → Int, ∀ v, upd f i v i = v := fun f v => by simp [upd]
  have e : (m.close i start q).m.s i = min ((if i ≠ 0 ∨ m.startChange = false then upd m.m.s i start else m.m.s) i) ((m.close i start q).m.e i) := by
    simp only [Mem.close]
    generalize (if i ≠ 0 ∨ m.startChange = false then upd m.m.s i start else m.m.s) = f
    generalize (if i ≠ 0 ∨ m.endChange = false then upd m.m.e i q else m.m.e) = g
    split
    · rw [key]; omega
    · omega
  rw [e]
  split
  · rw [key]
  · rfl

theorem mok_close {env : Env} {H q start : Int} {m : Mem} (hm : MOk env H m.m) (i : Nat) (hs : 0 ≤ start ∧ start ≤ H)
    (hq : 0 ≤ q ∧ q ≤ H) : MOk env H (m.close i start q).m := by
  obtain ⟨a, b, c⟩ := hm
  refine ⟨fun h0 => ?_, fun j hj hj2 => ?_, fun j hj => c j hj⟩
  · have h1 := a h0
    unfold Pt at *
    by_cases hi : i = 0
    · subst hi
      rw [close_s_same, close_e]
      simp only [ne_eq, true_and, not_true, false_or]
      split <;> split <;> omega
    · rw [close_s_other _ _ _ _ _ (Ne.symm hi), close_e, if_neg (by omega)]
      exact h1
  · have h1 := b j hj hj2
    unfold Inside at *
    by_cases hi : j = i
    · subst hi
      have : j ≠ 0 := by omega
      rw [close_s_same, close_e]
      simp only [ne_eq, true_and, this, not_false_iff, true_or, if_true]
      omega
    · rw [close_s_other _ _ _ _ _ hi, close_e, if_neg (by omega)]
      exact h1

theorem mok_closeNamed {env : Env} {H q start : Int} {m : Mem} (hm : MOk env H m.m) (i : Nat) (hs : 0 ≤ start ∧ start ≤ H)
    (hq : 0 ≤ q ∧ q ≤ H) : MOk env H (m.closeNamed i start q).m := by
  obtain ⟨a, b, c⟩ := hm
  refine ⟨a, b, fun j hj => ?_⟩
  have := c j hj
  simp only [Mem.closeNamed, Inside, upd] at *
  by_cases hji : j = i
  · simp only [hji, if_true]; split <;> omega
  · simp only [hji, if_false]; exact this

theorem mok_mark {env : Env} {H q : Int} {m : Mem} (hm : MOk env H m.m) (k : Meta) (hq : 0 ≤ q ∧ q ≤ H) :
    MOk env H (markMeta m q k).m := by
  obtain ⟨a, b, c⟩ := hm
  cases k <;> try exact ⟨a, b, c⟩
  · refine ⟨fun h0 => ?_, fun j hj hj2 => ?_, c⟩
    · have := a h0
      simp only [markMeta, Pt, upd] at *
      simp; omega
    · have := b j hj hj2
      simp only [markMeta, upd]
      rw [if_neg (by omega)]
      exact this
  · refine ⟨fun h0 => ?_, fun j hj hj2 => ?_, c⟩
    · have := a h0
      simp only [markMeta, Pt, upd] at *
      simp; omega
    · have := b j hj hj2
      simp only [markMeta, upd]
      rw [if_neg (by omega)]
      exact this

/-! ## The machine -/

def isBracket : Node → Bool
  | .brackets _ _ | .named _ _ => true
  | _ => false

/-- the open brackets of a pointer (itself included) have a start inside the text -/
def Open (H : Int) (m : Mem) (pos : List (List Node)) : Prop :=
  ∀ n ns up, (n :: ns) :: up <:+ pos → isBracket n = true → 0 ≤ (m.vars (addr ((n :: ns) :: up))).start ∧
    (m.vars (addr ((n :: ns) :: up))).start ≤ H

/-- starts that are inside stay inside -/
def Keep (H : Int) (m m' : Mem) : Prop :=
  ∀ a, 0 ≤ (m.vars a).start ∧ (m.vars a).start ≤ H → 0 ≤ (m'.vars a).start ∧ (m'.vars a).start ≤ H

theorem Open.keep {H : Int} {m m' : Mem} {pos : List (List Node)} (h : Open H m pos) (hk : Keep H m m') : Open H m' pos :=
  fun n ns up hs hb => hk _ (h n ns up hs hb)

theorem Open.tail {H : Int} {m : Mem} {x : List Node} {pos : List (List Node)} (h : Open H m (x :: pos)) : Open H m pos :=
  fun n ns up hs hb => h n ns up (hs.trans (List.suffix_cons _ _)) hb

theorem Open.cons {H : Int} {m : Mem} {n : Node} {ns : List Node} {up : List (List Node)} (h : Open H m up)
    (hn : isBracket n = true → 0 ≤ (m.vars (addr ((n :: ns) :: up))).start ∧ (m.vars (addr ((n :: ns) :: up))).start ≤ H) :
    Open H m ((n :: ns) :: up) := by
  intro n' ns' up' hs hb
  rcases List.suffix_cons_iff.mp hs with h1 | h1
  · cases h1; exact hn hb
  · exact h n' ns' up' h1 hb

theorem Open.nil_cons {H : Int} {m : Mem} {up : List (List Node)} (h : Open H m up) : Open H m ([] :: up) := by
  intro n' ns' up' hs hb
  rcases List.suffix_cons_iff.mp hs with h1 | h1
  · cases h1
  · exact h n' ns' up' h1 hb

theorem keep_set {H : Int} {m : Mem} {a : Addr} {v : Vars} (h : v.start = (m.vars a).start ∨ (0 ≤ v.start ∧ v.start ≤ H)) :
    Keep H m (m.set a v) := by
  intro b hb
  simp only [Mem.set]
  by_cases hba : b = a
  · subst hba
    simp only [if_true]
    rcases h with h | h
    · rw [h]; exact hb
    · exact h
  · simp only [hba, if_false]; exact hb

theorem keep_refl (H : Int) (m : Mem) : Keep H m m := fun _ h => h

theorem keep_of_vars {H : Int} {m m' : Mem} (h : m'.vars = m.vars) : Keep H m m' := by intro a; rw [h]; exact id

/-- a configuration: position inside, brackets open (if the node is entered, those around it) -/
def CfgOk (H : Int) (m : Mem) (c : Cfg) : Prop :=
  0 ≤ c.q ∧ c.q ≤ H ∧ (if c.left then Open H m c.pos.tail else Open H m c.pos)

/-- a result of a round -/
def ResOk (H : Int) (m : Mem) : Res → Prop
  | .fail | .succ => True
  | .goto c => CfgOk H m c
  | .call c _ _ => CfgOk H m c
  | .oob => False

structure OutOk (env : Env) (H : Int) (m : Mem) (r : Res × Mem) : Prop where
  keep : Keep H m r.2
  mok : MOk env H r.2.m
  res : ResOk H r.2 r.1

theorem left_ok {H : Int} {m : Mem} {x : List Node} {up : List (List Node)} {q : Int} (h0 : 0 ≤ q) (h1 : q ≤ H) (h : Open H m up) :
    CfgOk H m ⟨x :: up, true, q⟩ := ⟨h0, h1, by simpa using h⟩

theorem tested_ok {env : Env} {H : Int} {m : Mem} {ns : List Node} {up : List (List Node)} {q : Int} {c : Chk} (hq : 0 ≤ q) (hc : ChkOk H q c)
    (hm : MOk env H m.m) (h : Open H m up) : OutOk env H m (tested ns up c, m) := by
  refine ⟨keep_refl _ _, hm, ?_⟩
  obtain ⟨a, b⟩ := hc
  cases c with
  | no => trivial
  | oob => exact absurd rfl a
  | yes q' =>
    obtain ⟨h1, h2⟩ := b q' rfl
    exact left_ok (by omega) h2 h

theorem vars_close (m : Mem) (i : Nat) (s q : Int) : (m.close i s q).vars = m.vars := rfl
theorem vars_mark (m : Mem) (q : Int) (k : Meta) : (markMeta m q k).vars = m.vars := by cases k <;> rfl

theorem initVars_start (v : Vars) (l : Bool) (a b : Int) : (initVars v l a b).start = v.start := by
  unfold initVars; split <;> rfl

/-- changing the counters of a range node and going on at its body, or behind it -/
theorem range_ok {env : Env} {H : Int} {m : Mem} {n : Node} {ns : List Node} {up : List (List Node)} {q : Int} {v : Vars} {r : Res}
    (hn : isBracket n = false) (h0 : 0 ≤ q) (h1 : q ≤ H) (h : Open H m up) (hm : MOk env H m.m)
    (hv : v.start = (m.vars (addr ((n :: ns) :: up))).start)
    (hr : r = .goto ⟨ns :: up, true, q⟩ ∨ r = .goto ⟨n.body :: (n :: ns) :: up, true, q⟩ ∨ (∃ t f, r = .call ⟨ns :: up, true, q⟩ t f) ∨
      ∃ t f, r = .call ⟨n.body :: (n :: ns) :: up, true, q⟩ t f) :
    OutOk env H m (r, m.set (addr ((n :: ns) :: up)) v) := by
  have hk : Keep H m (m.set (addr ((n :: ns) :: up)) v) := keep_set (Or.inl hv)
  have h2 := h.keep hk
  have h3 : Open H (m.set (addr ((n :: ns) :: up)) v) ((n :: ns) :: up) := h2.cons (by simp [hn])
  refine ⟨hk, hm, ?_⟩
  rcases hr with rfl | rfl | ⟨t, f, rfl⟩ | ⟨t, f, rfl⟩
  · exact left_ok h0 h1 h2
  · exact left_ok h0 h1 h3
  · exact left_ok h0 h1 h2
  · exact left_ok h0 h1 h3

theorem execNode_ok {env : Env} {H : Int} (he : EnvOk env H) {n : Node} {ns : List Node} {up : List (List Node)} {left : Bool} {q : Int} {m : Mem}
    (hm : MOk env H m.m) (h0 : 0 ≤ q) (h1 : q ≤ H) (hl : left = true → Open H m up) (hr : left = false → Open H m ((n :: ns) :: up)) :
    OutOk env H m (execNode env n ns up left q m) := by
  have hup : Open H m up := by
    cases left with
    | true => exact hl rfl
    | false => exact (hr rfl).tail
  have same : ∀ r, ResOk H m r → OutOk env H m (r, m) := fun r h => ⟨keep_refl _ _, hm, h⟩
  have next : OutOk env H m (.goto ⟨ns :: up, true, q⟩, m) := same _ (left_ok h0 h1 hup)
  have inBody : isBracket n = false → ∀ (b : List Node) t f q', 0 ≤ q' → q' ≤ H → OutOk env H m (.call ⟨b :: (n :: ns) :: up, true, q'⟩ t f, m) :=
    fun hn b t f q' h2 h3 => same _ (left_ok h2 h3 (hup.cons (by simp [hn])))
  cases n with
  | empty => exact next
  | msym k =>
    have := tested_ok (ns := ns) h0 (chk_meta he h0 h1 k) hm hup
    refine ⟨keep_of_vars (vars_mark _ _ _), mok_mark hm k ⟨h0, h1⟩, ?_⟩
    have h2 := this.res
    show ResOk H (markMeta m q k) (tested ns up (checkMeta env k q))
    have h2 : ResOk H m (tested ns up (checkMeta env k q)) := h2
    revert h2
    cases checkMeta env k q with
    | no => exact fun _ => trivial
    | oob => exact id
    | yes q' =>
      intro h2
      obtain ⟨a, b, c⟩ := h2
      exact ⟨a, b, by simpa using (Open.keep (by simpa using c) (keep_of_vars (vars_mark _ _ _)))⟩
  | symb c => exact tested_ok h0 (chk_eat he h0 _) hm hup
  | word w => exact tested_ok h0 (chk_word he w h0 h1) hm hup
  | enum cls => exact tested_ok h0 (chk_eat he h0 _) hm hup
  | nenum cls => exact tested_ok h0 (chk_eat he h0 _) hm hup
  | brackets idx body =>
    cases left with
    | true =>
      have hk : Keep H m (m.set (addr ((.brackets idx body :: ns) :: up)) { m.vars (addr ((.brackets idx body :: ns) :: up)) with start := q }) :=
        keep_set (Or.inr ⟨h0, h1⟩)
      refine ⟨hk, hm, left_ok h0 h1 ((hup.keep hk).cons fun _ => ?_)⟩
      simp [Mem.set, h0, h1]
    | false =>
      have hs := hr rfl _ _ _ (List.suffix_refl _) rfl
      cases idx with
      | none => exact next
      | some i =>
        exact ⟨keep_of_vars rfl, mok_close hm i hs ⟨h0, h1⟩, left_ok h0 h1 (hup.keep (keep_of_vars rfl))⟩
  | named idx body =>
    cases left with
    | true =>
      have hk : Keep H m (m.set (addr ((.named idx body :: ns) :: up)) { m.vars (addr ((.named idx body :: ns) :: up)) with start := q }) :=
        keep_set (Or.inr ⟨h0, h1⟩)
      refine ⟨hk, hm, left_ok h0 h1 ((hup.keep hk).cons fun _ => ?_)⟩
      simp [Mem.set, h0, h1]
    | false =>
      have hs := hr rfl _ _ _ (List.suffix_refl _) rfl
      cases idx with
      | none => exact next
      | some i =>
        exact ⟨keep_of_vars rfl, mok_closeNamed hm i hs ⟨h0, h1⟩, left_ok h0 h1 (hup.keep (keep_of_vars rfl))⟩
  | bkTrace k => exact tested_ok h0 (chk_trace he _ _ k h0 h1) hm hup
  | bkTraceN k => exact tested_ok h0 (chk_trace he _ _ k h0 h1) hm hup
  | bkTraceName k => exact tested_ok h0 (chk_trace he _ _ k h0 h1) hm hup
  | bkTraceNName k => exact tested_ok h0 (chk_trace he _ _ k h0 h1) hm hup
  | bkBrack k => exact tested_ok h0 (chk_bkBrack he hm k h0 h1) hm hup
  | bkBrackName k => exact tested_ok h0 (chk_bkBrackName he hm k h0 h1) hm hup
  | ahead body => cases left with
    | true => exact inBody rfl _ _ _ q h0 h1
    | false => exact same _ trivial
  | nahead body => cases left with
    | true => exact inBody rfl _ _ _ q h0 h1
    | false => exact same _ trivial
  | behind k body => cases left with
    | true =>
      show OutOk env H m (if q - k < 0 then _ else _)
      split
      · exact same _ trivial
      · exact inBody rfl _ _ _ _ (by omega) (by omega)
    | false => exact same _ trivial
  | nbehind k body => cases left with
    | true =>
      show OutOk env H m (if q - k ≥ 0 then _ else _)
      split
      · exact inBody rfl _ _ _ _ (by omega) (by omega)
      · exact next
    | false => exact same _ trivial
  | or body => cases left with
    | true => exact inBody rfl _ _ _ q h0 h1
    | false => exact same _ ⟨h0, h1, by simpa using hup⟩
  | rangeN s body =>
    show OutOk env H m (execRangeN ns up (.rangeN s body) s body left q m)
    unfold execRangeN
    dsimp only
    split
    · exact range_ok rfl h0 h1 hup hm (initVars_start ..) (Or.inl rfl)
    · split
      · exact range_ok rfl h0 h1 hup hm (initVars_start ..) (Or.inr (Or.inr (Or.inr ⟨_, _, rfl⟩)))
      · exact range_ok rfl h0 h1 hup hm (initVars_start ..) (Or.inr (Or.inl rfl))
  | rangeNM s e body =>
    show OutOk env H m (execRangeNM ns up (.rangeNM s e body) s e body false left q m)
    unfold execRangeNM
    dsimp only
    split
    · split
      · exact range_ok rfl h0 h1 hup hm (initVars_start ..) (Or.inr (Or.inr (Or.inl ⟨_, _, rfl⟩)))
      · exact range_ok rfl h0 h1 hup hm (initVars_start ..) (Or.inr (Or.inr (Or.inr ⟨_, _, rfl⟩)))
    · exact range_ok rfl h0 h1 hup hm (initVars_start ..) (Or.inr (Or.inl rfl))
  | ngRangeN s body =>
    show OutOk env H m (execNGRangeN ns up (.ngRangeN s body) s body left q m)
    unfold execNGRangeN
    dsimp only
    split
    · exact range_ok rfl h0 h1 hup hm (initVars_start ..) (Or.inl rfl)
    · split
      · exact range_ok rfl h0 h1 hup hm (initVars_start ..) (Or.inr (Or.inr (Or.inl ⟨_, _, rfl⟩)))
      · exact range_ok rfl h0 h1 hup hm (initVars_start ..) (Or.inr (Or.inl rfl))
  | ngRangeNM s e body =>
    show OutOk env H m (execRangeNM ns up (.ngRangeNM s e body) s e body true left q m)
    unfold execRangeNM
    dsimp only
    split
    · split
      · exact range_ok rfl h0 h1 hup hm (initVars_start ..) (Or.inr (Or.inr (Or.inl ⟨_, _, rfl⟩)))
      · exact range_ok rfl h0 h1 hup hm (initVars_start ..) (Or.inr (Or.inr (Or.inl ⟨_, _, rfl⟩)))
    · exact range_ok rfl h0 h1 hup hm (initVars_start ..) (Or.inr (Or.inl rfl))

theorem exec_ok {env : Env} {H : Int} (he : EnvOk env H) {c : Cfg} {m : Mem} (hm : MOk env H m.m) (hc : CfgOk H m c) :
    OutOk env H m (exec env c m) := by
  obtain ⟨pos, left, q⟩ := c
  obtain ⟨h0, h1, h2⟩ := hc
  have h0 : 0 ≤ q := h0
  have h1 : q ≤ H := h1
  match pos with
  | [] => exact ⟨keep_refl _ _, hm, trivial⟩
  | [] :: up =>
    refine ⟨keep_refl _ _, hm, h0, h1, ?_⟩
    have : Open H m up := by
      cases left with
      | true => simpa using h2
      | false => exact Open.tail (by simpa using h2)
    simpa [exec] using this
  | (n :: ns) :: up =>
    refine execNode_ok he hm h0 h1 (fun hl => ?_) (fun hl => ?_)
    · have hl : left = true := hl
      subst hl; simpa using h2
    · have hl : left = false := hl
      subst hl; simpa using h2

/-- an element of the stack: a node that is not a bracket, brackets around it open -/
def ElemOk (H : Int) (m : Mem) (c : Cfg) : Prop := 0 ≤ c.q ∧ c.q ≤ H ∧ Open H m c.pos

theorem resume_ok {env : Env} {H : Int} {a : Act} {c : Cfg} {m : Mem} (hm : MOk env H m.m) (hc : ElemOk H m c) :
    OutOk env H m (resume a c m) := by
  obtain ⟨pos, left, q⟩ := c
  obtain ⟨h0, h1, h2⟩ := hc
  have h0 : 0 ≤ q := h0
  have h1 : q ≤ H := h1
  have h2 : Open H m pos := h2
  have same : ∀ r, ResOk H m r → OutOk env H m (r, m) := fun r h => ⟨keep_refl _ _, hm, h⟩
  match pos with
  | [] => exact same _ trivial
  | [] :: up => exact same _ trivial
  | (n :: ns) :: up =>
    have hk : ∀ v : Vars, v.start = (m.vars (addr ((n :: ns) :: up))).start → Keep H m (m.set (addr ((n :: ns) :: up)) v) :=
      fun v hv => keep_set (Or.inl hv)
    cases a with
    | no => exact same _ trivial
    | yes => exact same _ trivial
    | brk => exact same _ (left_ok h0 h1 h2.tail)
    | rangeN2 => exact same _ (left_ok h0 h1 h2.tail)
    | rangeNM2 => exact same _ (left_ok h0 h1 h2.tail)
    | rangeNM3 => exact ⟨hk _ rfl, hm, trivial⟩
    | ngRangeN2 =>
      simp only [resume]
      split
      · exact same _ (left_ok h0 h1 h2)
      · exact ⟨hk _ rfl, hm, left_ok h0 h1 (h2.keep (hk _ rfl))⟩
    | ngRangeNM2 => exact same _ (left_ok h0 h1 h2)
    | ngRangeNM3 => exact ⟨hk _ rfl, hm, trivial⟩

/-- a node that calls is not a bracket -/
theorem call_not_bracket {env : Env} {c c' : Cfg} {m m' : Mem} {t f : Act} (h : exec env c m = (.call c' t f, m')) :
    ∃ n ns up, c.pos = (n :: ns) :: up ∧ isBracket n = false := by
  obtain ⟨pos, left, q⟩ := c
  match pos with
  | [] => simp [exec] at h
  | [] :: up => simp [exec] at h
  | (n :: ns) :: up =>
    refine ⟨n, ns, up, rfl, ?_⟩
    cases n <;> try rfl
    all_goals
      exfalso
      simp only [exec, execNode] at h
      cases left
      · rename_i idx _
        cases idx <;> simp at h
      · simp at h

structure StateOk (env : Env) (H : Int) (st : State) : Prop where
  mok : MOk env H st.m.m
  cur : match st.act with
    | none => CfgOk H st.m st.c
    | some _ => ElemOk H st.m st.c
  stack : ∀ x ∈ st.stack, ElemOk H st.m x.c

theorem ElemOk.keep {H : Int} {m m' : Mem} {c : Cfg} (h : ElemOk H m c) (hk : Keep H m m') : ElemOk H m' c :=
  ⟨h.1, h.2.1, h.2.2.keep hk⟩

theorem pop_ok {env : Env} {H : Int} {b : Bool} {m : Mem} (hm : MOk env H m.m) {s : List Elem} (hs : ∀ x ∈ s, ElemOk H m x.c) :
    match pop b m s with
    | .inl st => StateOk env H st
    | .inr r => r.1 ≠ .oob ∧ MOk env H r.2.m := by
  cases s with
  | nil => exact ⟨by simp, hm⟩
  | cons x xs => exact ⟨hm, hs x (by simp), fun y hy => hs y (by simp [hy])⟩

theorem step_ok {env : Env} {H : Int} (he : EnvOk env H) {st : State} (h : StateOk env H st) :
    match step env st with
    | .inl st' => StateOk env H st'
    | .inr r => r.1 ≠ .oob ∧ MOk env H r.2.m := by
  obtain ⟨c, act, m, stack⟩ := st
  obtain ⟨hm, hc, hs⟩ := h
  have key : ∀ r : Res × Mem, OutOk env H m r → (∀ c' t f, r.1 = .call c' t f → ElemOk H r.2 c) →
      match (match r.1 with
        | .fail => pop false r.2 stack
        | .succ => pop true r.2 stack
        | .goto c' => .inl ⟨c', none, r.2, stack⟩
        | .call c' t f => .inl ⟨c', none, r.2, ⟨c, t, f⟩ :: stack⟩
        | .oob => .inr (.oob, r.2) : State ⊕ (End × Mem)) with
      | .inl st' => StateOk env H st'
      | .inr r => r.1 ≠ .oob ∧ MOk env H r.2.m := by
    intro r hr hcall
    obtain ⟨k, mk, res⟩ := hr
    have hs' : ∀ x ∈ stack, ElemOk H r.2 x.c := fun x hx => (hs x hx).keep k
    obtain ⟨r1, r2⟩ := r
    cases r1 with
    | fail => exact pop_ok mk hs'
    | succ => exact pop_ok mk hs'
    | goto c' => exact ⟨mk, res, hs'⟩
    | call c' t f =>
      refine ⟨mk, res, fun x hx => ?_⟩
      rcases List.mem_cons.mp hx with rfl | hx
      · exact hcall _ _ _ rfl
      · exact hs' x hx
    | oob => exact absurd res id
  cases act with
  | none =>
    have ho := exec_ok he hm hc
    refine key (exec env c m) ho ?_
    intro c' t f hcc
    obtain ⟨n, ns, up, hp, hn⟩ := call_not_bracket (env := env) (c := c) (m := m) (Prod.ext hcc rfl)
    obtain ⟨a, b, d⟩ := hc
    refine ⟨a, b, ?_⟩
    have hup : Open H m up := by
      rw [hp] at d
      cases hl : c.left with
      | true => simpa [hl] using d
      | false => rw [hl] at d; exact Open.tail (by simpa using d)
    rw [hp]
    exact (hup.keep ho.keep).cons (by simp [hn])
  | some a =>
    have hc : ElemOk H m c := hc
    have ho := resume_ok (a := a) hm hc
    exact key (resume a c m) ho (fun _ _ _ _ => hc.keep ho.keep)

theorem run_ok {env : Env} {H : Int} (he : EnvOk env H) (fuel : Nat) : ∀ {st : State} {r : End × Mem}, StateOk env H st →
    run env fuel st = some r → r.1 ≠ .oob ∧ MOk env H r.2.m := by
  induction fuel with
  | zero => intro st r _ h; simp [run] at h
  | succ fuel ih =>
    intro st r hs h
    have := step_ok he hs
    rw [run] at h
    cases hst : step env st with
    | inl st1 => rw [hst] at h this; exact ih this h
    | inr r1 => rw [hst] at h this; cases h; exact this

/-! ## Which results a node can have -/

/-- marks set by `\m`, `\M` (of this call) are positions -/
def Good (m : Mem) : Prop := (m.startChange = true → 0 ≤ m.m.s 0) ∧ (m.endChange = true → 0 ≤ m.m.e 0)

theorem close_good {m : Mem} {i : Nat} {s q : Int} (hg : Good m) (hs : 0 ≤ s) (hq : 0 ≤ q) : Good (m.close i s q) := by
  obtain ⟨a, b⟩ := hg
  by_cases hi : i = 0
  · subst hi
    have hs1 : (m.close 0 s q).startChange = m.startChange := rfl
    have he1 : (m.close 0 s q).endChange = m.endChange := rfl
    have he : 0 ≤ (m.close 0 s q).m.e 0 := by
      rw [close_e]
      split
      · exact hq
      · rename_i h
        refine b ?_
        cases hh : m.endChange
        · simp [hh] at h
        · rfl
    refine ⟨fun h => ?_, fun _ => he⟩
    rw [hs1] at h
    rw [close_s_same]
    have := a h
    split <;> omega
  · refine ⟨fun h => ?_, fun h => ?_⟩
    · rw [close_s_other _ _ _ _ _ (Ne.symm hi)]; exact a h
    · rw [close_e, if_neg (by omega)]; exact b h

theorem execNode_good {env : Env} {n : Node} {ns : List Node} {up : List (List Node)} {left : Bool} {q : Int} {m : Mem} (hg : Good m)
    (h0 : 0 ≤ q) (hs : left = false → isBracket n = true → 0 ≤ (m.vars (addr ((n :: ns) :: up))).start) :
    Good (execNode env n ns up left q m).2 := by
  cases n with
  | msym k =>
    show Good (markMeta m q k)
    obtain ⟨a, b⟩ := hg
    cases k <;> first | exact ⟨a, b⟩ | (refine ⟨?_, ?_⟩ <;> simp [markMeta, upd, h0] <;> assumption)
  | brackets idx body =>
    cases left with
    | true => exact hg
    | false =>
      cases idx with
      | none => exact hg
      | some i => exact close_good hg (hs rfl rfl) h0
  | named idx body =>
    cases left with
    | true => exact hg
    | false => cases idx <;> exact hg
  | ahead body => cases left <;> exact hg
  | nahead body => cases left <;> exact hg
  | behind k body =>
    cases left with
    | false => exact hg
    | true => show Good (if q - k < 0 then _ else _ : Res × Mem).2; split <;> exact hg
  | nbehind k body =>
    cases left with
    | false => exact hg
    | true => show Good (if q - k ≥ 0 then _ else _ : Res × Mem).2; split <;> exact hg
  | or body => cases left <;> exact hg
  | rangeN s body =>
    show Good (execRangeN ns up (.rangeN s body) s body left q m).2
    unfold execRangeN; dsimp only; split
    · exact hg
    · split <;> exact hg
  | rangeNM s e body =>
    show Good (execRangeNM ns up (.rangeNM s e body) s e body false left q m).2
    unfold execRangeNM; dsimp only; split
    · split <;> exact hg
    · exact hg
  | ngRangeN s body =>
    show Good (execNGRangeN ns up (.ngRangeN s body) s body left q m).2
    unfold execNGRangeN; dsimp only; split
    · exact hg
    · split <;> exact hg
  | ngRangeNM s e body =>
    show Good (execRangeNM ns up (.ngRangeNM s e body) s e body true left q m).2
    unfold execRangeNM; dsimp only; split
    · split <;> exact hg
    · exact hg
  | _ => exact hg

theorem resume_good {a : Act} {c : Cfg} {m : Mem} (hg : Good m) : Good (resume a c m).2 := by
  obtain ⟨pos, left, q⟩ := c
  match pos with
  | [] => exact hg
  | [] :: up => exact hg
  | (n :: ns) :: up =>
    cases a <;> first
      | exact hg
      | (simp only [resume]; split <;> exact hg)

theorem pop_good {b : Bool} {m : Mem} (hg : Good m) (s : List Elem) :
    match pop b m s with
    | .inl st => Good st.m
    | .inr r => Good r.2 := by
  cases s <;> exact hg

theorem step_good {env : Env} {H : Int} {st : State} (h : StateOk env H st) (hg : Good st.m) :
    match step env st with
    | .inl st' => Good st'.m
    | .inr r => Good r.2 := by
  have key : ∀ r : Res × Mem, Good r.2 →
      match (match r.1 with
        | .fail => pop false r.2 st.stack
        | .succ => pop true r.2 st.stack
        | .goto c' => .inl ⟨c', none, r.2, st.stack⟩
        | .call c' t f => .inl ⟨c', none, r.2, ⟨st.c, t, f⟩ :: st.stack⟩
        | .oob => .inr (.oob, r.2) : State ⊕ (End × Mem)) with
      | .inl st' => Good st'.m
      | .inr r => Good r.2 := by
    intro r hr
    obtain ⟨r1, r2⟩ := r
    cases r1 <;> first | exact pop_good hr _ | exact hr
  obtain ⟨c, act, m, stack⟩ := st
  obtain ⟨hm, hc, hs⟩ := h
  cases act with
  | none =>
    refine key (exec env c m) ?_
    obtain ⟨pos, left, q⟩ := c
    obtain ⟨h0, h1, h2⟩ := hc
    match pos with
    | [] => exact hg
    | [] :: up => exact hg
    | (n :: ns) :: up =>
      refine execNode_good hg h0 fun hl hb => ?_
      have hl : left = false := hl
      subst hl
      have h2 : Open H m ((n :: ns) :: up) := by simpa using h2
      exact (h2 _ _ _ (List.suffix_refl _) hb).1
  | some a => exact key (resume a c m) (resume_good hg)

theorem run_good {env : Env} {H : Int} (he : EnvOk env H) (fuel : Nat) : ∀ {st : State} {r : End × Mem}, StateOk env H st → Good st.m →
    run env fuel st = some r → Good r.2 := by
  induction fuel with
  | zero => intro st r _ _ h; simp [run] at h
  | succ fuel ih =>
    intro st r hs hg h
    have h1 := step_ok he hs
    have h2 := step_good hs hg
    rw [run] at h
    cases hst : step env st with
    | inl st1 => rw [hst] at h h1 h2; exact ih h1 h2 h
    | inr r1 => rw [hst] at h h1 h2; cases h; exact h2

def isLook : Node → Bool
  | .ahead _ | .nahead _ | .behind _ _ | .nbehind _ _ => true
  | _ => false

/-- the two actions of a call: a look-around goes on or fails; the others succeed at once on success -/
def CallActs (n : Node) (t f : Act) : Prop :=
  f ≠ .yes ∧ (isLook n = true → (t = .no ∨ t = .brk) ∧ (f = .no ∨ f = .brk)) ∧ (isLook n = false → t = .yes)

/-- the results of a round at the node `n` -/
def Shape (n : Node) (ns : List Node) (up : List (List Node)) (left : Bool) : Res → Prop
  | .fail | .oob => True
  | .succ => isLook n = true ∧ left = false
  | .goto c => ((∃ q, c = ⟨ns :: up, true, q⟩) ∧ (isLook n = false ∨ left = true) ∧ (isBracket n = false ∨ left = false)) ∨
      ((∃ q, c = ⟨n.body :: (n :: ns) :: up, true, q⟩) ∧ isLook n = false) ∨
      ((∃ q, c = ⟨up, false, q⟩) ∧ isLook n = false ∧ isBracket n = false)
  | .call c t f => isBracket n = false ∧ CallActs n t f ∧ (((∃ q, c = ⟨ns :: up, true, q⟩) ∧ isLook n = false) ∨
      ((∃ q, c = ⟨n.body :: (n :: ns) :: up, true, q⟩) ∧ (isLook n = true → left = true)))

theorem shape_tested {n : Node} {ns : List Node} {up : List (List Node)} {left : Bool} (c : Chk) (h1 : isLook n = false)
    (h2 : isBracket n = false) : Shape n ns up left (tested ns up c) := by
  cases c with
  | no => trivial
  | oob => trivial
  | yes q => exact Or.inl ⟨⟨q, rfl⟩, Or.inl h1, Or.inl h2⟩

theorem execNode_shape (env : Env) (n : Node) (ns : List Node) (up : List (List Node)) (left : Bool) (q : Int) (m : Mem) :
    Shape n ns up left (execNode env n ns up left q m).1 := by
  cases n with
  | empty => exact Or.inl ⟨⟨q, rfl⟩, Or.inl rfl, Or.inl rfl⟩
  | msym k => exact shape_tested _ rfl rfl
  | symb c => exact shape_tested _ rfl rfl
  | word w => exact shape_tested _ rfl rfl
  | enum cls => exact shape_tested _ rfl rfl
  | nenum cls => exact shape_tested _ rfl rfl
  | brackets idx body => cases left with
    | true => exact Or.inr (Or.inl ⟨⟨q, rfl⟩, rfl⟩)
    | false => cases idx <;> exact Or.inl ⟨⟨q, rfl⟩, Or.inl rfl, Or.inr rfl⟩
  | named idx body => cases left with
    | true => exact Or.inr (Or.inl ⟨⟨q, rfl⟩, rfl⟩)
    | false => cases idx <;> exact Or.inl ⟨⟨q, rfl⟩, Or.inl rfl, Or.inr rfl⟩
  | bkTrace k => exact shape_tested _ rfl rfl
  | bkTraceN k => exact shape_tested _ rfl rfl
  | bkTraceName k => exact shape_tested _ rfl rfl
  | bkTraceNName k => exact shape_tested _ rfl rfl
  | bkBrack k => exact shape_tested _ rfl rfl
  | bkBrackName k => exact shape_tested _ rfl rfl
  | ahead body => cases left with
    | true => exact ⟨rfl, ⟨by simp, by simp [isLook], by simp [isLook]⟩, Or.inr ⟨⟨q, rfl⟩, fun _ => rfl⟩⟩
    | false => exact ⟨rfl, rfl⟩
  | nahead body => cases left with
    | true => exact ⟨rfl, ⟨by simp, by simp [isLook], by simp [isLook]⟩, Or.inr ⟨⟨q, rfl⟩, fun _ => rfl⟩⟩
    | false => exact ⟨rfl, rfl⟩
  | behind k body => cases left with
    | true =>
      show Shape _ _ _ _ (Prod.fst (if q - k < 0 then _ else _))
      split
      · trivial
      · exact ⟨rfl, ⟨by simp, by simp [isLook], by simp [isLook]⟩, Or.inr ⟨⟨_, rfl⟩, fun _ => rfl⟩⟩
    | false => exact ⟨rfl, rfl⟩
  | nbehind k body => cases left with
    | true =>
      show Shape _ _ _ _ (Prod.fst (if q - k ≥ 0 then _ else _))
      split
      · exact ⟨rfl, ⟨by simp, by simp [isLook], by simp [isLook]⟩, Or.inr ⟨⟨_, rfl⟩, fun _ => rfl⟩⟩
      · exact Or.inl ⟨⟨q, rfl⟩, Or.inr rfl, Or.inl rfl⟩
    | false => exact ⟨rfl, rfl⟩
  | or body => cases left with
    | true => exact ⟨rfl, ⟨by simp, by simp [isLook], by simp [isLook]⟩, Or.inr ⟨⟨q, rfl⟩, fun h => by cases h⟩⟩
    | false => exact Or.inr (Or.inr ⟨⟨q, rfl⟩, rfl, rfl⟩)
  | rangeN s body =>
    show Shape _ _ _ _ (execRangeN ns up (.rangeN s body) s body left q m).1
    unfold execRangeN
    dsimp only
    split
    · exact Or.inl ⟨⟨q, rfl⟩, Or.inl rfl, Or.inl rfl⟩
    · split
      · exact ⟨rfl, ⟨by simp, by simp [isLook], by simp [isLook]⟩, Or.inr ⟨⟨q, rfl⟩, fun h => by cases h⟩⟩
      · exact Or.inr (Or.inl ⟨⟨q, rfl⟩, rfl⟩)
  | rangeNM s e body =>
    show Shape _ _ _ _ (execRangeNM ns up (.rangeNM s e body) s e body false left q m).1
    unfold execRangeNM
    dsimp only
    split
    · split
      · exact ⟨rfl, ⟨by simp, by simp [isLook], by simp [isLook]⟩, Or.inl ⟨⟨q, rfl⟩, rfl⟩⟩
      · exact ⟨rfl, ⟨by simp, by simp [isLook], by simp [isLook]⟩, Or.inr ⟨⟨q, rfl⟩, fun h => by cases h⟩⟩
    · exact Or.inr (Or.inl ⟨⟨q, rfl⟩, rfl⟩)
  | ngRangeN s body =>
    show Shape _ _ _ _ (execNGRangeN ns up (.ngRangeN s body) s body left q m).1
    unfold execNGRangeN
    dsimp only
    split
    · exact Or.inl ⟨⟨q, rfl⟩, Or.inl rfl, Or.inl rfl⟩
    · split
      · exact ⟨rfl, ⟨by simp, by simp [isLook], by simp [isLook]⟩, Or.inl ⟨⟨q, rfl⟩, rfl⟩⟩
      · exact Or.inr (Or.inl ⟨⟨q, rfl⟩, rfl⟩)
  | ngRangeNM s e body =>
    show Shape _ _ _ _ (execRangeNM ns up (.ngRangeNM s e body) s e body true left q m).1
    unfold execRangeNM
    dsimp only
    split
    · split
      · exact ⟨rfl, ⟨by simp, by simp [isLook], by simp [isLook]⟩, Or.inl ⟨⟨q, rfl⟩, rfl⟩⟩
      · exact ⟨rfl, ⟨by simp, by simp [isLook], by simp [isLook]⟩, Or.inl ⟨⟨q, rfl⟩, rfl⟩⟩
    · exact Or.inr (Or.inl ⟨⟨q, rfl⟩, rfl⟩)

/-! ## The whole match is in order -/

/-- the innermost look-around around a pointer (itself included), or nothing -/
def scope : List (List Node) → List (List Node)
  | [] => []
  | [] :: up => scope up
  | (n :: ns) :: up => if isLook n then (n :: ns) :: up else scope up

/-- the look-around being tested, according to the stack -/
def stScope : List Elem → List (List Node)
  | [] => []
  | x :: xs => if x.t = .yes then stScope xs else x.c.pos

def cScope (c : Cfg) : List (List Node) := if c.left then scope c.pos.tail else scope c.pos

/-- the whole match is in order (and set) -/
def Zero (m : Mem) : Prop := m.m.s 0 ≤ m.m.e 0 ∧ (Good m → 0 ≤ m.m.s 0)

def StackScope (root : List (List Node)) : List Elem → Prop
  | [] => True
  | x :: xs => (∃ n ns up, x.c.pos = (n :: ns) :: up ∧ root <:+ up ∧ scope up = stScope xs ∧ CallActs n x.t x.f) ∧
      StackScope root xs

/-- where a round without action may be -/
def Place (root : List (List Node)) (c : Cfg) (m : Mem) : Prop :=
  (c.pos = [] ∧ c.left = false ∧ Zero m) ∨ (c.pos = [[]] ∧ c.left = true ∧ Zero m) ∨
  (∃ x up, c.pos = x :: up ∧ root <:+ up ∧ c.left = true) ∨ (root <:+ c.pos ∧ c.left = false) ∨ (c.pos = root ∧ c.left = true)

/-- invariant; `root` is the pointer to the outermost bracket -/
structure Scoped (root : List (List Node)) (st : State) : Prop where
  stack : StackScope root st.stack
  cur : match st.act with
    | none => cScope st.c = stScope st.stack ∧ Place root st.c st.m
    | some a => (∃ n ns up, st.c.pos = (n :: ns) :: up ∧ root <:+ up ∧ scope up = stScope st.stack ∧ (isLook n = true → a = .no ∨ a = .brk)) ∧
        (a = .yes → stScope st.stack = [] → Zero st.m)

theorem pop_scoped {root : List (List Node)} {b : Bool} {m : Mem} {s : List Elem} (hs : StackScope root s)
    (hz : b = true → stScope s = [] → Zero m) :
    match pop b m s with
    | .inl st => Scoped root st
    | .inr r => r.1 = .ret true → Zero r.2 := by
  cases s with
  | nil =>
    intro h
    refine hz ?_ rfl
    cases b <;> simp_all
  | cons x xs =>
    obtain ⟨⟨n, ns, up, h1, h2, h3, h4, h5, h6⟩, h7⟩ := hs
    refine ⟨h7, ⟨n, ns, up, h1, h2, h3, fun hl => ?_⟩, fun ha hsc => ?_⟩
    · obtain ⟨a, b'⟩ := h5 hl
      cases b
      · exact b'
      · exact a
    · cases b with
      | false => exact absurd ha h4
      | true =>
        have ha : x.t = .yes := ha
        refine hz rfl ?_
        simp [stScope, ha]
        exact hsc

/-- the last part of `step` -/
def after (c : Cfg) (stack : List Elem) (r : Res × Mem) : State ⊕ (End × Mem) :=
  match r.1 with
  | .fail => pop false r.2 stack
  | .succ => pop true r.2 stack
  | .goto c => .inl ⟨c, none, r.2, stack⟩
  | .call c' t f => .inl ⟨c', none, r.2, ⟨c, t, f⟩ :: stack⟩
  | .oob => .inr (.oob, r.2)

theorem step_eq (env : Env) (st : State) : step env st =
    after st.c st.stack (match st.act with | none => exec env st.c st.m | some a => resume a st.c st.m) := rfl

def SOk (root : List (List Node)) : State ⊕ (End × Mem) → Prop
  | .inl st => Scoped root st
  | .inr r => r.1 = .ret true → Zero r.2

theorem pop_sok {root : List (List Node)} {b : Bool} {m : Mem} {s : List Elem} (hs : StackScope root s)
    (hz : b = true → stScope s = [] → Zero m) : SOk root (pop b m s) := by
  have := pop_scoped hs hz
  cases h : pop b m s with
  | inl st => rw [h] at this; exact this
  | inr r => rw [h] at this; exact this

theorem scope_cons (n : Node) (ns : List Node) (up : List (List Node)) (h : isLook n = false) : scope ((n :: ns) :: up) = scope up := by
  simp [scope, h]

theorem scope_look (n : Node) (ns : List Node) (up : List (List Node)) (h : isLook n = true) : scope ((n :: ns) :: up) = (n :: ns) :: up := by
  simp [scope, h]

/-- a round at a node below the root -/
theorem shape_scoped {root : List (List Node)} {n : Node} {ns : List Node} {up : List (List Node)} {left : Bool} {q : Int} {stack : List Elem}
    {r : Res × Mem} (hs : StackScope root stack) (hr : root <:+ up) (hc : cScope ⟨(n :: ns) :: up, left, q⟩ = stScope stack)
    (h : Shape n ns up left r.1) : SOk root (after ⟨(n :: ns) :: up, left, q⟩ stack r) := by
  obtain ⟨r1, m⟩ := r
  have hc1 : left = true → scope up = stScope stack := by
    intro h; subst h; exact hc
  have hc2 : left = false → scope ((n :: ns) :: up) = stScope stack := by
    intro h; subst h; exact hc
  have hc3 : isLook n = false ∨ left = true → scope up = stScope stack := by
    intro h
    cases left with
    | true => exact hc1 rfl
    | false =>
      rcases h with h | h
      · rw [← hc2 rfl, scope_cons n ns up h]
      · cases h
  have hr2 : root <:+ (n :: ns) :: up := hr.trans (List.suffix_cons _ _)
  cases r1 with
  | fail => exact pop_sok hs (by simp)
  | succ =>
    obtain ⟨h1, h2⟩ := h
    refine pop_sok hs fun _ h3 => ?_
    have := hc2 h2
    rw [scope_look n ns up h1, h3] at this
    cases this
  | goto c =>
    rcases h with ⟨⟨q, rfl⟩, h1, h2⟩ | ⟨⟨q, rfl⟩, h1⟩ | ⟨⟨q, rfl⟩, h1, h2⟩
    · exact ⟨hs, hc3 h1, Or.inr (Or.inr (Or.inl ⟨_, _, rfl, hr, rfl⟩))⟩
    · refine ⟨hs, ?_, Or.inr (Or.inr (Or.inl ⟨_, _, rfl, hr2, rfl⟩))⟩
      show scope ((n :: ns) :: up) = _
      rw [scope_cons n ns up h1]
      exact hc3 (Or.inl h1)
    · exact ⟨hs, hc3 (Or.inl h1), Or.inr (Or.inr (Or.inr (Or.inl ⟨hr, rfl⟩)))⟩
  | call c t f =>
    obtain ⟨_, hca, h⟩ := h
    rcases h with ⟨⟨q', rfl⟩, h1⟩ | ⟨⟨q', rfl⟩, h1⟩
    · have hy := hca.2.2 h1
      refine ⟨⟨⟨n, ns, up, rfl, hr, hc3 (Or.inl h1), hca⟩, hs⟩, ?_, Or.inr (Or.inr (Or.inl ⟨_, _, rfl, hr, rfl⟩))⟩
      show scope up = stScope (_ :: stack)
      simp only [stScope, hy, if_true]
      exact hc3 (Or.inl h1)
    · have hsc : scope up = stScope stack := hc3 (by cases hl : isLook n with | true => exact Or.inr (h1 hl) | false => exact Or.inl rfl)
      refine ⟨⟨⟨n, ns, up, rfl, hr, hsc, hca⟩, hs⟩, ?_, Or.inr (Or.inr (Or.inl ⟨_, _, rfl, hr2, rfl⟩))⟩
      show scope ((n :: ns) :: up) = stScope (_ :: stack)
      cases hl : isLook n with
      | true =>
        have : t ≠ .yes := by
          rcases (hca.2.1 hl).1 with h | h <;> rw [h] <;> simp
        simp only [stScope, this, if_false]
        exact scope_look n ns up hl
      | false =>
        rw [scope_cons n ns up hl]
        simp only [stScope, hca.2.2 hl, if_true]
        exact hsc
  | oob => intro h; cases h

theorem close_zero (m : Mem) {s q : Int} (hs : 0 ≤ s) (hq : 0 ≤ q) : Zero (m.close 0 s q) := by
  refine ⟨by rw [close_s_same]; omega, fun hg => ?_⟩
  obtain ⟨a, b⟩ := hg
  have he : 0 ≤ (m.close 0 s q).m.e 0 := by
    cases hh : m.endChange
    · rw [close_e, if_pos (by simp [hh])]; exact hq
    · exact b hh
  cases hh : m.startChange
  · rw [close_s_same, if_pos (by simp [hh])]; omega
  · exact a hh

theorem step_scoped {env : Env} {H : Int} {body : List Node} {st : State} (hok : StateOk env H st) (h : Scoped [[.brackets (some 0) body]] st) :
    SOk [[.brackets (some 0) body]] (step env st) := by
  obtain ⟨c, act, m, stack⟩ := st
  obtain ⟨hs, hc⟩ := h
  rw [step_eq]
  cases act with
  | some a =>
    obtain ⟨⟨n, ns, up, h1, h2, h3, h4⟩, h5⟩ := hc
    obtain ⟨pos, left, q⟩ := c
    have h1 : pos = (n :: ns) :: up := h1
    subst h1
    have hr2 : [[.brackets (some 0) body]] <:+ (n :: ns) :: up := h2.trans (List.suffix_cons _ _)
    have hl : ¬ (a = .no ∨ a = .brk) → isLook n = false := by
      intro h; cases hl : isLook n with
      | true => exact absurd (h4 hl) h
      | false => rfl
    cases a with
    | no => exact pop_sok hs (by simp)
    | yes => exact pop_sok hs (fun _ h => h5 rfl h)
    | brk => exact ⟨hs, h3, Or.inr (Or.inr (Or.inl ⟨_, _, rfl, h2, rfl⟩))⟩
    | rangeN2 =>
      exact ⟨⟨⟨n, ns, up, rfl, h2, h3, by simp, fun h => by simp [hl] at h, fun _ => rfl⟩, hs⟩, h3, Or.inr (Or.inr (Or.inl ⟨_, _, rfl, h2, rfl⟩))⟩
    | rangeNM2 =>
      exact ⟨⟨⟨n, ns, up, rfl, h2, h3, by simp, fun h => by simp [hl] at h, fun _ => rfl⟩, hs⟩, h3, Or.inr (Or.inr (Or.inl ⟨_, _, rfl, h2, rfl⟩))⟩
    | rangeNM3 => exact pop_sok hs (by simp)
    | ngRangeN2 =>
      refine ⟨hs, ?_, Or.inr (Or.inr (Or.inl ⟨_, _, rfl, hr2, rfl⟩))⟩
      show scope ((n :: ns) :: up) = _
      rw [scope_cons _ _ _ (hl (by simp))]
      exact h3
    | ngRangeNM2 =>
      refine ⟨⟨⟨n, ns, up, rfl, h2, h3, by simp, fun h => by simp [hl] at h, fun _ => rfl⟩, hs⟩, ?_, Or.inr (Or.inr (Or.inl ⟨_, _, rfl, hr2, rfl⟩))⟩
      show scope ((n :: ns) :: up) = stScope stack
      rw [scope_cons _ _ _ (hl (by simp))]
      exact h3
    | ngRangeNM3 => exact pop_sok hs (by simp)
  | none =>
    obtain ⟨hsc, hp⟩ := hc
    obtain ⟨pos, left, q⟩ := c
    have below : ∀ n ns up, pos = (n :: ns) :: up → [[.brackets (some 0) body]] <:+ up →
        SOk [[.brackets (some 0) body]] (after ⟨pos, left, q⟩ stack (exec env ⟨pos, left, q⟩ m)) := by
      intro n ns up hpos hr
      subst hpos
      exact shape_scoped hs hr hsc (execNode_shape env n ns up left q m)
    have gap : ∀ up, pos = [] :: up → [[.brackets (some 0) body]] <:+ up →
        SOk [[.brackets (some 0) body]] (after ⟨pos, left, q⟩ stack (exec env ⟨pos, left, q⟩ m)) := by
      intro up hpos hr
      subst hpos
      refine ⟨hs, ?_, Or.inr (Or.inr (Or.inr (Or.inl ⟨hr, rfl⟩)))⟩
      have hsc : cScope ⟨[] :: up, left, q⟩ = stScope stack := hsc
      cases left <;> exact hsc
    rcases hp with ⟨h1, h2, h3⟩ | ⟨h1, h2, h3⟩ | ⟨x, up, h1, h2, h3⟩ | ⟨h1, h2⟩ | ⟨h1, h2⟩
    · have h1 : pos = [] := h1
      subst h1
      exact pop_sok hs fun _ _ => h3
    · have h1 : pos = [[]] := h1
      subst h1
      have h2 : left = true := h2
      subst h2
      exact ⟨hs, hsc, Or.inl ⟨rfl, rfl, h3⟩⟩
    · have h1 : pos = x :: up := h1
      cases x with
      | nil => exact gap _ h1 h2
      | cons n ns => exact below _ _ _ h1 h2
    · have h1 : [[.brackets (some 0) body]] <:+ pos := h1
      match pos, h1, hsc, below, gap with
      | [], h1, _, _, _ => simp at h1
      | [] :: up, h1, hsc, _, gap =>
        rcases List.suffix_cons_iff.mp h1 with h | h
        · cases h
        · exact gap up rfl h
      | (n :: ns) :: up, h1, hsc, below, _ =>
        rcases List.suffix_cons_iff.mp h1 with h | h
        · cases h
          have h2 : left = false := h2
          subst h2
          obtain ⟨c0, _, c2⟩ := hok.cur
          have c2 : Open H m [[.brackets (some 0) body]] := by simpa using c2
          exact ⟨hs, hsc, Or.inr (Or.inl ⟨rfl, rfl, close_zero _ (c2 _ _ _ (List.suffix_refl _) rfl).1 c0⟩)⟩
        · exact below n ns up rfl h
    · have h1 : pos = [[.brackets (some 0) body]] := h1
      subst h1
      have h2 : left = true := h2
      subst h2
      exact ⟨hs, hsc, Or.inr (Or.inr (Or.inl ⟨_, _, rfl, List.suffix_refl _, rfl⟩))⟩

theorem run_scoped {env : Env} {H : Int} (he : EnvOk env H) {body : List Node} (fuel : Nat) : ∀ {st : State} {r : End × Mem}, StateOk env H st → Scoped [[.brackets (some 0) body]] st →
    run env fuel st = some r → r.1 = .ret true → Zero r.2 := by
  induction fuel with
  | zero => intro st r _ _ h; simp [run] at h
  | succ fuel ih =>
    intro st r hok hs h
    have := step_scoped hok hs
    have hok1 := step_ok he hok
    rw [run] at h
    cases hst : step env st with
    | inl st1 => rw [hst] at h this hok1; exact ih hok1 this h
    | inr r1 => rw [hst] at h this; cases h; exact this

theorem scoped_start (body : List Node) (pos : Int) (m : Mem) :
    Scoped [[.brackets (some 0) body]] ⟨⟨[[.brackets (some 0) body]], true, pos⟩, none, m, []⟩ :=
  ⟨trivial, rfl, Or.inr (Or.inr (Or.inr (Or.inr ⟨rfl, rfl⟩)))⟩

/-! ## The calls of `parse` -/

theorem stateOk_start {env : Env} {H : Int} {body : List Node} {pos : Int} {m : Mem} (h0 : 0 ≤ pos) (h1 : pos ≤ H) (hm : MOk env H m.m) :
    StateOk env H ⟨⟨[[.brackets (some 0) body]], true, pos⟩, none, m, []⟩ :=
  ⟨hm, ⟨h0, h1, by simp [Open]⟩, by simp⟩

theorem tries_ok {env : Env} {H : Int} (he : EnvOk env H) (body : List Node) (fuel : Nat) (keep : Bool) (n : Nat) :
    ∀ (pos : Int) (m : Mem) (out : Out), 0 ≤ pos → pos + n ≤ H → MOk env H m.m →
      tries env [[.brackets (some 0) body]] fuel keep n pos m = some out →
      out.res ≠ .oob ∧ MOk env H out.m ∧ (out.res = .ret true → out.m.s 0 ≤ out.m.e 0 ∧ (Good m → 0 ≤ out.m.s 0)) := by
  induction n with
  | zero =>
    intro pos m out h0 h1 hm h
    rw [tries.eq_def] at h; dsimp only at h
    cases hr : run env fuel ⟨⟨[[.brackets (some 0) body]], true, pos⟩, none, m, []⟩ with
    | none => rw [hr] at h; cases h
    | some r =>
      obtain ⟨e, m1⟩ := r
      have a := run_ok he fuel (stateOk_start h0 (by omega) hm) hr
      have b := run_scoped he fuel (stateOk_start h0 (by omega) hm) (scoped_start body pos m) hr
      rw [hr] at h
      cases e with
      | oob => exact absurd rfl a.1
      | ret v => cases v <;> (cases h; exact ⟨by simp [outOf], a.2, fun hh => ⟨(b hh).1, fun hg => (b hh).2 (run_good he fuel (stateOk_start h0 (by omega) hm) hg hr)⟩⟩)
  | succ n ih =>
    intro pos m out h0 h1 hm h
    rw [tries.eq_def] at h; dsimp only at h
    cases hr : run env fuel ⟨⟨[[.brackets (some 0) body]], true, pos⟩, none, m, []⟩ with
    | none => rw [hr] at h; cases h
    | some r =>
      obtain ⟨e, m1⟩ := r
      have a := run_ok he fuel (stateOk_start h0 (by omega) hm) hr
      have b := run_scoped he fuel (stateOk_start h0 (by omega) hm) (scoped_start body pos m) hr
      rw [hr] at h
      cases e with
      | oob => exact absurd rfl a.1
      | ret v => cases v with
        | false =>
          obtain ⟨i1, i2, i3⟩ := ih (pos + 1) m1 out (by omega) (by omega) a.2 h
          exact ⟨i1, i2, fun hh => ⟨(i3 hh).1, fun hg => (i3 hh).2 (run_good he fuel (stateOk_start h0 (by omega) hm) hg hr)⟩⟩
        | true => cases h; exact ⟨by simp [outOf], a.2, fun hh => ⟨(b hh).1, fun hg => (b hh).2 (run_good he fuel (stateOk_start h0 (by omega) hm) hg hr)⟩⟩

theorem quickCheck_ok {env : Env} {H : Int} (he : EnvOk env H) {q : Int} (hq : 0 ≤ q) (f : First) : ∃ b, quickCheck env f q = some b := by
  have a := he.stop
  have b := he.text
  cases f with
  | none => exact ⟨_, rfl⟩
  | char c =>
    simp only [quickCheck]
    split
    · exact ⟨_, rfl⟩
    · obtain ⟨d, hd⟩ := rd_some (t := env.text) hq (by omega)
      rw [hd]; exact ⟨_, rfl⟩
  | msym m => cases m <;> exact ⟨_, rfl⟩

/-- C28: with the position and the end inside the text and a back trace inside its text, `parse` never reads outside a string, whatever
the expression, the state the object and the result structure are left in by earlier calls, and when the call succeeds every group is
unset or lies in order inside the text; so does the whole match, unless an `\m`/`\M` mark of an earlier call is left
(then it may be unset; see C30). -/
theorem C28_inside_the_text (chars : Chars) (x : Expr) (fuel : Nat) (o : Obj) (a : Args) (mtch : Matches) (out : Out)
    (h0 : 0 ≤ a.pos) (h1 : a.pos ≤ a.text.length) (h2 : a.eol ≤ a.text.length) (hb : TraceOk a.back) (hx : 0 < x.cMatch)
    (h : parse chars x fuel o a mtch = some out) :
    out.res ≠ .oob ∧ (out.res = .ret true →
      (∀ i, 0 < i → i < x.cMatch → Inside (max a.pos a.eol) (out.m.s i) (out.m.e i)) ∧
      (∀ i, i < x.cnMatch → Inside (max a.pos a.eol) (out.m.ns i) (out.m.ne i)) ∧
      out.m.s 0 ≤ out.m.e 0 ∧ out.m.e 0 ≤ max a.pos a.eol ∧ -1 ≤ out.m.s 0 ∧
      (o.startChange = false → o.endChange = false → 0 ≤ out.m.s 0)) := by
  have he : EnvOk (envOf chars x a) (max a.pos a.eol) := ⟨by show a.eol ≤ _; omega, by show _ ≤ (a.text.length : Int); omega, hb⟩
  have hm : MOk (envOf chars x a) (max a.pos a.eol) (clearMatches x mtch) := by
    refine ⟨fun h => ?_, fun i _ hi => ?_, fun i hi => ?_⟩
    · have h : 0 < x.cMatch := h
      simp [clearMatches, h, Pt]
    · have hi : i < x.cMatch := hi
      simp [clearMatches, hi, Inside]
    · have hi : i < x.cnMatch := hi
      simp [clearMatches, hi, Inside]
  have fin : ∀ {n : Nat} {out : Out}, a.pos + n ≤ max a.pos a.eol →
      tries (envOf chars x a) x.root fuel o.moves n a.pos ⟨o.vars, clearMatches x mtch, o.startChange, o.endChange⟩ = some out →
      out.res ≠ .oob ∧ (out.res = .ret true →
      (∀ i, 0 < i → i < x.cMatch → Inside (max a.pos a.eol) (out.m.s i) (out.m.e i)) ∧
      (∀ i, i < x.cnMatch → Inside (max a.pos a.eol) (out.m.ns i) (out.m.ne i)) ∧
      out.m.s 0 ≤ out.m.e 0 ∧ out.m.e 0 ≤ max a.pos a.eol ∧ -1 ≤ out.m.s 0 ∧
      (o.startChange = false → o.endChange = false → 0 ≤ out.m.s 0)) := by
    intro n out hn ht
    obtain ⟨r1, r2, r3⟩ := tries_ok he x.body fuel o.moves n a.pos _ out h0 hn hm ht
    refine ⟨r1, fun hr => ⟨r2.grp, r2.nam, (r3 hr).1, ?_⟩⟩
    obtain ⟨p1, p2⟩ := r2.s0 hx
    unfold Pt at p1 p2
    refine ⟨by omega, by omega, fun g1 g2 => (r3 hr).2 ⟨fun h => ?_, fun h => ?_⟩⟩
    · have h : o.startChange = true := h
      rw [g1] at h; cases h
    · have h : o.endChange = true := h
      rw [g2] at h; cases h
  have stopped : ∀ {e : End} {m : Matches} {o : Obj}, e = .ret false → some (⟨e, m, o⟩ : Out) = some out →
      out.res ≠ .oob ∧ (out.res = .ret true →
      (∀ i, 0 < i → i < x.cMatch → Inside (max a.pos a.eol) (out.m.s i) (out.m.e i)) ∧
      (∀ i, i < x.cnMatch → Inside (max a.pos a.eol) (out.m.ns i) (out.m.ne i)) ∧
      out.m.s 0 ≤ out.m.e 0 ∧ out.m.e 0 ≤ max a.pos a.eol ∧ -1 ≤ out.m.s 0 ∧
      (o.startChange = false → o.endChange = false → 0 ≤ out.m.s 0)) := by
    intro e m o he h
    cases h
    subst he
    exact ⟨by simp, by simp⟩
  unfold parse at h
  dsimp only at h
  split at h
  · exact stopped rfl h
  · split at h
    · exact fin (by omega) h
    · obtain ⟨b, hq⟩ := quickCheck_ok he h0 (firstOf x.body)
      rw [hq] at h
      cases b with
      | false => exact stopped rfl h
      | true => exact fin (by omega) h

end Verif.RegExp
