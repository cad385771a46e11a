import Verif.Io.Model

/-!
# The error log of the XML reader (C53)

libxml2 reports an error in pieces. The pieces are put together in a buffer of 4096 characters until one ends with a line break.
-/
namespace Verif.Io
open Verif.Strings

/-! ## Specification -/

/-- what has been put together, and what was logged -/
structure Joined where
  part : Str
  out  : List Str

/-- one piece: a line is logged without its line break; a line that does not fit is cut to 4095 characters; a failed piece forgets the
beginning of its line -/
def Joined.next (s : Joined) : Option Str → Joined
  | none => ⟨[], s.out⟩
  | some m =>
    if 4096 ≤ (s.part ++ m).length then ⟨[], s.out ++ [(s.part ++ m).take 4095]⟩
    else if (s.part ++ m).getLast? = some 10 then ⟨[], s.out ++ [(s.part ++ m).dropLast]⟩
    else ⟨s.part ++ m, s.out⟩

def Joined.all (s : Joined) (ms : List (Option Str)) : Joined := ms.foldl Joined.next s

/-- what libxml2 may report: pieces without a zero character, none empty (a failure of vsnprintf is also allowed) -/
def Piece (m : Option Str) : Prop := ∀ t, m = some t → t ≠ [] ∧ 0 ∉ t

/-! ## The buffer -/

theorem poke_eq (w : List Nat) : ∀ (buf : List Nat) (i : Nat), i + w.length ≤ buf.length →
    poke buf i w = some (buf.take i ++ w ++ buf.drop (i + w.length)) := by
  induction w with
  | nil => intro buf i h; simp [poke]
  | cons c r ih =>
    intro buf i h
    simp only [List.length_cons] at h
    rw [poke, if_pos (by omega), ih _ _ (by simp only [List.length_set]; omega)]
    congr 1
    have e1 : (buf.set i c).take (i + 1) = buf.take i ++ [c] := by
      rw [List.take_set, List.take_succ_eq_append_getElem (by omega), List.set_append_right _ _ (by simp; omega)]
      simp [Nat.min_eq_left (by omega : i ≤ buf.length)]
    have e2 : (buf.set i c).drop (i + 1 + r.length) = buf.drop (i + 1 + r.length) := by
      rw [List.drop_set_of_lt (by omega)]
    rw [e1, e2]
    simp [Nat.add_assoc, Nat.add_comm 1]

theorem poke_outside (w : List Nat) : ∀ (buf : List Nat) (i : Nat), buf.length < i + w.length → w ≠ [] → poke buf i w = none := by
  induction w with
  | nil => intro _ _ _ h; exact absurd rfl h
  | cons c r ih =>
    intro buf i h _
    rw [poke]
    split
    · cases r with
      | nil => simp only [List.length_cons, List.length_nil] at h; omega
      | cons d r => exact ih _ _ (by simp only [List.length_set, List.length_cons] at h ⊢; omega) (by simp)
    · rfl

theorem cstr_append {t : Str} (h : 0 ∉ t) (r : List Nat) : cstr (t ++ 0 :: r) = t := by
  unfold cstr
  rw [List.takeWhile_append_of_pos (by intro x hx; simp; rintro rfl; exact h hx)]
  simp

/-- how the buffer represents what has been put together -/
structure Rep (s : Log) (j : Joined) : Prop where
  len  : s.buf.length = SIZE
  slen : s.slen = j.part.length
  fit  : s.slen < SIZE
  part : s.buf.take s.slen = j.part
  nz   : 0 ∉ j.part
  out  : s.out = j.out

theorem rep_start : Rep Log.start ⟨[], []⟩ :=
  ⟨List.length_replicate, rfl, (by show 0 < 4096; omega), rfl, by simp, rfl⟩

theorem rep_next {s : Log} {j : Joined} (h : Rep s j) (m : Option Str) (hm : ∀ t, m = some t → (t ≠ [] ∨ j.part ≠ []) ∧ 0 ∉ t) :
    ∃ s', s.error m = some s' ∧ Rep s' (j.next m) := by
  obtain ⟨hl, hs, hf, hp, hz, ho⟩ := h
  cases m with
  | none => exact ⟨_, rfl, by simp, rfl, by simp [SIZE], by simp [Joined.next], by simp [Joined.next], ho⟩
  | some t =>
    obtain ⟨hne, hzt⟩ := hm t rfl
    unfold Log.error Joined.next
    dsimp only
    have hlen : (j.part ++ t).length = s.slen + t.length := by rw [List.length_append, hs]
    have hzz : 0 ∉ j.part ++ t := by simp [hz, hzt]
    have hpos : 0 < s.slen + t.length := by
      rcases hne with h | h
      · have := List.length_pos_iff.2 h; omega
      · have := List.length_pos_iff.2 h; omega
    by_cases hover : SIZE ≤ s.slen + t.length
    · -- the line does not fit
      have e : vsnprintf s.buf s.slen (SIZE - s.slen) t = some ((j.part ++ t).take (SIZE - 1) ++ [0]) := by
        unfold vsnprintf
        rw [if_neg (by omega), poke_eq _ _ _ (by simp only [List.length_append, List.length_take, List.length_cons, List.length_nil]; omega)]
        congr 1
        rw [hp, List.take_append, ← hs, List.take_of_length_le (by omega : j.part.length ≤ SIZE - 1)]
        have hd : List.drop (s.slen + (List.take (SIZE - s.slen - 1) t ++ [0]).length) s.buf = [] := by
          apply List.drop_eq_nil_of_le
          simp only [List.length_append, List.length_take, List.length_cons, List.length_nil]; omega
        rw [hd, List.append_nil, List.append_assoc, (by omega : SIZE - s.slen - 1 = SIZE - 1 - s.slen)]
      have hT : ((j.part ++ t).take (SIZE - 1)).length = SIZE - 1 := by rw [List.length_take, hlen]; omega
      have hset : ∀ c d, ((j.part ++ t).take (SIZE - 1) ++ [c]).set (SIZE - 1) d = (j.part ++ t).take (SIZE - 1) ++ [d] := by
        intro c d
        rw [List.set_append_right _ _ (by omega)]
        simp [hT]
      rw [e]
      dsimp only
      rw [if_pos hover, if_pos (by rw [hlen]; exact hover), hset]
      unfold flush
      rw [if_neg (by simp [SIZE]), List.getElem?_append_right (by omega), hT, Nat.sub_self]
      simp only [List.getElem?_cons_zero, if_true, hset]
      refine ⟨_, rfl, by simp, rfl, by simp [SIZE], by simp, by simp, ?_⟩
      have := cstr_append (t := (j.part ++ t).take (SIZE - 1)) (fun h => hzz (List.mem_of_mem_take h)) []
      show s.out ++ [_] = j.out ++ [_]
      rw [this, ho]
      rfl
    · -- it fits
      have e : vsnprintf s.buf s.slen (SIZE - s.slen) t = some ((j.part ++ t) ++ 0 :: s.buf.drop (s.slen + t.length + 1)) := by
        unfold vsnprintf
        rw [if_neg (by omega), List.take_of_length_le (by omega),
          poke_eq _ _ _ (by simp only [List.length_append, List.length_cons, List.length_nil]; omega), hp]
        simp [Nat.add_assoc]
      rw [e]
      dsimp only
      rw [if_neg hover, if_neg (by rw [hlen]; exact hover)]
      unfold flush
      rw [if_neg (by omega), List.getElem?_append_left (by omega), ← hlen, ← List.getLast?_eq_getElem?]
      have hnn : j.part ++ t ≠ [] := by intro h; rw [h] at hlen; simp at hlen; omega
      rw [List.getLast?_eq_some_getLast hnn]
      simp only [Option.some.injEq]
      by_cases hc : (j.part ++ t).getLast hnn = 10
      · rw [if_pos hc, if_pos hc]
        refine ⟨_, rfl, by simp, rfl, by simp [SIZE], by simp, by simp, ?_⟩
        show s.out ++ [_] = j.out ++ [_]
        have : ∀ r, (j.part ++ t ++ 0 :: r).set ((j.part ++ t).length - 1) 0 = (j.part ++ t).dropLast ++ 0 :: 0 :: r := by
          intro r
          generalize j.part ++ t = w at hnn
          have hw : w = w.dropLast ++ [w.getLast hnn] := (List.dropLast_concat_getLast hnn).symm
          generalize w.getLast hnn = c at hw
          generalize w.dropLast = d at hw ⊢
          subst hw
          rw [List.append_assoc, List.set_append_right _ _ (by simp)]
          simp
        rw [this, cstr_append (fun h => hzz (List.dropLast_subset _ h)), ho]
      · rw [if_neg hc, if_neg hc]
        refine ⟨_, rfl, ?_, rfl, ?_, ?_, hzz, ho⟩
        · show (j.part ++ t ++ 0 :: _).length = SIZE
          simp only [List.length_append, List.length_cons, List.length_drop] at hlen ⊢; omega
        · show (j.part ++ t).length < SIZE; omega
        · show List.take (j.part ++ t).length (j.part ++ t ++ _) = _; exact List.take_left

/-! ## The theorems -/

/-- C53: whatever libxml2 reports, in whatever pieces, the log functions stay inside their buffer and log exactly the lines, in order, each
cut to 4095 characters. -/
theorem C53_log_partial (ms : List (Option Str)) (hm : ∀ m ∈ ms, Piece m) :
    ∃ s, Log.start.run ms = some s ∧ s.out = ((⟨[], []⟩ : Joined).all ms).out := by
  have gen : ∀ (ms : List (Option Str)) (s : Log) (j : Joined), Rep s j → (∀ m ∈ ms, Piece m) → ∃ s', s.run ms = some s' ∧ Rep s' (j.all ms) := by
    intro ms
    induction ms with
    | nil => intro s j h _; exact ⟨s, rfl, h⟩
    | cons m r ih =>
      intro s j h hm
      obtain ⟨s1, e1, h1⟩ := rep_next h m (fun t ht => ⟨.inl (hm m (by simp) t ht).1, (hm m (by simp) t ht).2⟩)
      obtain ⟨s2, e2, h2⟩ := ih s1 _ h1 (fun m hm' => hm m (by simp [hm']))
      exact ⟨s2, by simp [Log.run, e1, e2], h2⟩
  obtain ⟨s, h1, h2⟩ := gen ms _ _ rep_start hm
  exact ⟨s, h1, h2.out⟩

/-- every logged line is at most 4095 characters long -/
theorem C53_bounded (ms : List (Option Str)) (hm : ∀ m ∈ ms, Piece m) (s : Log) (h : Log.start.run ms = some s) : ∀ l ∈ s.out, l.length < 4096 := by
  obtain ⟨s', h1, h2⟩ := C53_log_partial ms hm
  rw [h] at h1; cases h1
  rw [h2]
  have gen : ∀ (ms : List (Option Str)) (j : Joined), (∀ l ∈ j.out, l.length < 4096) → ∀ l ∈ (j.all ms).out, l.length < 4096 := by
    intro ms
    induction ms with
    | nil => intro j h; exact h
    | cons m r ih =>
      intro j h
      refine ih (j.next m) ?_
      cases m with
      | none => exact h
      | some t =>
        unfold Joined.next
        dsimp only
        split
        · intro l hl
          rcases List.mem_append.1 hl with hl | hl
          · exact h l hl
          · simp only [List.mem_singleton] at hl; subst hl; simp only [List.length_take]; omega
        · split
          · intro l hl
            rcases List.mem_append.1 hl with hl | hl
            · exact h l hl
            · simp only [List.mem_singleton] at hl; subst hl; simp only [List.length_dropLast]; omega
          · exact h
  exact gen ms _ (by simp)

/-- C53 fails for an empty message (a format that gives nothing) at the beginning of a line: it reads (and may overwrite) the byte before
the buffer. `pre` is any history that ends with a complete line. -/
theorem C53_violated_empty (pre : List (Option Str)) (hm : ∀ m ∈ pre, Piece m) (h : ((⟨[], []⟩ : Joined).all pre).part = []) :
    Log.start.run (pre ++ [some []]) = none := by
  have gen : ∀ (ms : List (Option Str)) (s : Log) (j : Joined), Rep s j → (∀ m ∈ ms, Piece m) → (j.all ms).part = [] →
      s.run (ms ++ [some []]) = none := by
    intro ms
    induction ms with
    | nil =>
      intro s j h _ hp
      have hp : j.part = [] := hp
      have h0 : s.slen = 0 := by rw [h.slen, hp]; rfl
      have hl := h.len
      have hb : ∃ b, vsnprintf s.buf 0 (SIZE - 0) [] = some b := by
        unfold vsnprintf
        rw [if_neg (by simp [SIZE]), poke_eq _ _ _ (by simp [hl, SIZE])]
        exact ⟨_, rfl⟩
      obtain ⟨b, hb⟩ := hb
      simp only [List.nil_append, Log.run, Log.error, h0, hb]
      simp [SIZE, flush]
    | cons m r ih =>
      intro s j h hm hp
      obtain ⟨s1, e1, h1⟩ := rep_next h m (fun t ht => ⟨.inl (hm m (by simp) t ht).1, (hm m (by simp) t ht).2⟩)
      simp only [List.cons_append, Log.run, e1, Option.bind_some]
      exact ih s1 _ h1 (fun m hm' => hm m (by simp [hm'])) hp
  exact gen pre _ _ rep_start hm h

/-- the hypotheses are met: a line in two pieces, then a failure -/
example : (∀ m ∈ ([some [65, 66], some [67, 10], none] : List (Option Str)), Piece m) ∧
    ((⟨[], []⟩ : Joined).all [some [65, 66], some [67, 10], none]).out = [[65, 66, 67]] ∧
    ((⟨[], []⟩ : Joined).all [some [65, 66], some [67, 10]]).part = [] := by
  refine ⟨?_, by decide, by decide⟩
  intro m hm t ht
  subst ht
  simp at hm
  rcases hm with rfl | rfl <;> simp

end Verif.Io
