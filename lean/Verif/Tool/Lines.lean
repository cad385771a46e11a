import Verif.Tool.Spec
import Verif.Viewer.Compose
import Verif.Whole.Down
/-!
# Lines written by the tool: proofs
-/
namespace Verif.Tool
open Verif.Strings (Str)
open Verif.Viewer (Out Reg Def lit InOrder render stopOf chars ColLe textOf)
open Verif.LineRegions (LR Compact Payload)

variable {RD D : Type}

/-! ## Line numbers -/

theorem decimal_length_pos (n : Nat) : 0 < (decimal n).length := by
  rw [decimal]; split <;> simp

theorem decimal_length (n : Nat) : (decimal n).length = if n < 10 then 1 else (decimal (n / 10)).length + 1 := by
  rw [decimal]; split <;> simp

theorem widthLoop_eq (n : Nat) : ∀ w, widthLoop n w = w + (if n = 0 then 0 else (decimal n).length) := by
  induction n using Nat.strongRecOn with
  | _ n ih =>
    intro w
    rw [widthLoop]
    split
    · have := decimal_length n
      rw [ih (n / 10) (by omega), if_neg (by omega : n ≠ 0)]
      split
      · rw [if_pos (by omega)] at this; omega
      · rw [if_neg (by omega)] at this; omega
    · rw [if_pos (by omega)]; simp

theorem widthOf_eq (n : Nat) : widthOf n = (decimal n).length := by
  have := decimal_length n
  unfold widthOf
  rw [widthLoop_eq]
  split
  · rw [if_pos (by omega)] at this; omega
  · rw [if_neg (by omega)] at this; omega

/-- the value of a string of digits -/
def numVal (l : Str) : Nat := l.foldl (fun a c => a * 10 + (c - 48)) 0

theorem numVal_decimal (n : Nat) : numVal (decimal n) = n ∧ ∀ c ∈ decimal n, 48 ≤ c ∧ c < 58 := by
  induction n using Nat.strongRecOn with
  | _ n ih =>
    rw [decimal]
    split
    · simp [numVal]; omega
    · obtain ⟨h1, h2⟩ := ih (n / 10) (by omega)
      unfold numVal at h1
      refine ⟨by rw [numVal, List.foldl_append, h1]; simp; omega, ?_⟩
      intro c hc
      rcases List.mem_append.1 hc with hc | hc
      · exact h2 c hc
      · simp at hc; omega

theorem number_ok (o : Opts) (lncount i : Nat) : textOf (number o lncount i) = [] ∧
    Viewer.markupOf (number o lncount i) = (if o.numbers then numberText lncount i else []) := by
  unfold number numberText
  rw [widthOf_eq, widthOf_eq]
  split
  · constructor
    · rw [Viewer.textOf_append]
      have : ∀ k, textOf (List.replicate k (Out.markup [32])) = [] := by
        intro k
        induction k with
        | zero => rfl
        | succ k ih => rw [List.replicate_succ]; exact ih
      rw [this]; rfl
    · have : ∀ k, Viewer.markupOf (List.replicate k (Out.markup [32])) = List.replicate k 32 := by
        intro k
        induction k with
        | zero => rfl
        | succ k ih =>
          rw [List.replicate_succ, List.replicate_succ, ← ih]; rfl
      have ha : ∀ a b, Viewer.markupOf (a ++ b) = Viewer.markupOf a ++ Viewer.markupOf b := fun _ _ => List.flatMap_append
      rw [ha, this, List.append_assoc]
      congr 1
  · exact ⟨rfl, rfl⟩

/-! ## Wrapping -/

theorem columns_length (line : Str) (f : Nat → Option D) : (columns line f).length = line.length := by simp [columns]

theorem columns_part (line : Str) (f : Nat → Option D) (v : Option D) (a b : Nat) (h : ∀ x, a ≤ x → x < b → f x = v) (hb : b ≤ line.length) :
    ((columns line f).drop a).take (b - a) = ((line.drop a).take (b - a)).map (fun c => (c, v)) := by
  apply List.ext_getElem
  · simp [columns]
  · intro i h1 h2
    simp [columns] at h1 ⊢
    rw [h (a + i) (by omega) (by omega)]

theorem columns_split (line : Str) (f : Nat → Option D) (v : Option D) (a b : Nat) (hab : a ≤ b) (h : ∀ x, a ≤ x → x < b → f x = v) (hb : b ≤ line.length) :
    (columns line f).drop a = ((line.drop a).take (b - a)).map (fun c => (c, v)) ++ (columns line f).drop b := by
  rw [← columns_part line f v a b h hb]
  have : (columns line f).drop b = ((columns line f).drop a).drop (b - a) := by rw [List.drop_drop]; congr 1; omega
  rw [this, List.take_append_drop]

theorem Wraps.plains {op cl : D → List Out} (run : Str) {cs : List (Nat × Option D)} {out : List Out} (h : Wraps op cl cs out) :
    Wraps op cl (run.map (fun c => (c, none)) ++ cs) (run.map Out.ch ++ out) := by
  induction run with
  | nil => exact h
  | cons c r ih => exact .plain ih

theorem wraps_gap {op cl : D → List Out} (line : Str) (f : Nat → Option D) (a b : Int) (h0 : 0 ≤ a) (hab : a ≤ b) (hb : b ≤ line.length)
    (hf : ∀ x : Nat, a ≤ x → x < b → f x = none) {out : List Out} (h : Wraps op cl ((columns line f).drop b.toNat) out) :
    Wraps op cl ((columns line f).drop a.toNat) (chars line a b ++ out) := by
  rw [columns_split line f none a.toNat b.toNat (by omega) (fun x h1 h2 => hf x (by omega) (by omega)) (by omega)]
  unfold chars
  rw [show (b - a).toNat = b.toNat - a.toNat by omega]
  exact h.plains _

theorem wraps_run {op cl : D → List Out} (line : Str) (f : Nat → Option D) (d : D) (a b : Int) (h0 : 0 ≤ a) (hab : a ≤ b) (hb : b ≤ line.length)
    (hf : ∀ x : Nat, a ≤ x → x < b → f x = some d) {out : List Out} (h : Wraps op cl ((columns line f).drop b.toNat) out) :
    Wraps op cl ((columns line f).drop a.toNat) (op d ++ chars line a b ++ cl d ++ out) := by
  rw [columns_split line f (some d) a.toNat b.toNat (by omega) (fun x h1 h2 => hf x (by omega) (by omega)) (by omega)]
  unfold chars
  rw [show (b - a).toNat = b.toNat - a.toNat by omega]
  exact .span h

/-- how the writers see the nodes of the store -/
structure Seen (reg : LR RD → Reg) (key : LR RD → Option D) (shown : Reg → Bool) (opening closing : Reg → List Out) (op cl : D → List Out) : Prop where
  start : ∀ t, (reg t).start = t.start
  stop  : ∀ t, (reg t).stop = t.stop
  shown : ∀ t, shown (reg t) = (!t.special && (key t).isSome)
  op    : ∀ t d, key t = some d → opening (reg t) = op d
  cl    : ∀ t d, key t = some d → closing (reg t) = cl d

theorem wraps_specials {reg : LR RD → Reg} {key : LR RD → Option D} {shown : Reg → Bool} {opening closing : Reg → List Out} {op cl : D → List Out}
    (hs : Seen reg key shown opening closing op cl) (line : Str) (f : Nat → Option D) (spl : List (LR RD)) (hspl : ∀ t ∈ spl, t.special = true) (pos : Int)
    (h0 : 0 ≤ pos) (h1 : pos ≤ line.length) (hf : ∀ x : Nat, pos ≤ x → x < line.length → f x = none) :
    InOrder line shown pos (spl.map reg) ∧ Wraps op cl ((columns line f).drop pos.toNat) (render line shown opening closing pos (spl.map reg)) := by
  induction spl with
  | nil =>
    refine ⟨⟨h0, h1⟩, ?_⟩
    rw [List.map_nil, render, ← List.append_nil (chars _ _ _)]
    refine wraps_gap line f pos line.length h0 h1 (by omega) (fun x a b => hf x a (by omega)) ?_
    rw [List.drop_of_length_le (by rw [columns_length]; omega)]
    exact .nil
  | cons t r ih =>
    obtain ⟨a, b⟩ := ih (fun u hu => hspl u (by simp [hu]))
    have : shown (reg t) = false := by rw [hs.shown, hspl t (by simp)]; rfl
    rw [List.map_cons, InOrder, render, this]
    simpa using ⟨a, b⟩

theorem wraps_nodes {reg : LR RD → Reg} {key : LR RD → Option D} {shown : Reg → Bool} {opening closing : Reg → List Out} {op cl : D → List Out}
    (hs : Seen reg key shown opening closing op cl) (line : Str) (f : Nat → Option D) (spl : List (LR RD)) (hspl : ∀ t ∈ spl, t.special = true)
    (ns : List (LR RD)) : ∀ (pos : Int), (∀ t ∈ ns, t.special = false) → (∀ t ∈ ns, 0 ≤ t.start ∧ (t.start ≤ t.stop ∨ t.stop = -1)) →
      ns.Pairwise (fun a b => a.stop ≠ -1 ∧ a.stop ≤ b.start) → (∀ t ∈ ns, ColLe (line.length : Int) t) → 0 ≤ pos → pos ≤ line.length →
      (∀ t ∈ ns, pos ≤ t.start) → (∀ t ∈ ns, ∀ x : Nat, t.showsAt x → f x = key t) →
      (∀ x : Nat, pos ≤ x → x < line.length → (∀ t ∈ ns, ¬ t.showsAt x) → f x = none) →
      InOrder line shown pos ((ns ++ spl).map reg) ∧ Wraps op cl ((columns line f).drop pos.toNat) (render line shown opening closing pos ((ns ++ spl).map reg)) := by
  induction ns with
  | nil =>
    intro pos _ _ _ _ h0 h1 _ _ hu
    exact wraps_specials hs line f spl hspl pos h0 h1 (fun x a b => hu x a b (by simp))
  | cons t r ih =>
    intro pos hn hbd hp hc h0 h1 hps hk hu
    rw [List.pairwise_cons] at hp
    have hn' : ∀ t ∈ r, t.special = false := fun u hu => hn u (by simp [hu])
    have hbd' : ∀ t ∈ r, 0 ≤ t.start ∧ (t.start ≤ t.stop ∨ t.stop = -1) := fun u hu => hbd u (by simp [hu])
    have hc' : ∀ t ∈ r, ColLe (line.length : Int) t := fun u hu => hc u (by simp [hu])
    have hk' : ∀ t ∈ r, ∀ x : Nat, t.showsAt x → f x = key t := fun u hu => hk u (by simp [hu])
    have ht := hbd t (by simp)
    have htc := hc t (by simp)
    have htp := hps t (by simp)
    have htn := hn t (by simp)
    rw [List.cons_append, List.map_cons, InOrder, render, hs.start, hs.stop, hs.shown, htn]
    cases hkey : key t with
    | none =>
      simp only [Option.isSome_none, Bool.not_false, Bool.true_and, Bool.false_eq_true, false_and, if_false]
      refine ih pos hn' hbd' hp.2 hc' h0 h1 (fun u hu => hps u (by simp [hu])) hk' ?_
      intro x a b hx
      by_cases hxt : t.showsAt x
      · rw [hk t (by simp) x hxt, hkey]
      · exact hu x a b (by
          intro u hu'
          rcases List.mem_cons.1 hu' with rfl | hu'
          · exact hxt
          · exact hx u hu')
    | some d =>
      by_cases hse : t.start = t.stop
      · rw [if_neg (by simp [hse]), if_neg (by simp [hse])]
        refine ih pos hn' hbd' hp.2 hc' h0 h1 (fun u hu => hps u (by simp [hu])) hk' ?_
        intro x a b hx
        refine hu x a b (fun u hu' => ?_)
        rcases List.mem_cons.1 hu' with rfl | hu'
        · intro h; have := h.2; omega
        · exact hx u hu'
      · rw [if_pos ⟨by simp, hse⟩, if_pos ⟨by simp, hse⟩, hs.op t d hkey, hs.cl t d hkey]
        have hst : stopOf line (reg t) = if t.stop = -1 then (line.length : Int) else t.stop := by unfold stopOf; rw [hs.stop]
        generalize hsv : stopOf line (reg t) = sv at *
        have hc1 := htc.1
        have hc2 := htc.2
        have hsv1 : t.start ≤ sv := by rw [hst]; split <;> omega
        have hsv2 : sv ≤ line.length := by rw [hst]; split <;> omega
        have hcov : ∀ x : Nat, x < line.length → t.start ≤ x → x < sv → t.showsAt x := by
          intro x hxl hx1 hx2
          refine ⟨htn, hx1, ?_⟩
          rw [hst] at hx2
          split at hx2
          · exact Or.inr (by assumption)
          · exact Or.inl hx2
        have hrest : ∀ u ∈ r, sv ≤ u.start := by
          intro u hu'
          have := hp.1 u hu'
          rw [hst, if_neg this.1]
          exact this.2
        obtain ⟨y1, y2⟩ := ih sv hn' hbd' hp.2 hc' (by omega) hsv2 hrest hk' (by
          intro x a b hx
          refine hu x (by omega) b (fun u hu' => ?_)
          rcases List.mem_cons.1 hu' with rfl | hu'
          · intro hsh
            have h3 := hsh.2.2
            rw [hst] at a
            split at a <;> omega
          · exact hx u hu')
        refine ⟨⟨h0, htp, hsv1, hsv2, y1⟩, ?_⟩
        rw [List.append_assoc, List.append_assoc, List.append_assoc]
        refine wraps_gap line f pos t.start h0 htp (by omega) ?_ ?_
        · intro x a b
          refine hu x a (by omega) (fun u hu' => ?_)
          rcases List.mem_cons.1 hu' with rfl | hu'
          · intro hsh; have := hsh.2.1; omega
          · intro hsh; have := hsh.2.1; have := hrest u hu'; omega
        · rw [← List.append_assoc, ← List.append_assoc]
          refine wraps_run line f d t.start sv (by omega) hsv1 hsv2 ?_ y2
          intro x a b
          rw [hk t (by simp) x (hcov x (by omega) a b), hkey]

/-- a compact list of regions that covers the line is written as the marks of its columns say -/
theorem wraps_line {reg : LR RD → Reg} {key : LR RD → Option D} {shown : Reg → Bool} {opening closing : Reg → List Out} {op cl : D → List Out}
    (hs : Seen reg key shown opening closing op cl) (line : Str) (f : Nat → Option D) (l : List (LR RD)) (hc : Compact l)
    (hcov : ∀ x : Nat, ∃ t ∈ l, t.showsAt x) (hin : ∀ t ∈ l, ColLe (line.length : Int) t) (hk : ∀ t ∈ l, ∀ x : Nat, t.showsAt x → f x = key t) :
    InOrder line shown 0 (l.map reg) ∧ Wraps op cl (columns line f) (render line shown opening closing 0 (l.map reg)) := by
  have hsp : ∀ t ∈ l.filter (fun t => !t.special), t.special = false := by
    intro t ht; have := (List.mem_filter.1 ht).2; simpa using this
  have := wraps_nodes hs line f (l.filter (fun t => t.special)) (fun t ht => (List.mem_filter.1 ht).2) (l.filter (fun t => !t.special)) 0 hsp
    (fun t ht => hc.bounds t (List.mem_filter.1 ht).1 (hsp t ht)) hc.disjoint (fun t ht => hin t (List.mem_filter.1 ht).1) (Int.le_refl 0) (by omega)
    (fun t ht => (hc.bounds t (List.mem_filter.1 ht).1 (hsp t ht)).1) (fun t ht => hk t (List.mem_filter.1 ht).1) (by
      intro x _ _ hx
      obtain ⟨t, ht, hsh⟩ := hcov x
      exact absurd hsh (hx t (List.mem_filter.2 ⟨ht, by simp [hsh.1]⟩)))
  rw [← hc.order] at this
  simpa using this

/-- the text of a wrapped line -/
theorem Wraps.text {op cl : D → List Out} (h1 : ∀ d, textOf (op d) = []) (h2 : ∀ d, textOf (cl d) = []) {cs : List (Nat × Option D)} {out : List Out}
    (h : Wraps op cl cs out) : textOf out = cs.map (·.1) := by
  induction h with
  | nil => rfl
  | plain _ ih => rw [List.map_cons, ← ih]; rfl
  | span _ ih =>
    rename_i run _ _ _
    have hr : textOf (run.map Out.ch) = run := by
      induction run with
      | nil => rfl
      | cons c r ihr => rw [List.map_cons]; show c :: textOf (r.map Out.ch) = _; rw [ihr]
    rw [Viewer.textOf_append, Viewer.textOf_append, Viewer.textOf_append, h1, h2, hr, ih]
    simp [Function.comp_def]

end Verif.Tool
