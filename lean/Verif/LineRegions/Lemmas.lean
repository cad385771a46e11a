import Verif.LineRegions.Spec
namespace Verif.LineRegions
open Spec
variable {RD : Type}

/-- node `t` covers column `x` -/
def LR.covers (t : LR RD) (x : Int) : Bool :=
  decide (t.start ≤ x) && (decide (x < t.stop) || decide (t.stop = -1))

def paint (l : List (LR RD)) (x : Int) : Option (Payload RD) := (l.find? (·.covers x)).map (·.pay)

/-- contiguous segment from `a` to `b` -/
def Seg (a b : Int) : List (LR RD) → Prop
  | [] => a = b
  | t :: r => t.start = a ∧ 0 ≤ a ∧ a ≤ t.stop ∧ Seg t.stop b r

/-- contiguous tiling of `[a, ∞)` -/
def Tile (a : Int) : List (LR RD) → Prop
  | [] => False
  | [t] => t.start = a ∧ 0 ≤ a ∧ t.stop = -1
  | t :: u :: r => t.start = a ∧ 0 ≤ a ∧ a ≤ t.stop ∧ Tile t.stop (u :: r)

theorem Tile.nonneg {a : Int} {l : List (LR RD)} (h : Tile a l) : 0 ≤ a := by
  match l, h with
  | [_], h => exact h.2.1
  | _ :: _ :: _, h => exact h.2.1

theorem Tile.head {a : Int} {t : LR RD} {l : List (LR RD)} (h : Tile a (t :: l)) : t.start = a := by
  match l, h with
  | [], h => exact h.1
  | _ :: _, h => exact h.1

theorem Tile.split {a : Int} {B A : List (LR RD)} (h : Tile a (B ++ A)) (hA : A ≠ []) :
    ∃ b, Seg a b B ∧ Tile b A := by
  induction B generalizing a with
  | nil => exact ⟨a, rfl, h⟩
  | cons t r ih =>
    cases hr : r ++ A with
    | nil => simp at hr; exact absurd hr.2 hA
    | cons u w =>
      rw [List.cons_append, hr] at h
      obtain ⟨h1, h2, h3, h4⟩ := h
      rw [← hr] at h4
      obtain ⟨b, hb1, hb2⟩ := ih h4
      exact ⟨b, ⟨h1, h2, h3, hb1⟩, hb2⟩

theorem Seg.append_tile {a b : Int} {B A : List (LR RD)} (h : Seg a b B) (hA : Tile b A) :
    Tile a (B ++ A) := by
  induction B generalizing a with
  | nil => cases h; exact hA
  | cons t r ih =>
    obtain ⟨h1, h2, h3, h4⟩ := h
    have := ih h4
    cases hr : r ++ A with
    | nil =>
      simp at hr
      rw [hr.2] at hA
      exact absurd hA (by simp [Tile])
    | cons u w => rw [List.cons_append, hr]; rw [hr] at this; exact ⟨h1, h2, h3, this⟩

theorem Seg.append {a b c : Int} {B A : List (LR RD)} (h : Seg a b B) (hA : Seg b c A) :
    Seg a c (B ++ A) := by
  induction B generalizing a with
  | nil => cases h; exact hA
  | cons t r ih =>
    obtain ⟨h1, h2, h3, h4⟩ := h
    exact ⟨h1, h2, h3, ih h4⟩

theorem Seg.le {a b : Int} {B : List (LR RD)} (h : Seg a b B) : a ≤ b := by
  induction B generalizing a with
  | nil => cases h; omega
  | cons t r ih => obtain ⟨h1, h2, h3, h4⟩ := h; have := ih h4; omega

theorem Seg.snoc {a b : Int} {B : List (LR RD)} {p : LR RD} (h : Seg a b (B ++ [p])) :
    Seg a p.start B ∧ p.stop = b ∧ 0 ≤ p.start ∧ p.start ≤ p.stop := by
  induction B generalizing a with
  | nil => obtain ⟨h1, h2, h3, h4⟩ := h; exact ⟨h1.symm, h4, by omega, by omega⟩
  | cons t r ih =>
    obtain ⟨h1, h2, h3, h4⟩ := h
    obtain ⟨g1, g2⟩ := ih h4
    exact ⟨⟨h1, h2, h3, g1⟩, g2⟩

theorem Tile.snoc {a : Int} {B : List (LR RD)} {p : LR RD} (h : Tile a (B ++ [p])) :
    Seg a p.start B ∧ p.stop = -1 ∧ 0 ≤ p.start := by
  obtain ⟨b, h1, h2⟩ := h.split (by simp)
  obtain ⟨g1, g2, g3⟩ := h2
  exact ⟨by rw [g1]; exact h1, g3, by omega⟩

theorem paint_append (B A : List (LR RD)) (x : Int) :
    paint (B ++ A) x = (paint B x).or (paint A x) := by
  unfold paint
  rw [List.find?_append]
  cases List.find? (fun t => t.covers x) B <;> simp

theorem Tile.paint_lt {a : Int} {l : List (LR RD)} (h : Tile a l) {x : Int} (hx : x < a) :
    paint l x = none := by
  induction l generalizing a with
  | nil => rfl
  | cons t r ih =>
    have hh := h.head
    have : t.covers x = false := by simp [LR.covers]; omega
    cases r with
    | nil => simp [paint, this]
    | cons u w =>
      obtain ⟨h1, h2, h3, h4⟩ := h
      have := ih h4 (by omega)
      simp [paint, *] at this ⊢
      exact this

theorem Seg.paint_lt {a b : Int} {l : List (LR RD)} (h : Seg a b l) {x : Int} (hx : x < a) :
    paint l x = none := by
  induction l generalizing a with
  | nil => rfl
  | cons t r ih =>
    obtain ⟨h1, h2, h3, h4⟩ := h
    have h0 : t.covers x = false := by simp [LR.covers]; omega
    have := ih h4 (by omega)
    simp [paint, *] at this ⊢
    exact this

theorem Seg.paint_ge {a b : Int} {l : List (LR RD)} (h : Seg a b l) {x : Int} (hx : b ≤ x) :
    paint l x = none := by
  induction l generalizing a with
  | nil => rfl
  | cons t r ih =>
    obtain ⟨h1, h2, h3, h4⟩ := h
    have := h4.le
    have h0 : t.covers x = false := by simp [LR.covers]; omega
    have := ih h4
    simp [paint, *] at this ⊢
    exact this

theorem Seg.paint_some {a b : Int} {l : List (LR RD)} (h : Seg a b l) {x : Int} (h1 : a ≤ x) (h2 : x < b) :
    (paint l x).isSome := by
  induction l generalizing a with
  | nil => cases h; omega
  | cons t r ih =>
    obtain ⟨g1, g2, g3, g4⟩ := h
    by_cases hc : x < t.stop
    · have h0 : t.covers x = true := by simp [LR.covers]; omega
      simp [paint, h0]
    · have := ih g4 (by omega)
      unfold paint at this ⊢
      rw [List.find?_cons]
      cases t.covers x <;> simp_all

theorem Tile.paint_some {a : Int} {l : List (LR RD)} (h : Tile a l) {x : Int} (h1 : a ≤ x) :
    (paint l x).isSome := by
  induction l generalizing a with
  | nil => exact absurd h (by simp [Tile])
  | cons t r ih =>
    cases r with
    | nil =>
      obtain ⟨g1, g2, g3⟩ := h
      have h0 : t.covers x = true := by simp [LR.covers]; omega
      simp [paint, h0]
    | cons u w =>
      obtain ⟨g1, g2, g3, g4⟩ := h
      by_cases hc : x < t.stop
      · have h0 : t.covers x = true := by simp [LR.covers]; omega
        simp [paint, h0]
      · have := ih g4 (by omega)
        unfold paint at this ⊢
        rw [List.find?_cons]
        cases t.covers x <;> simp_all

/-! ### forward pass -/

theorem fwd_specials (ladd : LR RD) (kept sp : List (LR RD)) (h : ∀ t ∈ sp, t.special = true) :
    fwd ladd kept sp = kept ++ sp := by
  induction sp generalizing kept with
  | nil => simp [fwd]
  | cons t r ih =>
    rw [fwd, if_pos (h t (by simp)), ih _ (fun u hu => h u (by simp [hu]))]
    simp

theorem fwd_minus_one (ladd : LR RD) (A sp : List (LR RD)) (he : ladd.stop = -1)
    (hA : ∀ t ∈ A, t.special = false) (h : ∀ t ∈ sp, t.special = true) :
    fwd ladd [] (A ++ sp) = sp := by
  induction A with
  | nil => simpa using fwd_specials ladd [] sp h
  | cons t r ih =>
    rw [List.cons_append, fwd, if_neg (by simp [hA t]), if_pos (by simp [he])]
    exact ih (fun u hu => hA u (by simp [hu]))

theorem fwd_far (ladd : LR RD) (a : Int) (kept A sp : List (LR RD)) (he : ladd.stop ≠ -1)
    (hA : ∀ t ∈ A, t.special = false) (h : ∀ t ∈ sp, t.special = true) (hT : Tile a A)
    (ha : ladd.stop < a) :
    fwd ladd kept (A ++ sp) = kept ++ A ++ sp := by
  induction A generalizing a kept with
  | nil => exact absurd hT (by simp [Tile])
  | cons t r ih =>
    have hh := hT.head
    rw [List.cons_append, fwd, if_neg (by simp [hA t])]
    have : ¬ (((t.stop = -1) ∨ t.stop > ladd.stop) ∧ ladd.stop ≠ -1 ∧ t.start < ladd.stop) := by omega
    simp only [if_neg this]
    cases r with
    | nil =>
      obtain ⟨g1, g2, g3⟩ := hT
      rw [if_neg (by omega)]
      simpa using fwd_specials ladd (kept ++ [t]) sp h
    | cons u w =>
      obtain ⟨g1, g2, g3, g4⟩ := hT
      rw [if_neg (by omega), ih t.stop _ (fun v hv => hA v (by simp [hv])) g4 (by omega)]
      simp

theorem fwd_tile (ladd : LR RD) (a : Int) (A sp : List (LR RD)) (he : 0 ≤ ladd.stop)
    (hA : ∀ t ∈ A, t.special = false) (h : ∀ t ∈ sp, t.special = true) (hT : Tile a A)
    (ha : a ≤ ladd.stop) :
    ∃ A', fwd ladd [] (A ++ sp) = A' ++ sp ∧ Tile ladd.stop A' ∧ (∀ t ∈ A', t.special = false) ∧
      (A'.map (·.id)).Sublist (A.map (·.id)) ∧ (A'.getLast?.map (·.id)) = (A.getLast?.map (·.id)) ∧
      ∀ x, ladd.stop ≤ x → paint A' x = paint A x := by
  induction A generalizing a with
  | nil => exact absurd hT (by simp [Tile])
  | cons t r ih =>
    have hh := hT.head
    have ht := hA t (by simp)
    rw [List.cons_append, fwd, if_neg (by simp [ht])]
    cases r with
    | nil =>
      obtain ⟨g1, g2, g3⟩ := hT
      by_cases hlt : t.start < ladd.stop
      · have : (((t.stop = -1) ∨ t.stop > ladd.stop) ∧ ladd.stop ≠ -1 ∧ t.start < ladd.stop) := by omega
        simp only [if_pos this]
        rw [if_neg (by simp [g3]; omega)]
        refine ⟨[{ t with start := ladd.stop }], ?_, ?_, ?_, ?_, ?_, ?_⟩
        · exact fwd_specials ladd _ sp h
        · exact ⟨rfl, he, g3⟩
        · simp [ht]
        · simp
        · simp
        · intro x hx
          have h1 : t.covers x = true := by simp [LR.covers]; omega
          have h2 : LR.covers { t with start := ladd.stop } x = true := by simp [LR.covers]; omega
          simp [paint, h1, h2]
      · have : ¬ (((t.stop = -1) ∨ t.stop > ladd.stop) ∧ ladd.stop ≠ -1 ∧ t.start < ladd.stop) := by omega
        simp only [if_neg this]
        rw [if_neg (by omega)]
        refine ⟨[t], ?_, ?_, ?_, ?_, ?_, ?_⟩
        · exact fwd_specials ladd _ sp h
        · exact ⟨by omega, he, g3⟩
        · simp [ht]
        · simp
        · simp
        · intro x hx; rfl
    | cons u w =>
      obtain ⟨g1, g2, g3, g4⟩ := hT
      have hAr : ∀ v ∈ u :: w, v.special = false := fun v hv => hA v (by simp [hv])
      by_cases hle : t.stop ≤ ladd.stop
      · have : ¬ (((t.stop = -1) ∨ t.stop > ladd.stop) ∧ ladd.stop ≠ -1 ∧ t.start < ladd.stop) := by omega
        simp only [if_neg this]
        rw [if_pos (by omega)]
        obtain ⟨A', e1, e2, e3, e4, e5, e6⟩ := ih t.stop hAr g4 hle
        refine ⟨A', e1, e2, e3, ?_, ?_, ?_⟩
        · exact e4.cons _
        · rw [e5]; simp [List.getLast?_cons]
        · intro x hx
          rw [e6 x hx]
          have h1 : t.covers x = false := by simp [LR.covers]; omega
          simp [paint, h1]
      · by_cases hlt : t.start < ladd.stop
        · have : (((t.stop = -1) ∨ t.stop > ladd.stop) ∧ ladd.stop ≠ -1 ∧ t.start < ladd.stop) := by omega
          simp only [if_pos this]
          rw [if_neg (by simp; omega), fwd_far ladd t.stop _ _ sp (by omega) hAr h g4 (by omega)]
          refine ⟨{ t with start := ladd.stop } :: u :: w, by simp, ⟨rfl, he, by simp; omega, g4⟩, ?_, ?_, ?_, ?_⟩
          · intro v hv; rcases List.mem_cons.1 hv with rfl | hv
            · exact ht
            · exact hAr v hv
          · simp
          · simp [List.getLast?_cons]
          · intro x hx
            by_cases hx2 : x < t.stop
            · have h1 : t.covers x = true := by simp [LR.covers]; omega
              have h2 : LR.covers { t with start := ladd.stop } x = true := by simp [LR.covers]; omega
              simp [paint, h1, h2]
            · have h1 : t.covers x = false := by simp [LR.covers]; omega
              have h2 : LR.covers { t with start := ladd.stop } x = false := by simp [LR.covers]; omega
              simp [paint, h1, h2]
        · have : ¬ (((t.stop = -1) ∨ t.stop > ladd.stop) ∧ ladd.stop ≠ -1 ∧ t.start < ladd.stop) := by omega
          simp only [if_neg this]
          rw [if_neg (by omega), fwd_far ladd t.stop _ _ sp (by omega) hAr h g4 (by omega)]
          exact ⟨t :: u :: w, by simp, ⟨by omega, he, by omega, g4⟩, hA, by simp, by simp, fun _ _ => rfl⟩

/-! ### position search -/

theorem Seg.mem_ge {a b : Int} {l : List (LR RD)} (h : Seg a b l) : ∀ t ∈ l, a ≤ t.start := by
  induction l generalizing a with
  | nil => simp
  | cons t r ih =>
    obtain ⟨h1, h2, h3, h4⟩ := h
    intro u hu
    rcases List.mem_cons.1 hu with rfl | hu
    · omega
    · have := ih h4 u hu; omega

theorem Tile.mem_ge {a : Int} {l : List (LR RD)} (h : Tile a l) : ∀ t ∈ l, a ≤ t.start := by
  induction l generalizing a with
  | nil => simp
  | cons t r ih =>
    have := h.head
    intro u hu
    rcases List.mem_cons.1 hu with rfl | hu
    · omega
    · cases r with
      | nil => simp at hu
      | cons v w => obtain ⟨h1, h2, h3, h4⟩ := h; have := ih h4 u hu; omega

theorem Tile.sorted {a : Int} {l : List (LR RD)} (h : Tile a l) :
    l.Pairwise (fun t u => t.start ≤ u.start) := by
  induction l generalizing a with
  | nil => simp
  | cons t r ih =>
    cases r with
    | nil => simp
    | cons v w =>
      obtain ⟨h1, h2, h3, h4⟩ := h
      refine List.Pairwise.cons ?_ (ih h4)
      intro u hu
      have := h4.mem_ge u hu; omega

theorem findPosGo_sorted (ladd : LR RD) (pre : List (LR RD)) (t : LR RD) (r sp : List (LR RD))
    (hA : ∀ v ∈ t :: r, v.special = false) (h : ∀ v ∈ sp, v.special = true)
    (hT : (t :: r).Pairwise (fun t u => t.start ≤ u.start))
    (hlt : t.start < ladd.start) :
    ∃ B A, findPosGo ladd pre (t :: r ++ sp) = some (pre ++ B, A ++ sp) ∧ B ++ A = t :: r ∧ B ≠ [] ∧
      (∀ v ∈ B, v.start < ladd.start) ∧ (∀ u ∈ A.head?, ladd.start ≤ u.start) := by
  induction r generalizing pre t with
  | nil =>
    cases sp with
    | nil =>
      refine ⟨[t], [], ?_, by simp, by simp, by simpa using hlt, by simp⟩
      simp only [List.cons_append, List.nil_append, findPosGo]
      rw [if_neg (by omega), if_pos hlt]
    | cons q sp' =>
      refine ⟨[t], [], ?_, by simp, by simp, by simpa using hlt, by simp⟩
      simp only [List.cons_append, List.nil_append, findPosGo]
      rw [if_neg (by omega), if_pos ⟨hlt, Or.inr (h q (by simp))⟩]
  | cons u w ih =>
    have hu : u.special = false := hA u (by simp)
    have g4 := (List.pairwise_cons.1 hT).2
    rcases Int.lt_trichotomy u.start ladd.start with hc | hc | hc
    · obtain ⟨B, A, e1, e2, e3, e4, e5⟩ := ih (pre ++ [t]) u (fun v hv => hA v (by simp [hv])) g4 hc
      refine ⟨t :: B, A, ?_, by simp [e2], by simp, ?_, e5⟩
      · simp only [List.cons_append] at e1 ⊢
        rw [findPosGo, if_neg (by omega)]
        rw [if_neg (by simp [hu]; omega), e1]
        simp
      · intro v hv
        rcases List.mem_cons.1 hv with rfl | hv
        · exact hlt
        · exact e4 v hv
    · refine ⟨[t], u :: w, ?_, by simp, by simp, by simpa using hlt, by simp [hc]⟩
      simp only [List.cons_append]
      rw [findPosGo, if_neg (by omega)]
      rw [if_neg (by simp [hu]; omega), findPosGo.eq_def]
      simp only [if_pos hc]
    · refine ⟨[t], u :: w, ?_, by simp, by simp, by simpa using hlt, by simp; omega⟩
      simp only [List.cons_append]
      rw [findPosGo, if_neg (by omega)]
      rw [if_pos ⟨hlt, Or.inl hc⟩]

theorem dropZero_id (B : List (LR RD)) (p : LR RD) (h : p.stop ≠ p.start) :
    dropZero (B ++ [p]) = B ++ [p] := by
  simp [dropZero, h]

theorem findPos_first (ladd : LR RD) (t : LR RD) (r : List (LR RD)) (h : ladd.start ≤ t.start) :
    findPos ladd (t :: r) = some ([], t :: r) := by
  simp [findPos, h]

/-- what the proofs need to know about a tiled line -/
structure LineInv (ns : List (LR RD)) (flow next : Nat) : Prop where
  tile : Tile 0 ns
  nonspec : ∀ t ∈ ns, t.special = false
  nodup : (ns.map (·.id)).Nodup
  ids : ∀ t ∈ ns, t.id < next
  last : ns.getLast?.map (·.id) = some flow

theorem compactAdd_of_findPos (ladd : LR RD) (l pre post : List (LR RD)) (flow next : Nat)
    (hs : ladd.special = false) (hf : findPos ladd l = some (pre, post)) :
    compactAdd ladd l flow next = some ⟨(prevCheck ladd pre post flow next).pre ++ ladd ::
      fwd ladd [] (prevCheck ladd pre post flow next).post,
      (prevCheck ladd pre post flow next).flow, (prevCheck ladd pre post flow next).next⟩ := by
  unfold compactAdd
  rw [if_neg (by simp [hs])]
  cases l with
  | nil => simp [findPos] at hf
  | cons a b => simp only [hf]

theorem last_sublist {A : List (LR RD)} {f : Nat} {B : List (LR RD)} (hA : A ≠ [])
    (h : ((B ++ A).getLast?.map (·.id)) = some f) : A.getLast?.map (·.id) = some f := by
  rw [List.getLast?_append] at h
  cases hh : A.getLast? with
  | none => simp at hh; exact absurd hh hA
  | some v => simpa [hh] using h

theorem getLast_app (X A : List (LR RD)) (y : LR RD) (h : A ≠ []) :
    (X ++ y :: A).getLast?.map (·.id) = A.getLast?.map (·.id) := by
  cases A with
  | nil => exact absurd rfl h
  | cons u w => simp [List.getLast?_append, List.getLast?_cons]

theorem nodup_ins2 (B A : List Nat) (p l n : Nat) (h : (B ++ p :: A).Nodup)
    (hn : ∀ v ∈ B ++ p :: A, v ≠ n ∧ v ≠ l) (hl : l ≠ n) : (B ++ p :: l :: n :: A).Nodup := by
  grind

theorem nodup_ins1 (B A : List Nat) (p l : Nat) (h : (B ++ p :: A).Nodup)
    (hn : ∀ v ∈ B ++ p :: A, v ≠ l) : (B ++ p :: l :: A).Nodup := by
  grind

/-- Adding an ordinary region `[s,e)` to a tiled line. -/
theorem compactAdd_region (ladd : LR RD) (ns sp : List (LR RD)) (flow next : Nat)
    (hi : LineInv ns flow next) (hsp : ∀ t ∈ sp, t.special = true)
    (hs : ladd.special = false) (h0 : 0 ≤ ladd.start) (hle : ladd.start ≤ ladd.stop)
    (hid : ladd.id < next) (hfresh : ∀ t ∈ ns, t.id ≠ ladd.id) :
    ∃ ns' flow' next', compactAdd ladd (ns ++ sp) flow next = some ⟨ns' ++ sp, flow', next'⟩ ∧
      LineInv ns' flow' next' ∧ next ≤ next' ∧
      (∀ t ∈ ns', (∃ u ∈ ns, u.id = t.id) ∨ t.id = ladd.id ∨ next ≤ t.id) ∧
      ∀ x, 0 ≤ x → paint ns' x = if ladd.start ≤ x ∧ x < ladd.stop then some ladd.pay else paint ns x := by
  obtain ⟨hT, hN, hD, hI, hL⟩ := hi
  cases ns with
  | nil => exact absurd hT (by simp [Tile])
  | cons t r =>
  have ht0 := hT.head
  by_cases hfirst : ladd.start ≤ t.start
  · -- inserted before the first node
    have hf := findPos_first ladd t (r ++ sp) hfirst
    rw [compactAdd_of_findPos ladd (t :: r ++ sp) [] (t :: (r ++ sp)) flow next hs hf]
    have hp : prevCheck ladd [] (t :: (r ++ sp)) flow next = ⟨[], t :: (r ++ sp), flow, next⟩ := by
      simp [prevCheck]
    simp only [hp, List.nil_append]
    obtain ⟨A', e1, e2, e3, e4, e5, e6⟩ := fwd_tile ladd 0 (t :: r) sp (by omega) hN hsp hT (by omega)
    rw [List.cons_append] at e1
    rw [e1]
    have hne : A' ≠ [] := by rintro rfl; simp [Tile] at e2
    refine ⟨ladd :: A', flow, next, by simp, ⟨?_, ?_, ?_, ?_, ?_⟩, by omega, ?_, ?_⟩
    · cases A' with
      | nil => exact absurd rfl hne
      | cons u w => exact ⟨by omega, by omega, by omega, e2⟩
    · intro v hv
      rcases List.mem_cons.1 hv with rfl | hv
      · exact hs
      · exact e3 v hv
    · rw [List.map_cons, List.nodup_cons]
      refine ⟨?_, e4.nodup hD⟩
      intro hm
      have := e4.subset hm
      rw [List.mem_map] at this
      obtain ⟨v, hv1, hv2⟩ := this
      exact hfresh v hv1 hv2
    · intro v hv
      rcases List.mem_cons.1 hv with rfl | hv
      · exact hid
      · have := e4.subset (List.mem_map_of_mem hv)
        rw [List.mem_map] at this
        obtain ⟨w, hw1, hw2⟩ := this
        have := hI w hw1
        omega
    · rw [← hL, ← e5]
      cases A' with
      | nil => exact absurd rfl hne
      | cons u w => simp [List.getLast?_cons]
    · intro v hv
      rcases List.mem_cons.1 hv with rfl | hv
      · exact Or.inr (Or.inl rfl)
      · have := e4.subset (List.mem_map_of_mem hv)
        rw [List.mem_map] at this
        exact Or.inl this
    · intro x hx
      by_cases hc : ladd.start ≤ x ∧ x < ladd.stop
      · rw [if_pos hc]
        have : ladd.covers x = true := by simp [LR.covers]; omega
        simp [paint, this]
      · rw [if_neg hc, ← e6 x (by omega)]
        have : ladd.covers x = false := by simp [LR.covers]; omega
        simp [paint, this]
  · -- inserted after some node
    obtain ⟨B, A, f1, f2, f3, f4, f5⟩ := findPosGo_sorted ladd [] t r sp hN hsp hT.sorted (by omega)
    have hf : findPos ladd (t :: r ++ sp) = some (B, A ++ sp) := by
      rw [List.cons_append, findPos, if_neg (by omega)]
      simpa using f1
    rw [compactAdd_of_findPos ladd _ _ _ flow next hs hf]
    rw [← f2] at hT hN hD hI hL hfresh ⊢
    clear f1 f2 hf ht0 hfirst
    rcases List.eq_nil_or_concat B with rfl | ⟨B', p, rfl⟩
    · exact absurd rfl f3
    rw [List.concat_eq_append] at *
    have hpstart : p.start < ladd.start := f4 p (by simp)
    -- facts about p and A
    have hpA : (A = [] ∧ p.stop = -1 ∧ Seg 0 p.start B' ∧ 0 ≤ p.start) ∨
        (A ≠ [] ∧ Seg 0 p.start B' ∧ 0 ≤ p.start ∧ p.start ≤ p.stop ∧ Tile p.stop A ∧ ladd.start ≤ p.stop) := by
      by_cases hA : A = []
      · subst hA
        rw [List.append_nil] at hT
        obtain ⟨g1, g2, g3⟩ := hT.snoc
        exact Or.inl ⟨rfl, g2, g1, g3⟩
      · obtain ⟨b, g1, g2⟩ := hT.split hA
        obtain ⟨k1, k2, k3, k4⟩ := g1.snoc
        refine Or.inr ⟨hA, k1, k3, k4, k2 ▸ g2, ?_⟩
        cases A with
        | nil => exact absurd rfl hA
        | cons u w => have := g2.head; have := f5 u (by simp); omega
    have hNA : ∀ v ∈ A, v.special = false := fun v hv => hN v (by simp [hv])
    have hNB : ∀ v ∈ B', v.special = false := fun v hv => hN v (by simp [hv])
    have hNp : p.special = false := hN p (by simp)
    have hSB : Seg 0 p.start B' := by rcases hpA with h | h <;> grind
    have hp0 : 0 ≤ p.start := by rcases hpA with h | h <;> grind
    have hBless : ∀ x, ladd.start ≤ x → paint B' x = none := fun x hx => hSB.paint_ge (by omega)
    by_cases hcut : p.stop > ladd.start ∨ p.stop = -1
    · have hcov : ∀ x, 0 ≤ x → x < ladd.start →
          paint (B' ++ [({ p with stop := ladd.start } : LR RD)]) x = paint (B' ++ [p] ++ A) x := by
        intro x hx hx2
        rw [paint_append, paint_append, paint_append]
        by_cases hc : p.start ≤ x
        · have c1 : p.covers x = true := by simp [LR.covers]; omega
          have c2 : LR.covers { p with stop := ladd.start } x = true := by simp [LR.covers]; omega
          rw [hSB.paint_ge hc]
          simp [paint, c1, c2]
        · have := hSB.paint_some hx (by omega)
          cases hh : paint B' x <;> simp_all
      have hSeg : Seg 0 ladd.start (B' ++ [({ p with stop := ladd.start } : LR RD)]) :=
        hSB.append ⟨rfl, hp0, by simp; omega, rfl⟩
      by_cases hsplit : (p.stop > ladd.stop ∨ p.stop = -1) ∧ ladd.stop ≠ -1
      · -- split
        have hp : prevCheck ladd (B' ++ [p]) (A ++ sp) flow next =
            ⟨B' ++ [{ p with stop := ladd.start }], { p with id := next, start := ladd.stop } :: (A ++ sp),
             if p.id = flow then next else flow, next + 1⟩ := by
          simp only [prevCheck, List.getLast?_append, List.getLast?_singleton, Option.some_or,
            List.dropLast_concat, if_pos hcut, if_pos hsplit]
          rw [dropZero_id _ _ (by simp; omega)]
        simp only [hp]
        have hT2 : Tile ladd.stop (({ p with id := next, start := ladd.stop } : LR RD) :: A) := by
          rcases hpA with ⟨rfl, h2, h3⟩ | ⟨h1, h2, h3, h4, h5, h6⟩
          · exact ⟨rfl, by omega, h2⟩
          · cases A with
            | nil => exact absurd rfl h1
            | cons u w =>
              exact ⟨rfl, by omega, by simp; omega, h5⟩
        obtain ⟨A', e1, e2, e3, e4, e5, e6⟩ := fwd_tile ladd ladd.stop _ sp (by omega)
          (by intro v hv; rcases List.mem_cons.1 hv with rfl | hv
              · exact hNp
              · exact hNA v hv) hsp hT2 (by omega)
        rw [List.cons_append] at e1
        rw [e1]
        have hne : A' ≠ [] := by rintro rfl; simp [Tile] at e2
        refine ⟨B' ++ [{ p with stop := ladd.start }] ++ ladd :: A', if p.id = flow then next else flow, next + 1, by simp, ⟨?_, ?_, ?_, ?_, ?_⟩, by omega, ?_, ?_⟩
        · refine hSeg.append_tile ?_
          cases A' with
          | nil => exact absurd rfl hne
          | cons u w => exact ⟨rfl, by omega, by omega, e2⟩
        · intro v hv
          simp only [List.mem_append, List.mem_cons, List.not_mem_nil, or_false] at hv
          rcases hv with (hv | rfl) | rfl | hv
          · exact hNB v hv
          · exact hNp
          · exact hs
          · exact e3 v hv
        · -- nodup
          have e4' : (A'.map (·.id)).Sublist (next :: A.map (·.id)) := by simpa using e4
          have hD' : (B'.map (·.id) ++ p.id :: A.map (·.id)).Nodup := by simpa using hD
          have hbig : (B'.map (·.id) ++ p.id :: ladd.id :: next :: A.map (·.id)).Nodup := by
            have hn : ∀ v ∈ B'.map (·.id) ++ p.id :: A.map (·.id), v ≠ next ∧ v ≠ ladd.id := by
              intro v hv
              have : v ∈ (B' ++ [p] ++ A).map (·.id) := by simpa using hv
              rw [List.mem_map] at this
              obtain ⟨w, hw, rfl⟩ := this
              exact ⟨by have := hI w hw; omega, hfresh w hw⟩
            exact nodup_ins2 _ _ _ _ _ hD' hn (by omega)
          refine List.Sublist.nodup ?_ hbig
          simp only [List.map_append, List.map_cons, List.append_assoc, List.cons_append,
            List.nil_append]
          exact (List.Sublist.refl _).append ((e4'.cons_cons _).cons_cons _)
        · intro v hv
          simp only [List.mem_append, List.mem_cons, List.not_mem_nil, or_false] at hv
          rcases hv with (hv | rfl) | rfl | hv
          · have := hI v (by simp [hv]); omega
          · have := hI p (by simp); simp; omega
          · omega
          · have := e4.subset (List.mem_map_of_mem hv)
            simp only [List.map_cons, List.mem_cons, List.mem_map] at this
            rcases this with h | ⟨w, hw, hw2⟩
            · omega
            · have := hI w (by simp [hw]); omega
        · rw [getLast_app _ _ _ hne, e5]
          by_cases hA : A = []
          · subst hA
            have : p.id = flow := by simpa using hL
            simp [this]
          · have hl := last_sublist hA hL
            have hneq : p.id ≠ flow := by
              intro hpf
              cases hg : A.getLast? with
              | none => simp at hg; exact hA hg
              | some z =>
                rw [hg] at hl
                simp at hl
                have hz : z ∈ A := List.mem_of_getLast? hg
                have : z.id ∈ A.map (·.id) := List.mem_map_of_mem hz
                have hD' : (B'.map (·.id) ++ p.id :: A.map (·.id)).Nodup := by simpa using hD
                rw [List.nodup_append, List.nodup_cons] at hD'
                exact hD'.2.1.1 (by rw [hpf, ← hl]; exact this)
            rw [if_neg hneq, ← hl]
            cases A with
            | nil => exact absurd rfl hA
            | cons u w => simp [List.getLast?_cons]
        · intro v hv
          simp only [List.mem_append, List.mem_cons, List.not_mem_nil, or_false] at hv
          rcases hv with (hv | rfl) | rfl | hv
          · exact Or.inl ⟨v, by simp [hv], rfl⟩
          · exact Or.inl ⟨p, by simp, rfl⟩
          · exact Or.inr (Or.inl rfl)
          · have := e4.subset (List.mem_map_of_mem hv)
            simp only [List.map_cons, List.mem_cons, List.mem_map] at this
            rcases this with h | ⟨w, hw, hw2⟩
            · exact Or.inr (Or.inr (by omega))
            · exact Or.inl ⟨w, by simp [hw], hw2⟩
        · intro x hx
          rw [paint_append]
          by_cases hx1 : x < ladd.start
          · rw [if_neg (by omega), ← hcov x hx hx1]
            have := hSeg.paint_some hx hx1
            cases hh : paint (B' ++ [({ p with stop := ladd.start } : LR RD)]) x <;> simp_all
          · rw [hSeg.paint_ge (by omega)]
            by_cases hx2 : x < ladd.stop
            · rw [if_pos (by omega)]
              have : ladd.covers x = true := by simp [LR.covers]; omega
              simp [paint, this]
            · rw [if_neg (by omega)]
              have : ladd.covers x = false := by simp [LR.covers]; omega
              have hl : paint (ladd :: A') x = paint A' x := by simp [paint, this]
              rw [hl, e6 x (by omega), Option.none_or, paint_append, paint_append, hBless x (by omega)]
              by_cases hc : x < p.stop ∨ p.stop = -1
              · have c1 : p.covers x = true := by simp [LR.covers]; omega
                have c2 : LR.covers { p with id := next, start := ladd.stop } x = true := by simp [LR.covers]; omega
                simp [paint, c1, c2]
              · have c1 : p.covers x = false := by simp [LR.covers]; omega
                have c2 : LR.covers { p with id := next, start := ladd.stop } x = false := by simp [LR.covers]; omega
                simp [paint, c1, c2]
      · -- trimmed, not split
        have hp : prevCheck ladd (B' ++ [p]) (A ++ sp) flow next =
            ⟨B' ++ [{ p with stop := ladd.start }], A ++ sp, flow, next⟩ := by
          simp only [prevCheck, List.getLast?_append, List.getLast?_singleton, Option.some_or,
            List.dropLast_concat, if_pos hcut, if_neg hsplit]
          rw [dropZero_id _ _ (by simp; omega)]
        simp only [hp]
        obtain ⟨h1, h2, h3, h4, h5, h6⟩ : (A ≠ [] ∧ Seg 0 p.start B' ∧ 0 ≤ p.start ∧ p.start ≤ p.stop ∧
            Tile p.stop A ∧ ladd.start ≤ p.stop) := by
          rcases hpA with ⟨rfl, h2, h3⟩ | h
          · omega
          · exact h
        obtain ⟨A', e1, e2, e3, e4, e5, e6⟩ := fwd_tile ladd p.stop A sp (by omega) hNA hsp h5 (by omega)
        rw [e1]
        have hne : A' ≠ [] := by rintro rfl; simp [Tile] at e2
        refine ⟨B' ++ [{ p with stop := ladd.start }] ++ ladd :: A', flow, next, by simp, ⟨?_, ?_, ?_, ?_, ?_⟩, by omega, ?_, ?_⟩
        · refine hSeg.append_tile ?_
          cases A' with
          | nil => exact absurd rfl hne
          | cons u w => exact ⟨rfl, by omega, by omega, e2⟩
        · intro v hv
          simp only [List.mem_append, List.mem_cons, List.not_mem_nil, or_false] at hv
          rcases hv with (hv | rfl) | rfl | hv
          · exact hNB v hv
          · exact hNp
          · exact hs
          · exact e3 v hv
        · have hD' : (B'.map (·.id) ++ p.id :: A.map (·.id)).Nodup := by simpa using hD
          have hbig : (B'.map (·.id) ++ p.id :: ladd.id :: A.map (·.id)).Nodup := by
            have hn : ∀ v ∈ B'.map (·.id) ++ p.id :: A.map (·.id), v ≠ ladd.id := by
              intro v hv
              have : v ∈ (B' ++ [p] ++ A).map (·.id) := by simpa using hv
              rw [List.mem_map] at this
              obtain ⟨w, hw, rfl⟩ := this
              exact hfresh w hw
            exact nodup_ins1 _ _ _ _ hD' hn
          refine List.Sublist.nodup ?_ hbig
          simp only [List.map_append, List.map_cons, List.append_assoc, List.cons_append,
            List.nil_append]
          exact (List.Sublist.refl _).append ((e4.cons_cons _).cons_cons _)
        · intro v hv
          simp only [List.mem_append, List.mem_cons, List.not_mem_nil, or_false] at hv
          rcases hv with (hv | rfl) | rfl | hv
          · have := hI v (by simp [hv]); omega
          · have := hI p (by simp); simp; omega
          · omega
          · have := e4.subset (List.mem_map_of_mem hv)
            simp only [List.mem_map] at this
            obtain ⟨w, hw, hw2⟩ := this
            have := hI w (by simp [hw]); omega
        · rw [getLast_app _ _ _ hne, e5]
          exact last_sublist h1 hL
        · intro v hv
          simp only [List.mem_append, List.mem_cons, List.not_mem_nil, or_false] at hv
          rcases hv with (hv | rfl) | rfl | hv
          · exact Or.inl ⟨v, by simp [hv], rfl⟩
          · exact Or.inl ⟨p, by simp, rfl⟩
          · exact Or.inr (Or.inl rfl)
          · have := e4.subset (List.mem_map_of_mem hv)
            simp only [List.mem_map] at this
            obtain ⟨w, hw, hw2⟩ := this
            exact Or.inl ⟨w, by simp [hw], hw2⟩
        · intro x hx
          rw [paint_append]
          by_cases hx1 : x < ladd.start
          · rw [if_neg (by omega), ← hcov x hx hx1]
            have := hSeg.paint_some hx hx1
            cases hh : paint (B' ++ [({ p with stop := ladd.start } : LR RD)]) x <;> simp_all
          · rw [hSeg.paint_ge (by omega)]
            by_cases hx2 : x < ladd.stop
            · rw [if_pos (by omega)]
              have : ladd.covers x = true := by simp [LR.covers]; omega
              simp [paint, this]
            · rw [if_neg (by omega)]
              have : ladd.covers x = false := by simp [LR.covers]; omega
              have hl : paint (ladd :: A') x = paint A' x := by simp [paint, this]
              rw [hl, e6 x (by omega), Option.none_or, paint_append, paint_append, hBless x (by omega)]
              have c1 : p.covers x = false := by simp [LR.covers]; omega
              simp [paint, c1]
    · -- no intersection with the previous node: p.stop = ladd.start
      have hp : prevCheck ladd (B' ++ [p]) (A ++ sp) flow next = ⟨B' ++ [p], A ++ sp, flow, next⟩ := by
        simp only [prevCheck, List.getLast?_append, List.getLast?_singleton, Option.some_or, if_neg hcut]
      simp only [hp]
      obtain ⟨h1, h2, h3, h4, h5, h6⟩ : (A ≠ [] ∧ Seg 0 p.start B' ∧ 0 ≤ p.start ∧ p.start ≤ p.stop ∧
          Tile p.stop A ∧ ladd.start ≤ p.stop) := by
        rcases hpA with ⟨rfl, h2, h3⟩ | h
        · omega
        · exact h
      have hpe : p.stop = ladd.start := by omega
      obtain ⟨A', e1, e2, e3, e4, e5, e6⟩ := fwd_tile ladd p.stop A sp (by omega) hNA hsp h5 (by omega)
      rw [e1]
      have hne : A' ≠ [] := by rintro rfl; simp [Tile] at e2
      have hSeg : Seg 0 ladd.start (B' ++ [p]) := hSB.append ⟨rfl, hp0, h4, hpe⟩
      refine ⟨B' ++ [p] ++ ladd :: A', flow, next, by simp, ⟨?_, ?_, ?_, ?_, ?_⟩, by omega, ?_, ?_⟩
      · refine hSeg.append_tile ?_
        cases A' with
        | nil => exact absurd rfl hne
        | cons u w => exact ⟨rfl, by omega, by omega, e2⟩
      · intro v hv
        simp only [List.mem_append, List.mem_cons, List.not_mem_nil, or_false] at hv
        rcases hv with (hv | rfl) | rfl | hv
        · exact hNB v hv
        · exact hNp
        · exact hs
        · exact e3 v hv
      · have hD' : (B'.map (·.id) ++ p.id :: A.map (·.id)).Nodup := by simpa using hD
        have hbig : (B'.map (·.id) ++ p.id :: ladd.id :: A.map (·.id)).Nodup := by
          have hn : ∀ v ∈ B'.map (·.id) ++ p.id :: A.map (·.id), v ≠ ladd.id := by
            intro v hv
            have : v ∈ (B' ++ [p] ++ A).map (·.id) := by simpa using hv
            rw [List.mem_map] at this
            obtain ⟨w, hw, rfl⟩ := this
            exact hfresh w hw
          exact nodup_ins1 _ _ _ _ hD' hn
        refine List.Sublist.nodup ?_ hbig
        simp only [List.map_append, List.map_cons, List.append_assoc, List.cons_append,
          List.nil_append]
        exact (List.Sublist.refl _).append ((e4.cons_cons _).cons_cons _)
      · intro v hv
        simp only [List.mem_append, List.mem_cons, List.not_mem_nil, or_false] at hv
        rcases hv with (hv | rfl) | rfl | hv
        · have := hI v (by simp [hv]); omega
        · exact hI v (by simp)
        · omega
        · have := e4.subset (List.mem_map_of_mem hv)
          simp only [List.mem_map] at this
          obtain ⟨w, hw, hw2⟩ := this
          have := hI w (by simp [hw]); omega
      · rw [getLast_app _ _ _ hne, e5]
        exact last_sublist h1 hL
      · intro v hv
        simp only [List.mem_append, List.mem_cons, List.not_mem_nil, or_false] at hv
        rcases hv with (hv | rfl) | rfl | hv
        · exact Or.inl ⟨v, by simp [hv], rfl⟩
        · exact Or.inl ⟨v, by simp, rfl⟩
        · exact Or.inr (Or.inl rfl)
        · have := e4.subset (List.mem_map_of_mem hv)
          simp only [List.mem_map] at this
          obtain ⟨w, hw, hw2⟩ := this
          exact Or.inl ⟨w, by simp [hw], hw2⟩
      · intro x hx
        rw [paint_append, paint_append (B' ++ [p])]
        by_cases hx1 : x < ladd.start
        · rw [if_neg (by omega)]
          have := hSeg.paint_some hx hx1
          cases hh : paint (B' ++ [p]) x <;> simp_all
        · rw [hSeg.paint_ge (by omega)]
          by_cases hx2 : x < ladd.stop
          · rw [if_pos (by omega)]
            have : ladd.covers x = true := by simp [LR.covers]; omega
            simp [paint, this]
          · rw [if_neg (by omega)]
            have : ladd.covers x = false := by simp [LR.covers]; omega
            have hl : paint (ladd :: A') x = paint A' x := by simp [paint, this]
            rw [hl, e6 x (by omega)]

/-- A scheme change at column `s`: the flow background (last tile `p`) has been cut at `s`, then a node
`[s, -1)` is inserted. -/
theorem compactAdd_scheme (ladd p : LR RD) (B sp : List (LR RD)) (flow next : Nat)
    (hT : Tile 0 (B ++ [p])) (hN : ∀ t ∈ B ++ [p], t.special = false)
    (hD : ((B ++ [p]).map (·.id)).Nodup) (hI : ∀ t ∈ B ++ [p], t.id < next)
    (hsp : ∀ t ∈ sp, t.special = true)
    (hs : ladd.special = false) (h0 : 0 ≤ ladd.start) (hstop : ladd.stop = -1)
    (hid : ladd.id < next) (hfresh : ∀ t ∈ B ++ [p], t.id ≠ ladd.id) :
    ∃ ns', compactAdd ladd (B ++ [{ p with stop := ladd.start }] ++ sp) flow next = some ⟨ns' ++ sp, flow, next⟩ ∧
      LineInv ns' ladd.id next ∧
      (∀ t ∈ ns', (∃ u ∈ B ++ [p], u.id = t.id) ∨ t.id = ladd.id) ∧
      ∀ x, 0 ≤ x → paint ns' x = if ladd.start ≤ x then some ladd.pay else paint (B ++ [p]) x := by
  obtain ⟨hSB, hpstop, hp0⟩ := hT.snoc
  have hsorted : (B ++ [({ p with stop := ladd.start } : LR RD)]).Pairwise (fun t u => t.start ≤ u.start) := by
    have := hT.sorted
    rw [List.pairwise_append] at this ⊢
    refine ⟨this.1, by simp, ?_⟩
    intro a ha b hb
    simp only [List.mem_singleton] at hb
    subst hb
    exact this.2.2 a ha p (by simp)
  have hN' : ∀ t ∈ B ++ [({ p with stop := ladd.start } : LR RD)], t.special = false := by
    intro t ht
    rcases List.mem_append.1 ht with ht | ht
    · exact hN t (by simp [ht])
    · simp only [List.mem_singleton] at ht; subst ht; exact hN p (by simp)
  -- the common conclusion
  have key : ∀ (K : List (LR RD)), Seg 0 ladd.start K → (∀ t ∈ K, t.special = false) →
      (K.map (·.id)).Sublist ((B ++ [p]).map (·.id)) →
      (∀ x, 0 ≤ x → x < ladd.start → paint K x = paint (B ++ [p]) x) →
      LineInv (K ++ [ladd]) ladd.id next ∧
      (∀ t ∈ K ++ [ladd], (∃ u ∈ B ++ [p], u.id = t.id) ∨ t.id = ladd.id) ∧
      ∀ x, 0 ≤ x → paint (K ++ [ladd]) x = if ladd.start ≤ x then some ladd.pay else paint (B ++ [p]) x := by
    intro K k1 k2 k3 k4
    refine ⟨⟨k1.append_tile ⟨rfl, h0, hstop⟩, ?_, ?_, ?_, by simp⟩, ?_, ?_⟩
    · intro t ht
      rcases List.mem_append.1 ht with ht | ht
      · exact k2 t ht
      · simp only [List.mem_singleton] at ht; subst ht; exact hs
    · rw [List.map_append, List.nodup_append]
      refine ⟨k3.nodup hD, by simp, ?_⟩
      intro a ha b hb
      have := k3.subset ha
      rw [List.mem_map] at this
      obtain ⟨u, hu, rfl⟩ := this
      simp only [List.map_cons, List.map_nil, List.mem_singleton] at hb
      subst hb
      exact hfresh u hu
    · intro t ht
      rcases List.mem_append.1 ht with ht | ht
      · have := k3.subset (List.mem_map_of_mem ht)
        rw [List.mem_map] at this
        obtain ⟨u, hu, hu2⟩ := this
        have := hI u hu
        omega
      · simp only [List.mem_singleton] at ht; subst ht; exact hid
    · intro t ht
      rcases List.mem_append.1 ht with ht | ht
      · have := k3.subset (List.mem_map_of_mem ht)
        rw [List.mem_map] at this
        exact Or.inl this
      · simp only [List.mem_singleton] at ht; subst ht; exact Or.inr rfl
    · intro x hx
      rw [paint_append]
      by_cases hc : ladd.start ≤ x
      · rw [if_pos hc, k1.paint_ge hc]
        have : ladd.covers x = true := by simp [LR.covers]; omega
        simp [paint, this]
      · rw [if_neg hc, k4 x hx (by omega)]
        have := hT.paint_some hx
        cases hh : paint (B ++ [p]) x <;> simp_all
  cases hl : B ++ [({ p with stop := ladd.start } : LR RD)] with
  | nil => simp at hl
  | cons t r =>
  have htstart : t.start = 0 := by
    have h1 : (B ++ [({ p with stop := ladd.start } : LR RD)]).head?.map (·.start) = some t.start := by
      rw [hl]; rfl
    cases B with
    | nil => simp at h1; have := hT.head; omega
    | cons b B' => simp at h1; have := hT.head; omega
  by_cases hfirst : ladd.start ≤ t.start
  · rw [compactAdd_of_findPos ladd (t :: r ++ sp) [] (t :: (r ++ sp)) flow next hs (findPos_first ladd t _ hfirst)]
    have hp : prevCheck ladd [] (t :: (r ++ sp)) flow next = ⟨[], t :: (r ++ sp), flow, next⟩ := by
      simp [prevCheck]
    simp only [hp, List.nil_append]
    have := fwd_minus_one ladd (t :: r) sp hstop (by rw [← hl]; exact hN') hsp
    rw [List.cons_append] at this
    rw [this]
    refine ⟨[ladd], by simp, key [] ?_ (by simp) (by simp) ?_⟩
    · show (0 : Int) = ladd.start
      omega
    · intro x hx hx2; omega
  · obtain ⟨B1, A, f1, f2, f3, f4, f5⟩ := findPosGo_sorted ladd [] t r sp (by rw [← hl]; exact hN') hsp
      (by rw [← hl]; exact hsorted) (by omega)
    have hf : findPos ladd (t :: r ++ sp) = some (B1, A ++ sp) := by
      rw [List.cons_append, findPos, if_neg (by omega)]
      simpa using f1
    rw [compactAdd_of_findPos ladd _ _ _ flow next hs hf]
    rw [← hl] at f2
    have hNA : ∀ v ∈ A, v.special = false := fun v hv => hN' v (by rw [← f2]; simp [hv])
    rcases List.eq_nil_or_concat B1 with rfl | ⟨B', q, rfl⟩
    · exact absurd rfl f3
    rw [List.concat_eq_append] at *
    have hq : q.start < ladd.start := f4 q (by simp)
    rcases List.eq_nil_or_concat A with rfl | ⟨A', z, rfl⟩
    · -- the cut background is the previous node
      rw [List.append_nil] at f2
      obtain ⟨rfl, hqe⟩ := List.append_inj' f2 rfl
      simp only [List.cons.injEq, and_true] at hqe
      have hqs : q.stop = ladd.start := by rw [hqe]
      have hqs' : q.start = p.start := by rw [hqe]
      have hqi : q.id = p.id := by rw [hqe]
      have hp : prevCheck ladd (B' ++ [q]) ([] ++ sp) flow next = ⟨B' ++ [q], sp, flow, next⟩ := by
        simp only [prevCheck, List.getLast?_append, List.getLast?_singleton, Option.some_or, List.nil_append]
        rw [if_neg (by omega)]
      simp only [hp]
      have hfw : fwd ladd [] sp = sp := by simpa using fwd_specials ladd [] sp hsp
      rw [hfw]
      refine ⟨B' ++ [q] ++ [ladd], by simp, key _ ?_ (fun v hv => hN' v (by rw [← f2]; exact hv)) ?_ ?_⟩
      · exact hSB.append ⟨by omega, by omega, by omega, by show q.stop = _; omega⟩
      · simp [hqi]
      · intro x hx hx2
        rw [paint_append, paint_append]
        by_cases hc : p.start ≤ x
        · have c1 : p.covers x = true := by simp [LR.covers]; omega
          have c2 : q.covers x = true := by simp [LR.covers]; omega
          have : q.pay = p.pay := by rw [hqe]
          simp [paint, c1, c2, this]
        · have := hSB.paint_some hx (by omega)
          cases hh : paint B' x <;> simp_all
    · -- the previous node is strictly before the background
      rw [List.concat_eq_append] at *
      have f2' : (B' ++ [q] ++ A') ++ [z] = B ++ [{ p with stop := ladd.start }] := by
        rw [← f2]; simp
      obtain ⟨hB, hz⟩ := List.append_inj' f2' rfl
      have hzs : z.start = p.start := by
        simp only [List.cons.injEq, and_true] at hz; rw [hz]
      subst hB
      have hTq : Tile 0 ((B' ++ [q]) ++ (A' ++ [p])) := by simpa using hT
      obtain ⟨b, g1, g2⟩ := hTq.split (by simp)
      obtain ⟨k1, k2, k3, k4⟩ := g1.snoc
      have hge : ladd.start ≤ q.stop := by
        cases A' with
        | nil =>
          have h1 := f5 z (by simp)
          have h2 := g2.head
          omega
        | cons a A'' =>
          have h1 := f5 a (by simp)
          have h2 := g2.head
          omega
      have hfw : fwd ladd [] (A' ++ [z] ++ sp) = sp := fwd_minus_one ladd _ sp hstop hNA hsp
      by_cases hcut : q.stop > ladd.start
      · have hp : prevCheck ladd (B' ++ [q]) (A' ++ [z] ++ sp) flow next =
            ⟨B' ++ [{ q with stop := ladd.start }], A' ++ [z] ++ sp, flow, next⟩ := by
          simp only [prevCheck, List.getLast?_append, List.getLast?_singleton, Option.some_or,
            List.dropLast_concat]
          rw [if_pos (Or.inl hcut), if_neg (by simp [hstop]), dropZero_id _ _ (by simp; omega)]
        simp only [hp, hfw]
        refine ⟨B' ++ [{ q with stop := ladd.start }] ++ [ladd], by simp, key _ ?_ ?_ ?_ ?_⟩
        · exact k1.append ⟨rfl, k3, by simp; omega, rfl⟩
        · intro v hv
          rcases List.mem_append.1 hv with hv | hv
          · exact hN v (by simp [hv])
          · simp only [List.mem_singleton] at hv; subst hv; exact hN q (by simp)
        · simp
        · intro x hx hx2
          simp only [paint_append, List.append_assoc]
          by_cases hc : q.start ≤ x
          · have c1 : q.covers x = true := by simp [LR.covers]; omega
            have c2 : LR.covers { q with stop := ladd.start } x = true := by simp [LR.covers]; omega
            rw [k1.paint_ge hc]
            simp [paint, c1, c2]
          · have := k1.paint_some hx (by omega)
            cases hh : paint B' x <;> simp_all
      · have hp : prevCheck ladd (B' ++ [q]) (A' ++ [z] ++ sp) flow next =
            ⟨B' ++ [q], A' ++ [z] ++ sp, flow, next⟩ := by
          simp only [prevCheck, List.getLast?_append, List.getLast?_singleton, Option.some_or]
          rw [if_neg (by omega)]
        simp only [hp, hfw]
        refine ⟨B' ++ [q] ++ [ladd], by simp, key _ ?_ ?_ ?_ ?_⟩
        · exact k1.append ⟨rfl, k3, k4, by show q.stop = ladd.start; omega⟩
        · intro v hv
          exact hN v (by simp only [List.mem_append] at hv ⊢; grind)
        · simp
        · intro x hx hx2
          simp only [paint_append, List.append_assoc]
          by_cases hc : q.start ≤ x
          · have c1 : q.covers x = true := by simp [LR.covers]; omega
            rw [k1.paint_ge hc]
            simp [paint, c1]
          · have := k1.paint_some hx (by omega)
            cases hh : paint B' x <;> simp_all

end Verif.LineRegions
