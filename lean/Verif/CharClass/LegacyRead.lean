import Verif.CharClass.LegacySpec
import Verif.RegExp.ReadClass
/-!
# The operations of the reader on classes
-/
namespace Verif.CharClass
open Verif.RegExp

/-- the class `c` stands for the set `P` of 16 bit characters -/
def Rep (c : CC) (P : Nat → Prop) : Prop := WF c ∧ ∀ d, d < 65536 → (c.inClass d = true ↔ P d)

theorem Rep.congr {c : CC} {P Q : Nat → Prop} (h : Rep c P) (e : ∀ d, d < 65536 → (P d ↔ Q d)) : Rep c Q :=
  ⟨h.1, fun d hd => (h.2 d hd).trans (e d hd)⟩

theorem rep_empty : Rep CC.empty fun _ => False := by
  refine ⟨?_, ?_⟩
  · intro p b hb; simp [CC.empty] at hb
  · intro d _; simp [CC.inClass, CC.empty]

theorem rep_addChar {c : CC} {P : Nat → Prop} (h : Rep c P) {a : Nat} (ha : a < 65536) :
    ∃ c', c.addChar a = some c' ∧ Rep c' fun d => P d ∨ d = a := by
  obtain ⟨c', e1, e2, e3⟩ := addChar_spec h.1 ha
  refine ⟨c', e1, e2, fun d hd => ?_⟩
  rw [e3 d hd, Bool.or_eq_true, decide_eq_true_eq, h.2 d hd, or_comm]

theorem rep_clearChar {c : CC} {P : Nat → Prop} (h : Rep c P) {a : Nat} (ha : a < 65536) :
    ∃ c', c.clearChar a = some c' ∧ Rep c' fun d => P d ∧ d ≠ a := by
  obtain ⟨c', e1, e2, e3⟩ := clearChar_spec h.1 ha
  refine ⟨c', e1, e2, fun d hd => ?_⟩
  rw [e3 d hd]
  simp [h.2 d hd]

theorem rep_addAll (l : List Nat) : ∀ {c : CC} {P : Nat → Prop}, Rep c P → (∀ a ∈ l, a < 65536) →
    ∃ c', c.addAll l = some c' ∧ Rep c' fun d => P d ∨ d ∈ l := by
  induction l with
  | nil => intro c P h _; exact ⟨c, rfl, h.congr fun d _ => by simp⟩
  | cons a l ih =>
    intro c P h hl
    obtain ⟨c1, e1, h1⟩ := rep_addChar h (hl a (List.mem_cons_self ..))
    obtain ⟨c2, e2, h2⟩ := ih h1 fun b hb => hl b (List.mem_cons_of_mem _ hb)
    exact ⟨c2, by rw [CC.addAll, e1]; exact e2, h2.congr fun d _ => by simp [or_assoc]⟩

theorem rep_clearAll (l : List Nat) : ∀ {c : CC} {P : Nat → Prop}, Rep c P → (∀ a ∈ l, a < 65536) →
    ∃ c', c.clearAll l = some c' ∧ Rep c' fun d => P d ∧ d ∉ l := by
  induction l with
  | nil => intro c P h _; exact ⟨c, rfl, h.congr fun d _ => by simp⟩
  | cons a l ih =>
    intro c P h hl
    obtain ⟨c1, e1, h1⟩ := rep_clearChar h (hl a (List.mem_cons_self ..))
    obtain ⟨c2, e2, h2⟩ := ih h1 fun b hb => hl b (List.mem_cons_of_mem _ hb)
    exact ⟨c2, by rw [CC.clearAll, e1]; exact e2, h2.congr fun d _ => by simp [and_assoc]⟩

theorem rep_range {c : CC} {P : Nat → Prop} (h : Rep c P) {a b : Nat} (hab : a ≤ b) (hb : b < 65536) (hok : AddOk a b) :
    ∃ c', c.addRange a b = some c' ∧ Rep c' fun d => P d ∨ a ≤ d ∧ d ≤ b := by
  obtain ⟨c', e1, e2, e3⟩ := addRange_ok h.1 hab hb hok
  refine ⟨c', e1, e2, fun d hd => ?_⟩
  rw [e3 d hd, Bool.or_eq_true, decide_eq_true_eq, h.2 d hd, or_comm]

theorem rep_fill {c : CC} {P : Nat → Prop} (h : Rep c P) : ∃ c', c.fill = some c' ∧ Rep c' fun _ => True := by
  obtain ⟨c', e1, e2, e3⟩ := fill_ok h.1
  exact ⟨c', e1, e2, fun d _ => by simp [e3 d]⟩

theorem rep_union {c e : CC} {P Q : Nat → Prop} (h : Rep c P) (k : Rep e Q) : Rep (c.addClass e) fun d => P d ∨ Q d := by
  obtain ⟨e1, e2⟩ := addClass_ok (d := e) h.1
  exact ⟨e1, fun d hd => by rw [e2, Bool.or_eq_true, h.2 d hd, k.2 d hd]⟩

theorem rep_minus {c e : CC} {P Q : Nat → Prop} (h : Rep c P) (k : Rep e Q) : Rep (c.clearClass e) fun d => P d ∧ ¬ Q d := by
  obtain ⟨e1, e2⟩ := clearClass_ok (d := e) h.1
  refine ⟨e1, fun d hd => ?_⟩
  show _ ↔ P d ∧ ¬ Q d
  rw [e2, ← h.2 d hd, ← k.2 d hd]
  simp

theorem rep_inter {c e c' : CC} {P Q : Nat → Prop} (h : Rep c P) (k : Rep e Q) (hi : c.intersectClass e = some c') : Rep c' fun d => P d ∧ Q d := by
  obtain ⟨e1, e2⟩ := intersect_ok h.1 hi
  exact ⟨e1, fun d hd => by rw [e2, Bool.and_eq_true, h.2 d hd, k.2 d hd]⟩

theorem rep_inv {c : CC} {P : Nat → Prop} (h : Rep c P) (neg : Bool) : ∃ c', lInv neg c = some c' ∧ Rep c' (negIf neg P) := by
  cases neg with
  | false => exact ⟨c, rfl, h⟩
  | true =>
    obtain ⟨t, e1, e2⟩ := rep_fill rep_empty
    refine ⟨t.clearClass c, by simp [lInv, e1], (rep_minus e2 h).congr fun d _ => ?_⟩
    simp [negIf]

/-! ## Categories -/

theorem addBits_spec (b : BA) (w : Nat → BitVec 32) : (b.addBits w).size = b.size ∧ ∀ p, (b.addBits w).getBit p = (b.getBit p || bit w p) := by
  unfold BA.addBits
  cases hb : b.arr with
  | null =>
    refine ⟨rfl, fun p => ?_⟩
    rw [getBit_eq, getBit_eq]
    simp only [BA.load, hb, bit, BitVec.getLsbD_or]
  | full =>
    refine ⟨rfl, fun p => ?_⟩
    simp [BA.getBit, hb]
  | words v =>
    refine ⟨rfl, fun p => ?_⟩
    rw [getBit_eq, getBit_eq]
    simp only [BA.load, hb, bit, BitVec.getLsbD_or]

theorem clearBits_spec (b : BA) (w : Nat → BitVec 32) : (b.clearBits w).size = b.size ∧ ∀ p, (b.clearBits w).getBit p = (b.getBit p && !bit w p) := by
  have hlt : ∀ p, p % 32 < 32 := fun p => Nat.mod_lt _ (by decide)
  unfold BA.clearBits
  cases hb : b.arr with
  | null =>
    refine ⟨rfl, fun p => ?_⟩
    simp [BA.getBit, hb]
  | full =>
    refine ⟨rfl, fun p => ?_⟩
    rw [getBit_eq, getBit_eq]
    simp only [BA.load, hb, bit, BitVec.getLsbD_and, BitVec.getLsbD_not, hlt p, decide_true, Bool.true_and]
  | words v =>
    refine ⟨rfl, fun p => ?_⟩
    rw [getBit_eq, getBit_eq]
    simp only [BA.load, hb, bit, BitVec.getLsbD_and, BitVec.getLsbD_not, hlt p, decide_true, Bool.true_and]

theorem onCat_rep (T : Tables) {f : BA → (Nat → BitVec 32) → BA} {g : Bool → Bool → Bool} (hg : ∀ a, g a false = a)
    (hf : ∀ b w, (f b w).size = b.size ∧ ∀ p, (f b w).getBit p = g (b.getBit p) (bit w p)) {c : CC} {cat : Nat} (h1 : 1 ≤ cat) (h2 : cat < 29)
    (h : WF c) : WF (c.onCat T f cat) ∧ ∀ d, d < 65536 → (c.onCat T f cat).inClass d = g (c.inClass d) (T.has cat d) := by
  unfold CC.onCat
  rw [if_neg (by omega)]
  constructor
  · intro p b hb
    dsimp only at hb
    split at hb
    · split at hb
      · exact h p b hb
      · cases hb; rw [(hf _ _).1]; exact page_size h p
    · exact h p b hb
  · intro d hd
    have hp : d / 256 < 256 := by omega
    rw [inClass_eq, inClass_eq, pageOf_eq hd]
    simp only [if_pos hp, Tables.has]
    cases T.page cat (d / 256) with
    | none => rw [hg]
    | some w =>
      simp only [argBit]
      rw [(hf _ _).2, page_bit]
      rfl

theorem rep_addCat (T : Tables) {c : CC} {P : Nat → Prop} (h : Rep c P) {cat : Nat} (h1 : 1 ≤ cat) (h2 : cat < 29) :
    Rep (c.addCat T cat) fun d => P d ∨ T.has cat d = true := by
  obtain ⟨e1, e2⟩ := onCat_rep T (g := fun a b => a || b) (fun a => by simp) addBits_spec h1 h2 h.1
  exact ⟨e1, fun d hd => by rw [CC.addCat, e2 d hd, Bool.or_eq_true, h.2 d hd]⟩

theorem rep_clearCat (T : Tables) {c : CC} {P : Nat → Prop} (h : Rep c P) {cat : Nat} (h1 : 1 ≤ cat) (h2 : cat < 29) :
    Rep (c.clearCat T cat) fun d => P d ∧ T.has cat d = false := by
  obtain ⟨e1, e2⟩ := onCat_rep T (g := fun a b => a && !b) (fun a => by simp) clearBits_spec h1 h2 h.1
  exact ⟨e1, fun d hd => by rw [CC.clearCat, e2 d hd, Bool.and_eq_true, h.2 d hd, Bool.not_eq_true']⟩

theorem rep_addName (T : Tables) (n : Text) {c : CC} {P : Nat → Prop} (h : Rep c P) :
    Rep (c.onName (CC.addCat T) n) fun d => P d ∨ ∃ i, 1 ≤ i ∧ i < 29 ∧ n.isPrefixOf (catNames.getD i []) = true ∧ T.has i d = true := by
  unfold CC.onName
  have key : ∀ l : List Nat, (∀ i ∈ l, i < 29) → ∀ {c : CC} {P : Nat → Prop}, Rep c P →
      Rep (l.foldl (fun c i => if n.isPrefixOf (catNames.getD i []) then c.addCat T i else c) c)
        fun d => P d ∨ ∃ i, i ∈ l ∧ 1 ≤ i ∧ n.isPrefixOf (catNames.getD i []) = true ∧ T.has i d = true := by
    intro l
    induction l with
    | nil => intro _ c P h; exact h.congr fun d _ => by simp
    | cons a l ih =>
      intro hl c P h
      have ha := hl a (List.mem_cons_self ..)
      have hl := fun i hi => hl i (List.mem_cons_of_mem _ hi)
      rw [List.foldl_cons]
      by_cases hp : n.isPrefixOf (catNames.getD a []) = true
      · rw [if_pos hp]
        by_cases h1 : 1 ≤ a
        · refine (ih hl (rep_addCat T h h1 ha)).congr fun d _ => ?_
          constructor
          · rintro ((k | k) | ⟨i, k1, k2⟩)
            · exact .inl k
            · exact .inr ⟨a, List.mem_cons_self .., h1, hp, k⟩
            · exact .inr ⟨i, List.mem_cons_of_mem _ k1, k2⟩
          · rintro (k | ⟨i, k1, k2⟩)
            · exact .inl (.inl k)
            · rcases List.mem_cons.mp k1 with rfl | k1
              · exact .inl (.inr k2.2.2)
              · exact .inr ⟨i, k1, k2⟩
        · have : c.addCat T a = c := by unfold CC.addCat CC.onCat; rw [if_pos (by omega)]
          rw [this]
          refine (ih hl h).congr fun d _ => ?_
          constructor
          · rintro (k | ⟨i, k1, k2⟩)
            · exact .inl k
            · exact .inr ⟨i, List.mem_cons_of_mem _ k1, k2⟩
          · rintro (k | ⟨i, k1, k2⟩)
            · exact .inl k
            · rcases List.mem_cons.mp k1 with rfl | k1
              · exact absurd k2.1 h1
              · exact .inr ⟨i, k1, k2⟩
      · rw [if_neg hp]
        refine (ih hl h).congr fun d _ => ?_
        constructor
        · rintro (k | ⟨i, k1, k2⟩)
          · exact .inl k
          · exact .inr ⟨i, List.mem_cons_of_mem _ k1, k2⟩
        · rintro (k | ⟨i, k1, k2⟩)
          · exact .inl k
          · rcases List.mem_cons.mp k1 with rfl | k1
            · exact absurd k2.2.1 hp
            · exact .inr ⟨i, k1, k2⟩
  refine (key (List.range 29) (fun i hi => List.mem_range.mp hi) h).congr fun d _ => ?_
  constructor
  · rintro (k | ⟨i, k1, k2, k3⟩)
    · exact .inl k
    · exact .inr ⟨i, k2, List.mem_range.mp k1, k3⟩
  · rintro (k | ⟨i, k1, k2, k3⟩)
    · exact .inl k
    · exact .inr ⟨i, List.mem_range.mpr k2, k1, k3⟩

theorem rep_clearName (T : Tables) (n : Text) {c : CC} {P : Nat → Prop} (h : Rep c P) :
    Rep (c.onName (CC.clearCat T) n) fun d => P d ∧ ¬ ∃ i, 1 ≤ i ∧ i < 29 ∧ n.isPrefixOf (catNames.getD i []) = true ∧ T.has i d = true := by
  unfold CC.onName
  have key : ∀ l : List Nat, (∀ i ∈ l, i < 29) → ∀ {c : CC} {P : Nat → Prop}, Rep c P →
      Rep (l.foldl (fun c i => if n.isPrefixOf (catNames.getD i []) then c.clearCat T i else c) c)
        fun d => P d ∧ ∀ i, i ∈ l → 1 ≤ i → n.isPrefixOf (catNames.getD i []) = true → T.has i d = false := by
    intro l
    induction l with
    | nil => intro _ c P h; exact h.congr fun d _ => by simp
    | cons a l ih =>
      intro hl c P h
      have ha := hl a (List.mem_cons_self ..)
      have hl := fun i hi => hl i (List.mem_cons_of_mem _ hi)
      rw [List.foldl_cons]
      by_cases hp : n.isPrefixOf (catNames.getD a []) = true ∧ 1 ≤ a
      · rw [if_pos hp.1]
        refine (ih hl (rep_clearCat T h hp.2 ha)).congr fun d _ => ?_
        constructor
        · rintro ⟨⟨k1, k2⟩, k3⟩
          refine ⟨k1, fun i hi => ?_⟩
          rcases List.mem_cons.mp hi with rfl | hi
          · exact fun _ _ => k2
          · exact k3 i hi
        · rintro ⟨k1, k2⟩
          exact ⟨⟨k1, k2 a (List.mem_cons_self ..) hp.2 hp.1⟩, fun i hi => k2 i (List.mem_cons_of_mem _ hi)⟩
      · have : (if n.isPrefixOf (catNames.getD a []) = true then c.clearCat T a else c) = c := by
          split
          · unfold CC.clearCat CC.onCat; rw [if_pos]; grind
          · rfl
        rw [this]
        refine (ih hl h).congr fun d _ => ?_
        constructor
        · rintro ⟨k1, k3⟩
          refine ⟨k1, fun i hi => ?_⟩
          rcases List.mem_cons.mp hi with rfl | hi
          · exact fun h1 h2 => absurd ⟨h2, h1⟩ hp
          · exact k3 i hi
        · rintro ⟨k1, k2⟩
          exact ⟨k1, fun i hi => k2 i (List.mem_cons_of_mem _ hi)⟩
  refine (key (List.range 29) (fun i hi => List.mem_range.mp hi) h).congr fun d _ => ?_
  constructor
  · rintro ⟨k, k2⟩
    refine ⟨k, ?_⟩
    rintro ⟨i, h1, h2, h3, h4⟩
    rw [k2 i (List.mem_range.mpr h2) h1 h3] at h4
    cases h4
  · rintro ⟨k, k2⟩
    refine ⟨k, fun i h2 h1 h3 => ?_⟩
    cases h4 : T.has i d with
    | false => rfl
    | true => exact absurd ⟨i, h1, List.mem_range.mp h2, h3, h4⟩ k2

/-- the categories whose name begins with "L", with "Z" -/
theorem names_L (T : Tables) (x : Ctx) (d : Nat) :
    (∃ i, 1 ≤ i ∧ i < 29 ∧ [76].isPrefixOf (catNames.getD i []) = true ∧ T.has i d = true) ↔ (ctxOf x T).setL d = true := by
  have h : ∀ i, i < 29 → ([76].isPrefixOf (catNames.getD i []) = true ↔ i = 4 ∨ i = 5 ∨ i = 6 ∨ i = 7 ∨ i = 8) := by decide +kernel
  simp only [ctxOf, Bool.or_eq_true]
  constructor
  · rintro ⟨i, h1, h2, h3, h4⟩
    rcases (h i h2).mp h3 with rfl | rfl | rfl | rfl | rfl <;> simp [h4]
  · rintro ((((k | k) | k) | k) | k)
    · exact ⟨4, by decide, by decide, (h 4 (by decide)).mpr (by simp), k⟩
    · exact ⟨5, by decide, by decide, (h 5 (by decide)).mpr (by simp), k⟩
    · exact ⟨6, by decide, by decide, (h 6 (by decide)).mpr (by simp), k⟩
    · exact ⟨7, by decide, by decide, (h 7 (by decide)).mpr (by simp), k⟩
    · exact ⟨8, by decide, by decide, (h 8 (by decide)).mpr (by simp), k⟩

theorem names_Z (T : Tables) (x : Ctx) (d : Nat) :
    (∃ i, 1 ≤ i ∧ i < 29 ∧ [90].isPrefixOf (catNames.getD i []) = true ∧ T.has i d = true) ↔ (ctxOf x T).setZ d = true := by
  have h : ∀ i, i < 29 → ([90].isPrefixOf (catNames.getD i []) = true ↔ i = 26 ∨ i = 27 ∨ i = 28) := by decide +kernel
  simp only [ctxOf, Bool.or_eq_true]
  constructor
  · rintro ⟨i, h1, h2, h3, h4⟩
    rcases (h i h2).mp h3 with rfl | rfl | rfl <;> simp [h4]
  · rintro ((k | k) | k)
    · exact ⟨26, by decide, by decide, (h 26 (by decide)).mpr (by simp), k⟩
    · exact ⟨27, by decide, by decide, (h 27 (by decide)).mpr (by simp), k⟩
    · exact ⟨28, by decide, by decide, (h 28 (by decide)).mpr (by simp), k⟩

theorem names_eq : names = catNames := by decide +kernel

/-- `{name}` -/
theorem rep_addNamed (T : Tables) (x : Ctx) {n : Text} (hn : n ∉ [[], nUnassigned, [67], [67, 110]]) {c : CC} {P : Nat → Prop} (h : Rep c P) :
    ∃ c', c.addNamed T n = some c' ∧ Rep c' fun d => P d ∨ (ctxOf x T).categ n d = true := by
  simp only [List.mem_cons, List.not_mem_nil, or_false, not_or] at hn
  obtain ⟨n1, n2, -, -⟩ := hn
  unfold CC.addNamed
  by_cases a1 : n = nAll
  · rw [if_pos (show n = [65, 76, 76] from a1)]
    obtain ⟨c', e1, e2⟩ := rep_fill h
    exact ⟨c', e1, e2.congr fun d _ => by simp [ctxOf, a1]⟩
  · rw [if_neg (show ¬ n = [65, 76, 76] from a1)]
    by_cases a2 : n = nAssigned
    · rw [if_pos (show n = [65, 83, 83, 73, 71, 78, 69, 68] from a2)]
      refine ⟨_, rfl, (rep_addName T [] h).congr fun d _ => ?_⟩
      simp only [ctxOf, if_neg a1, if_pos a2, List.isPrefixOf_nil_left, true_and, List.any_eq_true, List.mem_range, Bool.and_eq_true, decide_eq_true_eq]
      refine or_congr Iff.rfl ⟨?_, ?_⟩
      · rintro ⟨i, k1, k2, k3⟩; exact ⟨i, k2, k1, k3⟩
      · rintro ⟨i, k2, k1, k3⟩; exact ⟨i, k1, k2, k3⟩
    · rw [if_neg (show ¬ n = [65, 83, 83, 73, 71, 78, 69, 68] from a2), if_neg (show ¬ n = [85, 78, 65, 83, 83, 73, 71, 78, 69, 68] from n2), if_neg n1]
      refine ⟨_, rfl, (rep_addName T n h).congr fun d _ => ?_⟩
      simp only [ctxOf, names_eq, if_neg a1, if_neg a2, List.any_eq_true, List.mem_range, Bool.and_eq_true, decide_eq_true_eq]
      refine or_congr Iff.rfl ⟨?_, ?_⟩
      · rintro ⟨i, k1, k2, k3, k4⟩; exact ⟨i, k2, ⟨k1, k3⟩, k4⟩
      · rintro ⟨i, k2, ⟨k1, k3⟩, k4⟩; exact ⟨i, k1, k2, k3, k4⟩

/-- `\d` … `\u` -/
theorem rep_letter (T : Tables) (x : Ctx) (ic : Bool) {k : Nat} (hk : k ∈ [100, 68, 119, 87, 115, 83, 108, 117]) {c : CC} {P : Nat → Prop} (h : Rep c P) :
    ∃ c', c.addLetter T ic k = some (some c') ∧ Rep c' fun d => P d ∨ letterSet (ctxOf x T) k d ∨
      ic = true ∧ (k = 108 ∧ (ctxOf x T).setLu d = true ∨ k = 117 ∧ (ctxOf x T).setLl d = true) := by
  obtain ⟨t, f1, f2⟩ := rep_fill rep_empty
  simp only [List.mem_cons, List.not_mem_nil, or_false] at hk
  rcases hk with rfl | rfl | rfl | rfl | rfl | rfl | rfl | rfl
  · refine ⟨_, rfl, (rep_addCat T h (by decide) (by decide)).congr fun d _ => ?_⟩
    simp [letterSet, ctxOf]
  · refine ⟨_, by unfold CC.addLetter; rw [if_neg (by decide), if_pos rfl, f1]; rfl,
      (rep_union h (rep_clearCat T f2 (cat := 12) (by decide) (by decide))).congr fun d _ => ?_⟩
    simp [letterSet, ctxOf]
  · obtain ⟨c', e1, e2⟩ := rep_addAll [95] (rep_addCat T (rep_addName T [76] h) (cat := 12) (by decide) (by decide)) (by simp)
    refine ⟨c', by unfold CC.addLetter; rw [if_neg (by decide), if_neg (by decide), if_pos rfl, e1], e2.congr fun d _ => ?_⟩
    rw [names_L T x]
    simp [letterSet, or_assoc, ctxOf]
  · obtain ⟨c', e1, e2⟩ := rep_clearAll [95] (rep_clearCat T (rep_clearName T [76] f2) (cat := 12) (by decide) (by decide)) (by simp)
    refine ⟨c.addClass c', by unfold CC.addLetter; rw [if_neg (by decide), if_neg (by decide), if_neg (by decide), if_pos rfl, f1, Option.bind_some, e1]; rfl,
      (rep_union h e2).congr fun d _ => ?_⟩
    rw [names_L T x]
    simp [letterSet, and_assoc, ctxOf]
  · obtain ⟨c', e1, e2⟩ := rep_addAll [9, 10, 12, 13] (rep_addName T [90] h) (by simp)
    refine ⟨c', by unfold CC.addLetter; rw [if_neg (by decide), if_neg (by decide), if_neg (by decide), if_neg (by decide), if_pos rfl, e1],
      e2.congr fun d _ => ?_⟩
    rw [names_Z T x]
    simp only [letterSet, List.mem_cons, List.not_mem_nil, or_false]
    grind
  · obtain ⟨c', e1, e2⟩ := rep_clearAll [9, 10, 12, 13] (rep_clearName T [90] f2) (by simp)
    refine ⟨c.addClass c', by
        unfold CC.addLetter
        rw [if_neg (by decide), if_neg (by decide), if_neg (by decide), if_neg (by decide), if_neg (by decide), if_pos rfl, f1, Option.bind_some, e1]; rfl,
      (rep_union h e2).congr fun d _ => ?_⟩
    rw [names_Z T x]
    simp only [letterSet, List.mem_cons, List.not_mem_nil, or_false]
    grind
  · cases ic with
    | false =>
      refine ⟨_, rfl, (rep_addCat T h (by decide) (by decide)).congr fun d _ => ?_⟩
      simp [letterSet, ctxOf]
    | true =>
      refine ⟨_, rfl, (rep_addCat T (rep_addCat T h (by decide) (by decide)) (by decide) (by decide)).congr fun d _ => ?_⟩
      simp [letterSet, ctxOf, or_assoc]
  · cases ic with
    | false =>
      refine ⟨_, rfl, (rep_addCat T h (by decide) (by decide)).congr fun d _ => ?_⟩
      simp [letterSet, ctxOf]
    | true =>
      refine ⟨_, rfl, (rep_addCat T (rep_addCat T h (by decide) (by decide)) (by decide) (by decide)).congr fun d _ => ?_⟩
      simp [letterSet, ctxOf, or_assoc]

theorem rep_cased {x : Ctx} (hx : CasesOk x) (ic : Bool) {c : CC} {P : Nat → Prop} (h : Rep c P) {k : Nat} (hk : k < 65536) :
    ∃ c', c.addCased x ic k = some c' ∧ Rep c' fun d => P d ∨ folded x ic (fun c => c = k) d := by
  cases ic with
  | false =>
    obtain ⟨c', e1, e2⟩ := rep_addAll [k] h (by simpa using hk)
    exact ⟨c', e1, e2.congr fun d _ => by simp [folded]⟩
  | true =>
    obtain ⟨c', e1, e2⟩ := rep_addAll [k, x.lower k, x.upper k, x.title k] h (by simp [hk, hx.lower k hk, hx.upper k hk, hx.title k hk])
    exact ⟨c', e1, e2.congr fun d _ => by simp [folded]⟩

end Verif.CharClass
