import Verif.RegExp.Written

/-!
# Which match is reported (C56)

`Re.ends`: where a match of a written expression may end, in the order of preference: an earlier alternative before a later one, one more
repetition before none, unless the repetition is lazy. `Re.L` is the same without the order.
-/
namespace Verif.RegExp

open Classical in
/-- the end of a match of `R` from `p` on, if there is one (for parts that can end in one place only) -/
noncomputable def one (R : Int → Int → Prop) (p : Int) : List Int := if h : ∃ q, R p q then [h.choose] else []

/-- what an operator makes of `f`; `left p`: the characters left at `p` -/
def Op.ends (left : Int → Nat) (f : Int → List Int) : Op → Int → List Int
  | .many z, p => rep f z (left p) p
  | .many1 z, p => (f p).flatMap fun r => rep f z (left r) r
  | .maybe z, p => rep f z 1 p
  | .exactly n _, p => times f (decNum n) p
  | .atLeast n z, p => (times f (decNum n) p).flatMap fun r => rep f z (left r) r
  | .between n m z, p => (times f (decNum n) p).flatMap (rep f z (decNum m - decNum n))
  | .ahead, p => if f p = [] then [] else [p]
  | .nahead, p => if f p = [] then [p] else []
  | .behind d, p => if p < d then [] else if f (p - d) = [] then [] else [p]
  | .nbehind d, p => if p < d then [p] else if f (p - d) = [] then [p] else []

/-- the ends of the matches from a position on, the preferred one first -/
noncomputable def Re.ends (x : Ctx) (env : Env) : Re → Int → List Int
  | .group a, p | .bare a, p | .named _ a, p => a.ends x env p
  | .cat a b, p => (a.ends x env p).flatMap (b.ends x env)
  | .alt a b, p => a.ends x env p ++ b.ends x env p
  | .post a o, p => o.ends (fun p => (env.text.length - p).toNat) (a.ends x env) p
  | .eps, p | .space _, p => [p]
  | .chr w, p => one (Re.L x env (.chr w)) p
  | .ctl c, p => one (Re.L x env (.ctl c)) p
  | .sym m, p => one (Re.L x env (.sym m)) p
  | .cls neg k, p => one (Re.L x env (.cls neg k)) p
  | .trace c, p => one (Re.L x env (.trace c)) p
  | .traceN c, p => one (Re.L x env (.traceN c)) p
  | .traceName n, p => one (Re.L x env (.traceName n)) p
  | .ref _, _ | .refName _, _ => []

/-- the first position from `p` on, among `n + 1`, where there is a match, with the preferred end -/
noncomputable def Re.first (x : Ctx) (env : Env) (e : Re) : Nat → Int → Option (Int × Int)
  | 0, p => (e.ends x env p).head?.map fun q => (p, q)
  | n + 1, p => match (e.ends x env p).head? with
    | some q => some (p, q)
    | none => e.first x env n (p + 1)

/-! ## Joined characters and empty nodes do not matter -/

theorem le_one_eq {l k : List Int} (hl : l.length ≤ 1) (hk : k.length ≤ 1) (h : ∀ q, q ∈ l ↔ q ∈ k) : l = k := by
  match l, k with
  | [], [] => rfl
  | [], [b] => have := (h b).2 (by simp); cases this
  | [a], [] => have := (h a).1 (by simp); cases this
  | [a], [b] => have := (h a).1 (by simp); simp at this; rw [this]
  | _ :: _ :: _, _ => simp at hl
  | _, _ :: _ :: _ => simp at hk

theorem chkEnds_le (c : Chk) : (chkEnds c).length ≤ 1 := by cases c <;> simp [chkEnds]

theorem ends_append (env : Env) (l k : List Node) (h : ∀ n ∈ l, isOr n = false) (p : Int) : ends env (l ++ k) p = (ends env l p).flatMap (ends env k) := by
  induction l generalizing p with
  | nil => simp [ends]
  | cons a l ih =>
    have ha := h a (by simp)
    simp only [List.cons_append, ends, ha, Bool.false_eq_true, if_false]
    rw [List.flatMap_assoc]
    congr 1
    funext r
    exact ih (fun n hn => h n (by simp [hn])) r

theorem symbs_le (env : Env) (w : Text) (p : Int) : (ends env (w.map .symb) p).length ≤ 1 := by
  induction w generalizing p with
  | nil => simp [ends]
  | cons c w ih =>
    simp only [List.map_cons, ends, isOr, Bool.false_eq_true, if_false, endsN]
    cases eat env p (symEq env c) with
    | no => simp [chkEnds]
    | oob => simp [chkEnds]
    | yes q => simpa [chkEnds] using ih q

theorem flatMap_same {f g : Int → List Int} {l : List Int} (h : ∀ r ∈ l, f r = g r) : l.flatMap f = l.flatMap g := by
  induction l with
  | nil => rfl
  | cons a l ih => simp only [List.flatMap_cons]; rw [h a (by simp), ih fun r hr => h r (by simp [hr])]

theorem times_same {f g : Int → List Int} {H : Int} {j : Nat} (hg : Fwd H j g) (h : ∀ p, 0 ≤ p → p ≤ H → f p = g p) (k : Nat) :
    ∀ p, 0 ≤ p → p ≤ H → times f k p = times g k p := by
  induction k with
  | zero => intro p _ _; rfl
  | succ k ih =>
    intro p h0 h1
    simp only [times]
    rw [h p h0 h1]
    exact flatMap_same fun r hr => by have := hg p r h0 h1 hr; exact ih r (by omega) this.2

theorem rep_same {f g : Int → List Int} {H : Int} {j : Nat} (hg : Fwd H j g) (h : ∀ p, 0 ≤ p → p ≤ H → f p = g p) (z : Bool) (k : Nat) :
    ∀ p, 0 ≤ p → p ≤ H → rep f z k p = rep g z k p := by
  induction k with
  | zero => intro p _ _; rfl
  | succ k ih =>
    intro p h0 h1
    simp only [rep]
    rw [h p h0 h1, flatMap_same fun r hr => by have := hg p r h0 h1 hr; exact ih r (by omega) this.2]

theorem star_same {env : Env} {f g : Int → List Int} {H : Int} {j : Nat} (hg : Fwd H j g) (h : ∀ p, 0 ≤ p → p ≤ H → f p = g p) (z : Bool) (s : Nat) (p : Int)
    (h0 : 0 ≤ p) (h1 : p ≤ H) : (times f s p).flatMap (star env f z) = (times g s p).flatMap (star env g z) := by
  rw [times_same hg h s p h0 h1]
  exact flatMap_same fun r hr => by have := times_fwd hg s p r h0 h1 hr; exact rep_same hg h z _ r (by omega) this.2

theorem range_same {f g : Int → List Int} {H : Int} {j : Nat} (hg : Fwd H j g) (h : ∀ p, 0 ≤ p → p ≤ H → f p = g p) (z : Bool) (s k : Nat) (p : Int)
    (h0 : 0 ≤ p) (h1 : p ≤ H) : (times f s p).flatMap (rep f z k) = (times g s p).flatMap (rep g z k) := by
  rw [times_same hg h s p h0 h1]
  exact flatMap_same fun r hr => by have := times_fwd hg s p r h0 h1 hr; exact rep_same hg h z _ r (by omega) this.2

theorem ends_one {env : Env} {n : Node} (h : isOr n = false) (p : Int) : ends env [n] p = endsN env n p := by
  simp [ends, h]

mutual
theorem ends_plain {env : Env} (he : SpecOk env) :
    ∀ (l : List Node), CaseFor env (letters l) → ∀ (p : Int), 0 ≤ p → p ≤ env.stop → ends env (plain l) p = ends env l p
  | [], _, p, _, _ => rfl
  | n :: r, hc, p, h0, h1 => by
    rw [plain]
    cases h : isOr n with
    | true =>
      have e := (endsN_plain he n hc.head).2
      obtain ⟨b, rfl⟩ := plainN_or h
      simp only [plainN, List.cons_append, List.nil_append, ends, endsN, isOr, if_true]
      rw [e b rfl p h0 h1, ends_plain he r hc.tail p h0 h1]
    | false =>
      rw [ends_append env _ _ (plainN_noOr h), ends, h, if_neg (by simp), (endsN_plain he n hc.head).1 h p h0 h1]
      exact flatMap_same fun k hk => by
        have := endsN_fwd he.ok n p k h0 h1 hk
        exact ends_plain he r hc.tail k (by omega) this.2
theorem endsN_plain {env : Env} (he : SpecOk env) :
    ∀ (n : Node), CaseFor env (lettersN n) → (isOr n = false → ∀ p : Int, 0 ≤ p → p ≤ env.stop → ends env (plainN n) p = endsN env n p) ∧
      (∀ b, n = .or b → ∀ p : Int, 0 ≤ p → p ≤ env.stop → ends env (plain b) p = ends env b p)
  | .or b => fun hc => ⟨(fun h => by cases h), (fun c h => by cases h; exact ends_plain he b hc)⟩
  | .empty => fun hc => ⟨fun _ p _ _ => by simp [plainN, ends, endsN], fun c h => by cases h⟩
  | .word w => fun hc => ⟨fun _ p h0 h1 => by
      rw [plainN]
      refine le_one_eq (symbs_le env w p) (by rw [endsN]; exact chkEnds_le _) fun q => ?_
      rw [mem_ends he _ false (inFrag_symbs false w) p q h0 h1, MatchL_symbs he.ok.text w hc p q h0 h1, ← mem_endsN he (.word w) false rfl p q h0 h1],
      fun c h => by cases h⟩
  | .msym _ | .symb _ | .enum _ | .nenum _ | .bkTrace _ | .bkTraceN _ | .bkTraceName _ | .bkTraceNName _ | .bkBrack _ | .bkBrackName _ =>
    fun hc => ⟨fun _ p h0 h1 => by simp [plainN, ends, isOr], fun c h => by cases h⟩
  | .brackets _ b => fun hc => ⟨fun _ p h0 h1 => by rw [plainN, ends_one rfl, endsN, endsN, ends_plain he b hc p h0 h1], fun c h => by cases h⟩
  | .named _ b => fun hc => ⟨fun _ p h0 h1 => by rw [plainN, ends_one rfl, endsN, endsN, ends_plain he b hc p h0 h1], fun c h => by cases h⟩
  | .ahead b => fun hc => ⟨fun _ p h0 h1 => by rw [plainN, ends_one rfl, endsN, endsN, ends_plain he b hc p h0 h1], fun c h => by cases h⟩
  | .nahead b => fun hc => ⟨fun _ p h0 h1 => by rw [plainN, ends_one rfl, endsN, endsN, ends_plain he b hc p h0 h1], fun c h => by cases h⟩
  | .behind k b => fun hc => ⟨fun _ p h0 h1 => by
      rw [plainN, ends_one rfl, endsN, endsN]
      split
      · rfl
      · rw [ends_plain he b hc (p - k) (by omega) (by omega)], fun c h => by cases h⟩
  | .nbehind k b => fun hc => ⟨fun _ p h0 h1 => by
      rw [plainN, ends_one rfl, endsN, endsN]
      split
      · rfl
      · rw [ends_plain he b hc (p - k) (by omega) (by omega)], fun c h => by cases h⟩
  | .rangeN s b => fun hc => ⟨fun _ p h0 h1 => by
      rw [plainN, ends_one rfl, endsN, endsN]; exact star_same (ends_fwd he.ok b) (ends_plain he b hc) false _ p h0 h1, fun c h => by cases h⟩
  | .ngRangeN s b => fun hc => ⟨fun _ p h0 h1 => by
      rw [plainN, ends_one rfl, endsN, endsN]; exact star_same (ends_fwd he.ok b) (ends_plain he b hc) true _ p h0 h1, fun c h => by cases h⟩
  | .rangeNM s e b => fun hc => ⟨fun _ p h0 h1 => by
      rw [plainN, ends_one rfl, endsN, endsN]; exact range_same (ends_fwd he.ok b) (ends_plain he b hc) false _ _ p h0 h1, fun c h => by cases h⟩
  | .ngRangeNM s e b => fun hc => ⟨fun _ p h0 h1 => by
      rw [plainN, ends_one rfl, endsN, endsN]; exact range_same (ends_fwd he.ok b) (ends_plain he b hc) true _ _ p h0 h1, fun c h => by cases h⟩
end

/-! ## The ends of the tree -/

theorem one_le (R : Int → Int → Prop) (p : Int) : (one R p).length ≤ 1 := by
  unfold one
  split <;> simp

theorem one_mem {R : Int → Int → Prop} {p : Int} (h : ∀ q q', R p q → R p q' → q = q') (q : Int) : q ∈ one R p ↔ R p q := by
  unfold one
  split
  · rename_i hex
    have := hex.choose_spec
    simp only [List.mem_singleton]
    exact ⟨fun e => by rw [e]; exact this, fun hq => h _ _ hq this⟩
  · rename_i hno
    simp only [List.not_mem_nil, false_iff]
    exact fun hq => hno ⟨q, hq⟩

theorem leaf_ends {env : Env} (he : SpecOk env) {n : Node} {R : Int → Int → Prop} (ho : isOr n = false) (hf : inFragN false n = true) (hR : MatchN env n = R)
    (hl : ∀ p, (endsN env n p).length ≤ 1) {p : Int} (h0 : 0 ≤ p) (h1 : p ≤ env.stop) : ends env [n] p = one R p := by
  have hm : ∀ q, q ∈ endsN env n p ↔ R p q := fun q => by rw [← hR]; exact mem_endsN he n false hf p q h0 h1
  rw [ends_one ho]
  refine le_one_eq (hl p) (one_le R p) fun q => ?_
  rw [hm, one_mem]
  intro q q' a b
  rw [← hm] at a b
  have := hl p
  match hE : endsN env n p with
  | [] => rw [hE] at a; cases a
  | [c] => rw [hE] at a b; simp at a b; rw [a, b]
  | _ :: _ :: _ => rw [hE] at this; simp at this

theorem op_frag {il : Bool} {a : Re} {o : Op} (h : (Re.post a o).frag il = true) : ∃ il', a.frag il' = true := by
  cases o with
  | many z => simp only [Re.frag, Bool.and_eq_true] at h; exact ⟨_, h.2⟩
  | many1 z => simp only [Re.frag, Bool.and_eq_true] at h; exact ⟨_, h.2⟩
  | maybe z =>
    simp only [Re.frag] at h
    split at h
    · rename_i hs; simp only [Bool.and_eq_true] at hs; exact ⟨true, a.simple_frag true hs.2⟩
    · simp only [Bool.and_eq_true] at h; exact ⟨_, h.2⟩
  | exactly n z => simp only [Re.frag, Bool.and_eq_true] at h; exact ⟨true, a.simple_frag true h.2⟩
  | atLeast n z =>
    simp only [Re.frag, Bool.and_eq_true] at h
    have h := h.2
    split at h
    · exact ⟨_, h⟩
    · simp only [Bool.and_eq_true] at h; exact ⟨true, a.simple_frag true h.2⟩
  | between n m z =>
    simp only [Re.frag] at h
    split at h
    · rename_i hs; simp only [Bool.and_eq_true] at hs; exact ⟨true, a.simple_frag true hs.2⟩
    · simp only [Bool.and_eq_true] at h; exact ⟨_, h.2⟩
  | ahead => exact ⟨_, h⟩
  | nahead => exact ⟨_, h⟩
  | behind d => exact ⟨_, h⟩
  | nbehind d => exact ⟨_, h⟩

theorem times_one (f : Int → List Int) (p : Int) : times f 1 p = f p := by
  simp [times]

theorem tree_ends {x : Ctx} {env : Env} (he : SpecOk env) (e : Re) : ∀ {il : Bool} {st : CState} {u : Text}, e.Ok x st u → e.frag il = true →
    ∀ p, 0 ≤ p → p ≤ env.stop → ends env (e.tree x st) p = e.ends x env p := by
  have leafL : ∀ {e : Re} {n : Node} {st : CState} {u : Text}, e.Ok x st u → e.tree x st = [n] → isOr n = false → MatchN env n = e.L x env := by
    intro e n st u hok ht ho
    rw [← tree_L e hok, ht, MatchL_one ho]
  induction e with
  | eps => intro il st u _ _ p _ _; rfl
  | space c => intro il st u _ _ p _ _; rfl
  | chr w => intro il st u h hf p h0 h1; exact leaf_ends he rfl rfl (leafL h rfl rfl) (fun p => by rw [endsN]; exact chkEnds_le _) h0 h1
  | ctl c => intro il st u h hf p h0 h1; exact leaf_ends he rfl rfl (leafL h rfl rfl) (fun p => by rw [endsN]; exact chkEnds_le _) h0 h1
  | sym m =>
    intro il st u h hf p h0 h1
    exact leaf_ends he rfl (by simpa [inFragN, Re.frag] using hf) (leafL h rfl rfl) (fun p => by rw [endsN]; exact chkEnds_le _) h0 h1
  | cls neg k => intro il st u h hf p h0 h1; exact leaf_ends he rfl rfl (leafL h rfl rfl) (fun p => by rw [endsN]; exact chkEnds_le _) h0 h1
  | trace c => intro il st u h hf p h0 h1; exact leaf_ends he rfl rfl (leafL h rfl rfl) (fun p => by rw [endsN]; exact chkEnds_le _) h0 h1
  | traceN c => intro il st u h hf p h0 h1; exact leaf_ends he rfl rfl (leafL h rfl rfl) (fun p => by rw [endsN]; exact chkEnds_le _) h0 h1
  | traceName n => intro il st u h hf p h0 h1; exact leaf_ends he rfl rfl (leafL h rfl rfl) (fun p => by rw [endsN]; exact chkEnds_le _) h0 h1
  | ref d => intro il st u h hf; cases hf
  | refName n => intro il st u h hf; cases hf
  | group a ih => intro il st u h hf p h0 h1; rw [Re.tree, ends_one rfl, endsN, Re.ends]; exact ih h.2 hf p h0 h1
  | bare a ih => intro il st u h hf p h0 h1; rw [Re.tree, ends_one rfl, endsN, Re.ends]; exact ih h hf p h0 h1
  | named n a ih => intro il st u h hf p h0 h1; rw [Re.tree, ends_one rfl, endsN, Re.ends]; exact ih h.2.2.2 hf p h0 h1
  | cat a b iha ihb =>
    intro il st u h hf p h0 h1
    obtain ⟨k1, k2, k3, k4⟩ := h
    simp only [Re.frag, Bool.and_eq_true] at hf
    rw [Re.tree, ends_append env _ _ (tree_noOr a k3 k1), Re.ends, ← iha k3 hf.1 p h0 h1]
    exact flatMap_same fun r hr => by
      have := ends_fwd he.ok _ p r h0 h1 hr
      exact ihb k4 hf.2 r (by omega) this.2
  | alt a b iha ihb =>
    intro il st u h hf p h0 h1
    obtain ⟨k1, k3, k4⟩ := h
    simp only [Re.frag, Bool.and_eq_true] at hf
    have ho : isOr (.or (a.tree x st)) = true := rfl
    rw [Re.tree, ends, ho, if_pos rfl, endsN, Re.ends, iha k3 hf.1 p h0 h1, ihb k4 hf.2 p h0 h1]
  | post a o ih =>
    intro il st u h hf p h0 h1
    obtain ⟨k1, k2, k3⟩ := h
    obtain ⟨il', hfa⟩ := op_frag hf
    have hs : ∀ p, 0 ≤ p → p ≤ env.stop → ends env (a.tree x st) p = a.ends x env p := ih k2 hfa
    have hs' : ∀ p, 0 ≤ p → p ≤ env.stop → a.ends x env p = ends env (a.tree x st) p := fun p h0 h1 => (hs p h0 h1).symm
    have hF := ends_fwd he.ok (a.tree x st)
    rw [Re.tree, ends_one (op_isOp o _).2.1, Re.ends]
    have hstar : ∀ (z : Bool) (s : Nat), (times (ends env (a.tree x st)) s p).flatMap (star env (ends env (a.tree x st)) z) =
        (times (a.ends x env) s p).flatMap (star env (a.ends x env) z) := fun z s => (star_same hF hs' z s p h0 h1).symm
    have hst : ∀ z, star env (a.ends x env) z = fun r : Int => rep (a.ends x env) z (env.text.length - r).toNat r := fun z => by funext r; rfl
    have hrng : ∀ (z : Bool) (s k : Nat), (times (ends env (a.tree x st)) s p).flatMap (rep (ends env (a.tree x st)) z k) =
        (times (a.ends x env) s p).flatMap (rep (a.ends x env) z k) := fun z s k => (range_same hF hs' z s k p h0 h1).symm
    cases o with
    | many z =>
      have := hstar z 0
      cases z <;> simpa [Op.node, endsN, Op.ends, times, star] using this
    | many1 z =>
      have := hstar z 1
      rw [times_one, times_one] at this
      rw [hst] at this
      cases z <;> simpa [Op.node, endsN, Op.ends, times_one] using this
    | maybe z =>
      have := hrng z 0 1
      cases z <;> simpa [Op.node, endsN, Op.ends, times] using this
    | exactly n z =>
      have := hrng z (decNum n) 0
      have e : ∀ f : Int → List Int, (times f (decNum n) p).flatMap (rep f z 0) = times f (decNum n) p := fun f => by
        have : rep f z 0 = fun p => [p] := by funext p; rfl
        rw [this]; simp
      rw [e (a.ends x env)] at this
      cases z <;> simpa [Op.node, endsN, Op.ends] using this
    | atLeast n z =>
      have := hstar z (decNum n)
      rw [hst] at this
      cases z <;> simpa [Op.node, endsN, Op.ends] using this
    | between n m z =>
      have := hrng z (decNum n) (decNum m - decNum n)
      have e : ((decNum m : Int) - decNum n).toNat = decNum m - decNum n := by omega
      cases z <;> simpa [Op.node, endsN, Op.ends, e] using this
    | ahead => simp only [Op.node, endsN, Op.ends, hs p h0 h1]
    | nahead => simp only [Op.node, endsN, Op.ends, hs p h0 h1]
    | behind d =>
      simp only [Op.node, endsN, Op.ends]
      by_cases hd : p < d
      · rw [if_pos hd, if_pos (by omega)]
      · rw [if_neg hd, if_neg (by omega), hs _ (by omega) (by omega)]
    | nbehind d =>
      simp only [Op.node, endsN, Op.ends]
      by_cases hd : p < d
      · rw [if_pos hd, if_pos (by omega)]
      · rw [if_neg hd, if_neg (by omega), hs _ (by omega) (by omega)]

theorem first_eq {x : Ctx} {env : Env} {e : Re} {body : List Node} (h : ∀ p, 0 ≤ p → p ≤ env.stop → RegExp.ends env body p = e.ends x env p) (n : Nat) :
    ∀ p, 0 ≤ p → p + n ≤ env.stop → firstMatch env body n p = e.first x env n p := by
  induction n with
  | zero =>
    intro p h0 h1
    rw [firstMatch, Re.first, ← h p h0 (by omega)]
    cases RegExp.ends env body p <;> rfl
  | succ n ih =>
    intro p h0 h1
    rw [firstMatch, Re.first, ← h p h0 (by omega)]
    cases RegExp.ends env body p with
    | nil => exact ih (p + 1) (by omega) (by omega)
    | cons q l => rfl

/-- C56: which match is reported. Under the conditions of `C56_matches_what_is_written_partial` the match reported is the one the notation prefers: at
the first position, with the first alternative, the most repetitions (the fewest if lazy) that let the rest match. -/
theorem C56_the_preferred_match_partial {x : Ctx} (hx : CtxOk x) (chars : Chars) {sp fl : Text} {e : Re} (hsp : ∀ c ∈ sp, x.isSpace c = true)
    (hfl : 47 ∉ fl) (hok : e.Ok (x.withFlags fl) ⟨1, []⟩ []) (hfr : e.frag false = true) (hnm : e.noMark = true) (hm : 109 ∉ fl) :
    ∃ ex, setRE x (written sp e fl) = some (.ok ex) ∧
      ∀ (o : Obj) (a : Args) (mtch : Matches), 0 ≤ a.pos → a.pos ≤ a.eol → a.eol ≤ a.text.length → TraceOk a.back →
        (105 ∈ fl → CaseOn chars (fun c => c ∈ a.text ∨ c ∈ e.letters)) → o.startChange = false →
        o.endChange = false →
      ∃ k, ∀ fuel, k ≤ fuel → ∃ out, parse chars ex fuel o a mtch = some out ∧
        match e.first (x.withFlags fl) (envOf chars ex a) (if a.moves.getD o.moves then (a.eol - a.pos).toNat else 0) a.pos with
        | none => out.res = .ret false
        | some (s, t) => out.res = .ret true ∧ out.m.s 0 = s ∧ out.m.e 0 = t := by
  obtain ⟨body, hp, h⟩ := setRE_written hx hsp hfl hok
  refine ⟨_, h, fun o a mtch h0 h1 h2 hb hic hs hn => ?_⟩
  generalize hex : Expr.mk body (e.after ⟨1, []⟩).cMatch (e.after ⟨1, []⟩).names.length ⟨fl.contains 105, fl.contains 115, fl.contains 109⟩ true = ex
    at h ⊢
  have hbody : ex.body = body := by rw [← hex]
  have hflags : ex.flags = ⟨fl.contains 105, fl.contains 115, fl.contains 109⟩ := by rw [← hex]
  have hlet : letters ex.body = e.letters := by rw [hbody, ← letters_plain, hp, letters_plain, tree_letters]
  have hic' : ex.flags.ignoreCase = true → CaseOn chars (fun c => c ∈ a.text ∨ c ∈ letters ex.body) := by
    rw [hflags, hlet]
    intro h
    exact hic (by simpa using h)
  have hcb : CaseFor (envOf chars ex a) (letters body) := by rw [← hbody]; exact hic'
  have hct : CaseFor (envOf chars ex a) (letters (e.tree (x.withFlags fl) ⟨1, []⟩)) := by rw [tree_letters, ← hlet]; exact hic'
  have hfr' : inFrag false ex.body = true := by
    rw [hbody, ← inFrag_plain, hp, inFrag_plain]
    exact tree_frag e hok hfr
  have hnm' : RegExp.noMark ex.body = true := by rw [hbody, ← noMark_plain, hp, noMark_plain, tree_noMark e, hnm]
  have hml : ex.flags.multiLine = false := by rw [hflags]; simpa using hm
  have he : SpecOk (envOf chars ex a) := ⟨⟨Int.le_refl _, h2, hb⟩, hml⟩
  have hends : ∀ p, 0 ≤ p → p ≤ (envOf chars ex a).stop → RegExp.ends (envOf chars ex a) ex.body p = e.ends (x.withFlags fl) (envOf chars ex a) p := by
    intro p hp0 hp1
    rw [← tree_ends he e hok hfr p hp0 hp1, hbody, ← ends_plain he body hcb p hp0 hp1, hp,
      ends_plain he _ hct p hp0 hp1]
  obtain ⟨k, hk⟩ := C29_parse_finds_the_preferred_match chars ex o a mtch (by rw [← hex]) hfr' hnm' hml hic' h0 h1 h2 hb hs hn
  refine ⟨k, fun fuel hf => ?_⟩
  obtain ⟨out, ho, hr, hw⟩ := hk fuel hf
  have e1 := first_eq hends (if a.moves.getD o.moves then (a.eol - a.pos).toNat else 0) a.pos h0 (by show _ ≤ a.eol; split <;> omega)
  rw [e1] at hr hw
  refine ⟨out, ho, ?_⟩
  cases hF : e.first (x.withFlags fl) (envOf chars ex a) (if a.moves.getD o.moves then (a.eol - a.pos).toNat else 0) a.pos with
  | none => rw [hF] at hr; exact hr
  | some v =>
    obtain ⟨s, t⟩ := v
    rw [hF] at hr
    exact ⟨hr, hw s t hF⟩

end Verif.RegExp
