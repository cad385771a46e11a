import Verif.RegExp.Read
import Verif.RegExp.PlainMatch
import Verif.RegExp.Match
import Verif.RegExp.Total

/-!
# A written expression matches what it says (C56)
-/
namespace Verif.RegExp

/-! ## What is asked of a written expression, besides being written correctly -/

/-- characters taken at least -/
def Re.minLen : Re → Nat
  | .eps | .space _ | .trace _ | .traceN _ | .traceName _ | .ref _ | .refName _ => 0
  | .chr _ | .ctl _ | .cls _ _ => 1
  | .sym m => if charMeta m then 1 else 0
  | .group a | .bare a | .named _ a => a.minLen
  | .cat a b => a.minLen + b.minLen
  | .alt a b => min a.minLen b.minLen
  | .post a o => match o with
    | .many1 _ => a.minLen
    | .exactly n _ | .atLeast n _ | .between n _ _ => decNum n * a.minLen
    | .many _ | .maybe _ | .ahead | .nahead | .behind _ | .nbehind _ => 0

/-- no alternatives, no operators, no references to own groups -/
def Re.simple : Re → Bool
  | .eps | .space _ | .chr _ | .ctl _ | .sym _ | .cls _ _ | .trace _ | .traceN _ | .traceName _ => true
  | .group a | .bare a | .named _ a => a.simple
  | .cat a b => a.simple && b.simple
  | .ref _ | .refName _ | .alt _ _ | .post _ _ => false

/-- The expressions the matcher is right about (C29). `il`: inside a repetition. Not: references to own groups; repetitions of what may
match nothing; counted repetitions other than `?` of what is not `simple`; inside a repetition `?` of what is not `simple`, and `??`. -/
def Re.frag (il : Bool) : Re → Bool
  | .eps | .space _ | .chr _ | .ctl _ | .sym _ | .cls _ _ | .trace _ | .traceN _ | .traceName _ => true
  | .group a | .bare a | .named _ a => a.frag il
  | .cat a b | .alt a b => a.frag il && b.frag il
  | .ref _ | .refName _ => false
  | .post a o => match o with
    | .many _ | .many1 _ => decide (0 < a.minLen) && a.frag true
    | .maybe z => if !z && a.simple then true else !il && a.frag false
    | .exactly _ z => !z && a.simple
    | .atLeast n z => decide (0 < a.minLen) && (if decNum n ≤ 1 then a.frag true else !z && a.simple)
    | .between n m z => if !z && a.simple then decide (decNum n ≤ decNum m) else !il && decide (decNum n = 0) && decide (decNum m = 1) && a.frag false
    | .ahead | .nahead | .behind _ | .nbehind _ => a.frag false

/-- takes a character at least -/
def Re.takes : Re → Bool
  | .eps | .space _ | .trace _ | .traceN _ | .traceName _ | .ref _ | .refName _ => false
  | .chr _ | .ctl _ | .cls _ _ => true
  | .sym m => charMeta m
  | .group a | .bare a | .named _ a => a.takes
  | .cat a b => a.takes || b.takes
  | .alt a b => a.takes && b.takes
  | .post a o => match o with
    | .many1 _ => a.takes
    | .exactly n _ | .atLeast n _ | .between n _ _ => decNum n != 0 && a.takes
    | .many _ | .maybe _ | .ahead | .nahead | .behind _ | .nbehind _ => false

/-- every repeated part takes a character at least -/
def Re.repsTake : Re → Bool
  | .eps | .space _ | .chr _ | .ctl _ | .sym _ | .cls _ _ | .trace _ | .traceN _ | .traceName _ | .ref _ | .refName _ => true
  | .group a | .bare a | .named _ a => a.repsTake
  | .cat a b | .alt a b => a.repsTake && b.repsTake
  | .post a o => match o with
    | .many _ | .many1 _ | .maybe _ | .exactly _ _ | .atLeast _ _ | .between _ _ _ => a.takes && a.repsTake
    | .ahead | .nahead | .behind _ | .nbehind _ => a.repsTake

/-- without `\m`, `\M` -/
def Re.noMark : Re → Bool
  | .sym m => m != .start && m != .stop
  | .group a | .bare a | .named _ a | .post a _ => a.noMark
  | .cat a b | .alt a b => a.noMark && b.noMark
  | .eps | .space _ | .chr _ | .ctl _ | .cls _ _ | .trace _ | .traceN _ | .traceName _ | .ref _ | .refName _ => true

/-! ## The same of the tree -/

theorem tree_noOr {x : Ctx} (e : Re) : ∀ {st : CState} {u : Text}, e.Ok x st u → e.isAlt = false → ∀ n ∈ e.tree x st, isOr n = false := by
  induction e with
  | cat a b iha ihb =>
    intro st u h _ n hn
    obtain ⟨h1, h2, h3, h4⟩ := h
    rcases List.mem_append.1 hn with hn | hn
    · exact iha h3 h1 n hn
    · exact ihb h4 h2 n hn
  | alt a b _ _ => intro st u _ h; cases h
  | post a o _ =>
    intro st u _ _ n hn
    rw [Re.tree, List.mem_singleton] at hn
    subst hn
    exact (op_isOp o _).2.1
  | eps => intro st u _ _ n hn; cases hn
  | space c => intro st u _ _ n hn; cases hn
  | _ =>
    intro st u _ _ n hn
    simp only [Re.tree, List.mem_singleton] at hn
    subst hn
    rfl

theorem tree_minLen {x : Ctx} (e : Re) : ∀ {st : CState} {u : Text}, e.Ok x st u → RegExp.minLen (e.tree x st) = e.minLen := by
  induction e with
  | cat a b iha ihb =>
    intro st u h
    obtain ⟨h1, h2, h3, h4⟩ := h
    rw [Re.tree, minLen_append _ _ (tree_noOr a h3 h1), iha h3, ihb h4]; rfl
  | alt a b iha ihb =>
    intro st u h
    obtain ⟨h1, h3, h4⟩ := h
    have ho : isOr (.or (a.tree x st)) = true := rfl
    rw [Re.tree, RegExp.minLen, ho, if_pos rfl, minLenN, iha h3, ihb h4]; rfl
  | post a o ih =>
    intro st u h
    obtain ⟨h1, h2, h3⟩ := h
    have e := ih h2
    have ho := (op_isOp o (a.tree x st)).2.1
    rw [Re.tree, RegExp.minLen, ho]
    cases o <;> simp only [Op.node, Bool.false_eq_true, if_false] <;> (try split) <;> simp [minLenN, RegExp.minLen, Re.minLen, e]
  | group a ih => intro st u h; simp [Re.tree, RegExp.minLen, isOr, minLenN, Re.minLen, ih h.2]
  | bare a ih => intro st u h; simp [Re.tree, RegExp.minLen, isOr, minLenN, Re.minLen, ih h]
  | named n a ih => intro st u h; simp [Re.tree, RegExp.minLen, isOr, minLenN, Re.minLen, ih h.2.2.2]
  | _ => intro st u _; simp [Re.tree, RegExp.minLen, isOr, minLenN, Re.minLen]

theorem tree_takes {x : Ctx} (e : Re) : ∀ {st : CState} {u : Text}, e.Ok x st u → RegExp.takes (e.tree x st) = e.takes := by
  induction e with
  | cat a b iha ihb =>
    intro st u h
    obtain ⟨h1, h2, h3, h4⟩ := h
    rw [Re.tree, takes_append _ _ (tree_noOr a h3 h1), iha h3, ihb h4]; rfl
  | alt a b iha ihb =>
    intro st u h
    obtain ⟨h1, h3, h4⟩ := h
    have ho : isOr (.or (a.tree x st)) = true := rfl
    rw [Re.tree, RegExp.takes, ho, if_pos rfl, takesN, iha h3, ihb h4]; rfl
  | post a o ih =>
    intro st u h
    obtain ⟨h1, h2, h3⟩ := h
    have e := ih h2
    have ho := (op_isOp o (a.tree x st)).2.1
    have hz : ∀ k : Nat, ((k : Int) != 0) = (k != 0) := fun k => by
      by_cases h : k = 0
      · subst h; rfl
      · simp [bne, h]
    rw [Re.tree, RegExp.takes, ho]
    cases o <;> simp only [Op.node, Bool.false_eq_true, if_false] <;> (try split) <;> simp [takesN, RegExp.takes, Re.takes, e, hz]
  | group a ih => intro st u h; simp [Re.tree, RegExp.takes, isOr, takesN, Re.takes, ih h.2]
  | bare a ih => intro st u h; simp [Re.tree, RegExp.takes, isOr, takesN, Re.takes, ih h]
  | named n a ih => intro st u h; simp [Re.tree, RegExp.takes, isOr, takesN, Re.takes, ih h.2.2.2]
  | _ => intro st u _; simp [Re.tree, RegExp.takes, isOr, takesN, Re.takes]

theorem tree_simple {x : Ctx} (e : Re) : ∀ {st : CState}, RegExp.simple (e.tree x st) = e.simple := by
  induction e with
  | cat a b iha ihb => intro st; rw [Re.tree, simple_append, iha, ihb]; rfl
  | post a o ih => intro st; cases o <;> simp only [Re.tree, Op.node] <;> (try split) <;> simp [RegExp.simple, simpleN, Re.simple]
  | alt a b iha ihb => intro st; simp [Re.tree, RegExp.simple, simpleN, Re.simple]
  | group a ih => intro st; simp [Re.tree, RegExp.simple, simpleN, Re.simple, ih]
  | bare a ih => intro st; simp [Re.tree, RegExp.simple, simpleN, Re.simple, ih]
  | named n a ih => intro st; simp [Re.tree, RegExp.simple, simpleN, Re.simple, ih]
  | _ => intro st; simp [Re.tree, RegExp.simple, simpleN, Re.simple]

theorem tree_noMark {x : Ctx} (e : Re) : ∀ {st : CState}, RegExp.noMark (e.tree x st) = e.noMark := by
  induction e with
  | cat a b iha ihb => intro st; rw [Re.tree, noMark_append, iha, ihb]; rfl
  | post a o ih => intro st; cases o <;> simp only [Re.tree, Op.node] <;> (try split) <;> simp [RegExp.noMark, noMarkN, Re.noMark, ih]
  | alt a b iha ihb => intro st; simp [Re.tree, RegExp.noMark, noMarkN, Re.noMark, iha, ihb]
  | group a ih => intro st; simp [Re.tree, RegExp.noMark, noMarkN, Re.noMark, ih]
  | bare a ih => intro st; simp [Re.tree, RegExp.noMark, noMarkN, Re.noMark, ih]
  | named n a ih => intro st; simp [Re.tree, RegExp.noMark, noMarkN, Re.noMark, ih]
  | _ => intro st; simp [Re.tree, RegExp.noMark, noMarkN, Re.noMark]

theorem tree_repsTake {x : Ctx} (e : Re) : ∀ {st : CState} {u : Text}, e.Ok x st u → RegExp.repsTake (e.tree x st) = e.repsTake := by
  induction e with
  | cat a b iha ihb =>
    intro st u h
    obtain ⟨h1, h2, h3, h4⟩ := h
    rw [Re.tree, repsTake_append, iha h3, ihb h4]; rfl
  | alt a b iha ihb =>
    intro st u h
    obtain ⟨h1, h3, h4⟩ := h
    simp [Re.tree, RegExp.repsTake, repsTakeN, iha h3, ihb h4, Re.repsTake]
  | post a o ih =>
    intro st u h
    obtain ⟨h1, h2, h3⟩ := h
    have e := ih h2
    have e2 := tree_takes a h2
    cases o <;> simp only [Re.tree, Op.node] <;> (try split) <;> simp [repsTakeN, RegExp.repsTake, Re.repsTake, e, e2]
  | group a ih => intro st u h; simp [Re.tree, RegExp.repsTake, repsTakeN, Re.repsTake, ih h.2]
  | bare a ih => intro st u h; simp [Re.tree, RegExp.repsTake, repsTakeN, Re.repsTake, ih h]
  | named n a ih => intro st u h; simp [Re.tree, RegExp.repsTake, repsTakeN, Re.repsTake, ih h.2.2.2]
  | _ => intro st u _; simp [Re.tree, RegExp.repsTake, repsTakeN, Re.repsTake]

theorem Re.simple_frag (e : Re) (il : Bool) (h : e.simple = true) : e.frag il = true := by
  induction e with
  | cat a b iha ihb =>
    simp only [Re.simple, Bool.and_eq_true] at h
    simp [Re.frag, iha h.1, ihb h.2]
  | group a ih => exact ih h
  | bare a ih => exact ih h
  | named n a ih => exact ih h
  | sym m => exact h
  | alt a b => cases h
  | post a o => cases h
  | ref d => cases h
  | refName n => cases h
  | _ => rfl

theorem tree_frag {x : Ctx} (e : Re) : ∀ {il : Bool} {st : CState} {u : Text}, e.Ok x st u → e.frag il = true → inFrag il (e.tree x st) = true := by
  induction e with
  | cat a b iha ihb =>
    intro il st u h hf
    obtain ⟨h1, h2, h3, h4⟩ := h
    simp only [Re.frag, Bool.and_eq_true] at hf
    rw [Re.tree, inFrag_append, iha h3 hf.1, ihb h4 hf.2]; rfl
  | alt a b iha ihb =>
    intro il st u h hf
    obtain ⟨h1, h3, h4⟩ := h
    simp only [Re.frag, Bool.and_eq_true] at hf
    simp [Re.tree, inFrag, inFragN, iha h3 hf.1, ihb h4 hf.2]
  | post a o ih =>
    intro il st u h hf
    obtain ⟨h1, h2, h3⟩ := h
    have ih : ∀ il, a.frag il = true → inFrag il (a.tree x st) = true := fun il hf => ih h2 hf
    have em := tree_minLen a h2
    have es := tree_simple (x := x) a (st := st)
    have ef : ∀ il, a.simple = true → inFrag il (a.tree x st) = true := fun il h => ih il (Re.simple_frag a il h)
    cases o with
    | many z =>
      simp only [Re.frag, Bool.and_eq_true, decide_eq_true_eq] at hf
      cases z <;> simp [Re.tree, Op.node, inFrag, inFragN, em, hf.1, ih true hf.2]
    | many1 z =>
      simp only [Re.frag, Bool.and_eq_true, decide_eq_true_eq] at hf
      cases z <;> simp [Re.tree, Op.node, inFrag, inFragN, em, hf.1, ih true hf.2]
    | maybe z =>
      simp only [Re.frag] at hf
      cases z with
      | true =>
        simp at hf
        simp [Re.tree, Op.node, inFrag, inFragN, hf.1, ih false hf.2]
      | false =>
        cases hs : a.simple with
        | true => simp [Re.tree, Op.node, inFrag, inFragN, es, hs]
        | false =>
          simp [hs] at hf
          simp [Re.tree, Op.node, inFrag, inFragN, es, hs, hf.1, ih false hf.2]
    | exactly n z =>
      simp only [Re.frag, Bool.and_eq_true, Bool.not_eq_true'] at hf
      obtain ⟨rfl, hs⟩ := hf
      simp [Re.tree, Op.node, inFrag, inFragN, es, hs]
    | atLeast n z =>
      simp only [Re.frag, Bool.and_eq_true, decide_eq_true_eq] at hf
      obtain ⟨hf1, hf2⟩ := hf
      by_cases hn : decNum n ≤ 1
      · rw [if_pos hn] at hf2
        have hn' : (decNum n : Int) ≤ 1 := by omega
        cases z <;> simp [Re.tree, Op.node, inFrag, inFragN, em, hf1, hn', ih true hf2]
      · rw [if_neg hn] at hf2
        simp only [Bool.and_eq_true, Bool.not_eq_true'] at hf2
        obtain ⟨rfl, hs⟩ := hf2
        have hn' : ¬ (decNum n : Int) ≤ 1 := by omega
        simp [Re.tree, Op.node, inFrag, inFragN, em, hf1, hn', es, hs]
    | between n m z =>
      simp only [Re.frag] at hf
      cases z with
      | true =>
        simp at hf
        obtain ⟨⟨⟨h1, h2⟩, h3⟩, h4⟩ := hf
        simp [Re.tree, Op.node, inFrag, inFragN, h1, h2, h3, ih false h4]
      | false =>
        cases hs : a.simple with
        | true =>
          simp [hs] at hf
          simp [Re.tree, Op.node, inFrag, inFragN, es, hs, hf]
        | false =>
          simp [hs] at hf
          obtain ⟨⟨⟨h1, h2⟩, h3⟩, h4⟩ := hf
          simp [Re.tree, Op.node, inFrag, inFragN, es, hs, h1, h2, h3, ih false h4]
    | ahead => simp [Re.tree, Op.node, inFrag, inFragN, ih false hf]
    | nahead => simp [Re.tree, Op.node, inFrag, inFragN, ih false hf]
    | behind d => simp [Re.tree, Op.node, inFrag, inFragN, ih false hf]
    | nbehind d => simp [Re.tree, Op.node, inFrag, inFragN, ih false hf]
  | group a ih => intro il st u h hf; simp [Re.tree, inFrag, inFragN, ih h.2 hf]
  | bare a ih => intro il st u h hf; simp [Re.tree, inFrag, inFragN, ih h hf]
  | named n a ih => intro il st u h hf; simp [Re.tree, inFrag, inFragN, ih h.2.2.2 hf]
  | sym m => intro il st u h hf; simpa [Re.tree, inFrag, inFragN, Re.frag] using hf
  | ref d => intro il st u h hf; cases hf
  | refName n => intro il st u h hf; cases hf
  | _ => intro il st u _ _; simp [Re.tree, inFrag, inFragN]

/-! ## The meaning of the tree -/

theorem MatchL_one {env : Env} {n : Node} (h : isOr n = false) : MatchL env [n] = MatchN env n := by
  funext p q
  simp only [MatchL, h, Bool.false_eq_true, if_false]
  exact propext ⟨fun ⟨r, h1, h2⟩ => by subst h2; exact h1, fun h => ⟨q, h, rfl⟩⟩

theorem MatchN_op {env : Env} (o : Op) (b : List Node) : MatchN env (o.node b) = fun p q => o.means (MatchL env b) p q := by
  funext p q
  cases o with
  | exactly n z =>
    have : (∃ k : Nat, ((decNum n : Nat) : Int) ≤ k ∧ (k : Int) ≤ (decNum n : Nat) ∧ Iter (MatchL env b) k p q) ↔ Iter (MatchL env b) (decNum n) p q := by
      constructor
      · rintro ⟨k, h1, h2, h3⟩
        obtain rfl : k = decNum n := by omega
        exact h3
      · exact fun h => ⟨_, Int.le_refl _, Int.le_refl _, h⟩
    cases z <;> simp only [Op.node, Op.means, if_true, Bool.false_eq_true, if_false, MatchN, this]
  | behind d => simp only [Op.node, Op.means, MatchN]; congr 1; simp
  | nbehind d =>
    simp only [Op.node, Op.means, MatchN]
    have : (0 ≤ p - (d : Int)) = ((d : Int) ≤ p) := by simp
    rw [this]
  | ahead => simp only [Op.node, Op.means, MatchN]
  | nahead => simp only [Op.node, Op.means, MatchN]
  | many z => cases z <;> simp [Op.node, Op.means, MatchN]
  | many1 z =>
    have e : ∀ k : Nat, ((1 : Int) ≤ k) = (1 ≤ k) := fun k => by simp; omega
    cases z <;> simp [Op.node, Op.means, MatchN, e]
  | maybe z =>
    have e : ∀ k : Nat, ((k : Int) ≤ 1) = (k ≤ 1) := fun k => by simp; omega
    cases z <;> simp [Op.node, Op.means, MatchN, e]
  | atLeast n z => cases z <;> simp [Op.node, Op.means, MatchN]
  | between n m z => cases z <;> simp [Op.node, Op.means, MatchN]

theorem clsOf_iff {x : Ctx} {neg : Bool} {k : CR} {u : Text} (h : k.Ok x u) (d : Nat) : clsOf x neg k d = true ↔ negIf neg (k.set x fun _ => False) d := by
  have := setB_iff (x := x) k (fun _ => false) (fun _ => False) h (by simp) d
  unfold clsOf negIf
  cases neg with
  | true => simp only [if_true, Bool.not_eq_true', ← this]; simp
  | false => simpa using this

theorem tree_L {x : Ctx} {env : Env} (e : Re) : ∀ {st : CState} {u : Text}, e.Ok x st u → MatchL env (e.tree x st) = e.L x env := by
  induction e with
  | eps => intro st u _; funext p q; rfl
  | space c => intro st u _; funext p q; rfl
  | chr w => intro st u _; rw [Re.tree, MatchL_one rfl]; funext p q; rfl
  | ctl c => intro st u _; rw [Re.tree, MatchL_one rfl]; funext p q; rfl
  | sym m => intro st u _; rw [Re.tree, MatchL_one rfl]; funext p q; rfl
  | cls neg k =>
    intro st u h
    rw [Re.tree, MatchL_one rfl]
    funext p q
    have : (fun d => clsOf x neg k d = true) = negIf neg (k.set x fun _ => False) := by
      funext d; exact propext (clsOf_iff h.2.1 d)
    simp only [MatchN, Re.L, this]
  | group a ih => intro st u h; rw [Re.tree, MatchL_one rfl]; funext p q; rw [MatchN, ih h.2]; rfl
  | bare a ih => intro st u h; rw [Re.tree, MatchL_one rfl]; funext p q; rw [MatchN, ih h]; rfl
  | named n a ih => intro st u h; rw [Re.tree, MatchL_one rfl]; funext p q; rw [MatchN, ih h.2.2.2]; rfl
  | trace c => intro st u _; rw [Re.tree, MatchL_one rfl]; funext p q; rfl
  | traceN c => intro st u _; rw [Re.tree, MatchL_one rfl]; funext p q; rfl
  | traceName n =>
    intro st u h
    obtain ⟨h1, names, h2, h3⟩ := h
    rw [Re.tree, MatchL_one rfl]
    funext p q
    have e := findIdx_some h3
    simp only [MatchN, Re.L, h2, Option.getD_some]
    refine propext ⟨fun h => ⟨_, _, rfl, e, h⟩, ?_⟩
    rintro ⟨_, k, he, hk, h⟩
    cases he
    unfold bracketNo
    rw [hk]
    exact h
  | ref d => intro st u _; rw [Re.tree, MatchL_one rfl]; funext p q; rfl
  | refName n => intro st u _; rw [Re.tree, MatchL_one rfl]; funext p q; rfl
  | cat a b iha ihb =>
    intro st u h
    obtain ⟨h1, h2, h3, h4⟩ := h
    funext p q
    rw [Re.tree, MatchL_append env _ _ (tree_noOr a h3 h1), iha h3, ihb h4]
    rfl
  | alt a b iha ihb =>
    intro st u h
    obtain ⟨h1, h3, h4⟩ := h
    funext p q
    have ho : isOr (.or (a.tree x st)) = true := rfl
    rw [Re.tree, MatchL, ho, if_pos rfl, MatchN, iha h3, ihb h4]
    rfl
  | post a o ih =>
    intro st u h
    obtain ⟨h1, h2, h3⟩ := h
    rw [Re.tree, MatchL_one (op_isOp o _).2.1, MatchN_op, ih h2]
    rfl

theorem letters_append (l k : List Node) : letters (l ++ k) = letters l ++ letters k := by
  induction l with
  | nil => rfl
  | cons a r ih => simp only [List.cons_append, letters, ih, List.append_assoc]

theorem letters_symbs (w : Text) : letters (w.map .symb) = w := by
  induction w with
  | nil => rfl
  | cons c w ih => simp [letters, lettersN, ih]

theorem letters_one (n : Node) : letters [n] = lettersN n := by simp [letters]

mutual
theorem letters_plain : ∀ l : List Node, letters (plain l) = letters l
  | [] => rfl
  | n :: r => by rw [plain, letters_append, letters, letters_plain r, letters_plainN n]
theorem letters_plainN : ∀ n : Node, letters (plainN n) = lettersN n
  | .empty => rfl
  | .word w => by rw [plainN, letters_symbs, lettersN]
  | .brackets i b => by rw [plainN, letters_one, lettersN, lettersN, letters_plain b]
  | .named i b => by rw [plainN, letters_one, lettersN, lettersN, letters_plain b]
  | .ahead b => by rw [plainN, letters_one, lettersN, lettersN, letters_plain b]
  | .nahead b => by rw [plainN, letters_one, lettersN, lettersN, letters_plain b]
  | .behind _ b => by rw [plainN, letters_one, lettersN, lettersN, letters_plain b]
  | .nbehind _ b => by rw [plainN, letters_one, lettersN, lettersN, letters_plain b]
  | .or b => by rw [plainN, letters_one, lettersN, lettersN, letters_plain b]
  | .rangeN _ b => by rw [plainN, letters_one, lettersN, lettersN, letters_plain b]
  | .rangeNM _ _ b => by rw [plainN, letters_one, lettersN, lettersN, letters_plain b]
  | .ngRangeN _ b => by rw [plainN, letters_one, lettersN, lettersN, letters_plain b]
  | .ngRangeNM _ _ b => by rw [plainN, letters_one, lettersN, lettersN, letters_plain b]
  | .msym _ | .symb _ | .enum _ | .nenum _ | .bkTrace _ | .bkTraceN _ | .bkTraceName _ | .bkTraceNName _ | .bkBrack _ | .bkBrackName _ => by
    rw [plainN, letters_one]
end

theorem letters_op (o : Op) (b : List Node) : lettersN (o.node b) = letters b := by
  cases o <;> simp only [Op.node] <;> (try split) <;> simp only [lettersN]

theorem tree_letters {x : Ctx} (e : Re) : ∀ {st : CState}, letters (e.tree x st) = e.letters := by
  induction e with
  | cat a b iha ihb => intro st; rw [Re.tree, letters_append, iha, ihb, Re.letters]
  | alt a b iha ihb => intro st; rw [Re.tree, letters, lettersN, iha, ihb, Re.letters]
  | post a o ih => intro st; rw [Re.tree, letters_one, letters_op, ih, Re.letters]
  | group a ih => intro st; rw [Re.tree, letters_one, lettersN, ih, Re.letters]
  | bare a ih => intro st; rw [Re.tree, letters_one, lettersN, ih, Re.letters]
  | named n a ih => intro st; rw [Re.tree, letters_one, lettersN, ih, Re.letters]
  | _ => intro st; simp [Re.tree, letters, lettersN, Re.letters]

/-! ## The theorems -/

/-- the flags `i` and `x` -/
def Ctx.withFlags (x : Ctx) (fl : Text) : Ctx := { x with ignoreCase := fl.contains 105, extend := fl.contains 120 }

/-- an expression as it stands in a file: spaces, the expression between slashes, flags -/
def written (sp : Text) (e : Re) (fl : Text) : Text := sp ++ 47 :: (e.text ++ 47 :: fl)

theorem flagsOk {x : Ctx} (hx : CtxOk x) (fl : Text) : CtxOk (x.withFlags fl) := ⟨hx.digit, hx.small, hx.big, hx.other, hx.space, hx.graph⟩

theorem lastSlash_at {b fl : Text} (h : 47 ∉ fl) : lastSlash (b ++ 47 :: fl) = some (b, fl) := by
  unfold lastSlash
  have e : (b ++ 47 :: fl).reverse = fl.reverse ++ 47 :: b.reverse := by simp
  rw [e, span_at (fun c hc => by simp only [decide_eq_true_eq]; rintro rfl; exact h (List.mem_reverse.1 hc)) (by decide)]
  simp

theorem setRE_written {x : Ctx} (hx : CtxOk x) {sp fl : Text} {e : Re} (hsp : ∀ c ∈ sp, x.isSpace c = true) (hfl : 47 ∉ fl)
    (hok : e.Ok (x.withFlags fl) ⟨1, []⟩ []) :
    ∃ body, plain body = plain (e.tree (x.withFlags fl) ⟨1, []⟩) ∧
      setRE x (written sp e fl) = some (.ok ⟨body, (e.after ⟨1, []⟩).cMatch, (e.after ⟨1, []⟩).names.length,
        ⟨fl.contains 105, fl.contains 115, fl.contains 109⟩, true⟩) := by
  obtain ⟨segs, h1, h2, h3, h4, -⟩ := reads (flagsOk hx fl) e ⟨1, []⟩ [] hok
  rw [List.append_nil, S_nil, pushAll_ok, List.append_nil] at h3
  obtain ⟨R, hR, hp⟩ := finish_alts (x := x.withFlags fl) (t := e.text) h2 h1 (fun e0 => by
    rw [e0, S_nil] at h3
    injection h3 with h3
    exact h3.symm)
  refine ⟨R, by rw [hp, h4], ?_⟩
  have hd : (written sp e fl).dropWhile x.isSpace = 47 :: (e.text ++ 47 :: fl) := by
    unfold written
    rw [List.dropWhile_append_of_pos hsp]
    have : x.isSpace 47 = false := by
      cases hs : x.isSpace 47 with
      | false => rfl
      | true => exact absurd (by decide) (hx.space 47 hs)
    simp [this]
  have hne : written sp e fl ≠ [] := by unfold written; simp
  have hS : scan { x with ignoreCase := fl.contains 105, extend := fl.contains 120 } (e.text.length + 1) ⟨1, []⟩ e.text =
    .ok (joinOr (segs.map Prod.fst)) (e.after ⟨1, []⟩) none := h3
  have hF : finish { x with ignoreCase := fl.contains 105, extend := fl.contains 120 } e.text (joinOr (segs.map Prod.fst)) = some R := hR
  unfold setRE
  cases hw : written sp e fl with
  | nil => exact absurd hw hne
  | cons c t =>
    rw [hw] at hd
    simp only
    rw [hd]
    simp only
    rw [lastSlash_at hfl]
    dsimp only
    rw [hS]
    dsimp only
    rw [hF]

/-- C56: an expression written correctly is accepted, and it has the groups and names that were written. -/
theorem C56_accepted {x : Ctx} (hx : CtxOk x) {sp fl : Text} {e : Re} (hsp : ∀ c ∈ sp, x.isSpace c = true) (hfl : 47 ∉ fl)
    (hok : e.Ok (x.withFlags fl) ⟨1, []⟩ []) :
    ∃ ex, setRE x (written sp e fl) = some (.ok ex) ∧ ex.cMatch = (e.after ⟨1, []⟩).cMatch ∧ ex.cnMatch = (e.after ⟨1, []⟩).names.length := by
  obtain ⟨body, -, h⟩ := setRE_written hx hsp hfl hok
  exact ⟨_, h, rfl, rfl⟩

/-- C56: text to match. An expression of the fragment without the marks `\m`, `\M` (with them: C81), written correctly, is accepted; matching it ends; if it reports a match, the text from s(0) to
e(0) is one the expression stands for (`Re.L`), beginning at `pos` (or, when the search moves, at the first position from there on with a
match); if it reports none, there is none at any of the tried positions. Missing: expressions outside the fragment and the flag `m`
(for which the matcher is wrong, C29), classes with the flag `i` (for which the compiler is wrong, C57), `\Y{name}`. -/
theorem C56_matches_what_is_written_partial {x : Ctx} (hx : CtxOk x) (chars : Chars) {sp fl : Text} {e : Re} (hsp : ∀ c ∈ sp, x.isSpace c = true)
    (hfl : 47 ∉ fl) (hok : e.Ok (x.withFlags fl) ⟨1, []⟩ []) (hfr : e.frag false = true) (hnm : e.noMark = true) (hm : 109 ∉ fl) :
    ∃ ex, setRE x (written sp e fl) = some (.ok ex) ∧
      ∀ (o : Obj) (a : Args) (mtch : Matches), 0 ≤ a.pos → a.pos ≤ a.eol → a.eol ≤ a.text.length → TraceOk a.back →
        (105 ∈ fl → CaseOn chars (fun c => c ∈ a.text ∨ c ∈ e.letters)) → o.startChange = false →
        o.endChange = false →
      ∃ k, ∀ fuel, k ≤ fuel → ∃ out, parse chars ex fuel o a mtch = some out ∧
        ((out.res = .ret true ∧ e.L (x.withFlags fl) (envOf chars ex a) (out.m.s 0) (out.m.e 0) ∧
            a.pos ≤ out.m.s 0 ∧ (a.moves.getD o.moves = false → out.m.s 0 = a.pos) ∧
            ∀ p q, a.pos ≤ p → p < out.m.s 0 → ¬ e.L (x.withFlags fl) (envOf chars ex a) p q) ∨
         (out.res = .ret false ∧ ∀ p q, a.pos ≤ p → p ≤ a.eol → (a.moves.getD o.moves = false → p = a.pos) →
            ¬ e.L (x.withFlags fl) (envOf chars ex a) p q)) := by
  obtain ⟨body, hp, h⟩ := setRE_written hx hsp hfl hok
  refine ⟨_, h, fun o a mtch h0 h1 h2 hb hic hs hn => ?_⟩
  obtain ⟨-, hc, -⟩ := C55_inside_the_tables x _ _ h
  generalize hex : Expr.mk body (e.after ⟨1, []⟩).cMatch (e.after ⟨1, []⟩).names.length ⟨fl.contains 105, fl.contains 115, fl.contains 109⟩ true = ex
    at h hc ⊢
  have hbody : ex.body = body := by rw [← hex]
  have hflags : ex.flags = ⟨fl.contains 105, fl.contains 115, fl.contains 109⟩ := by rw [← hex]
  have hlet : letters ex.body = e.letters := by rw [hbody, ← letters_plain, hp, letters_plain, tree_letters]
  have hic' : ex.flags.ignoreCase = true → CaseOn chars (fun c => c ∈ a.text ∨ c ∈ letters ex.body) := by
    rw [hflags, hlet]
    intro h
    exact hic (by simpa using h)
  have hcb : CaseFor (envOf chars ex a) (letters body) := by rw [← hbody]; exact hic'
  have hct : CaseFor (envOf chars ex a) (letters (e.tree (x.withFlags fl) ⟨1, []⟩)) := by rw [tree_letters, ← hlet]; exact hic'
  have hfr' : inFrag false ex.body = true := by
    rw [hbody, ← inFrag_plain, hp, inFrag_plain]
    exact tree_frag e hok hfr
  have hnm' : RegExp.noMark ex.body = true := by rw [hbody, ← noMark_plain, hp, noMark_plain, tree_noMark e, hnm]
  have hsame : ∀ p q, 0 ≤ p → p ≤ a.eol → (MatchL (envOf chars ex a) ex.body p q ↔ e.L (x.withFlags fl) (envOf chars ex a) p q) := by
    intro p q hp0 hp1
    rw [← tree_L e hok, hbody]
    exact same_plain h2 hcb hct hp hp0 hp1
  obtain ⟨k, hk⟩ := C29_a_reported_match_is_a_match_partial chars ex o a mtch (by rw [← hex]) hfr' hnm' (by rw [hflags]; simpa using hm)
    hic' h0 h1 h2 hb hs hn
  refine ⟨k, fun fuel hf => ?_⟩
  obtain ⟨out, ho, hr⟩ := hk fuel hf
  refine ⟨out, ho, ?_⟩
  rcases hr with ⟨r1, r2, r3, r4, r5⟩ | ⟨r1, r2⟩
  · left
    obtain ⟨-, hin⟩ := C28_inside_the_text chars ex fuel o a mtch out h0 (by omega) h2 hb hc ho
    obtain ⟨-, -, q1, q2, -⟩ := hin r1
    have q3 : out.m.s 0 ≤ a.eol := by omega
    refine ⟨r1, (hsame _ _ (by omega) q3).1 r2, r3, r4, fun p q hp1 hp2 hL => r5 p q hp1 hp2 ((hsame p q (by omega) (by omega)).2 hL)⟩
  · right
    exact ⟨r1, fun p q hp1 hp2 hp3 hL => r2 p q hp1 hp2 hp3 ((hsame p q (by omega) (by omega)).2 hL)⟩

/-- C56: an expression of the fragment, with or without the marks `\m`, `\M`, written correctly, is accepted, and a call reports success if and only
if the text at one of the tried positions is one the expression stands for. -/
theorem C56_success_iff_there_is_a_match_partial {x : Ctx} (hx : CtxOk x) (chars : Chars) {sp fl : Text} {e : Re} (hsp : ∀ c ∈ sp, x.isSpace c = true)
    (hfl : 47 ∉ fl) (hok : e.Ok (x.withFlags fl) ⟨1, []⟩ []) (hfr : e.frag false = true) (hm : 109 ∉ fl) :
    ∃ ex, setRE x (written sp e fl) = some (.ok ex) ∧
      ∀ (o : Obj) (a : Args) (mtch : Matches), 0 ≤ a.pos → a.pos ≤ a.eol → a.eol ≤ a.text.length → TraceOk a.back →
        (105 ∈ fl → CaseOn chars (fun c => c ∈ a.text ∨ c ∈ e.letters)) →
      ∃ k, ∀ fuel, k ≤ fuel → ∃ out, parse chars ex fuel o a mtch = some out ∧ (out.res = .ret true ∨ out.res = .ret false) ∧
        (out.res = .ret true ↔ ∃ p q, a.pos ≤ p ∧ p ≤ a.eol ∧ (a.moves.getD o.moves = false → p = a.pos) ∧
          e.L (x.withFlags fl) (envOf chars ex a) p q) := by
  obtain ⟨body, hp, h⟩ := setRE_written hx hsp hfl hok
  refine ⟨_, h, fun o a mtch h0 h1 h2 hb hic => ?_⟩
  generalize hex : Expr.mk body (e.after ⟨1, []⟩).cMatch (e.after ⟨1, []⟩).names.length ⟨fl.contains 105, fl.contains 115, fl.contains 109⟩ true = ex
    at h ⊢
  have hbody : ex.body = body := by rw [← hex]
  have hflags : ex.flags = ⟨fl.contains 105, fl.contains 115, fl.contains 109⟩ := by rw [← hex]
  have hlet : letters ex.body = e.letters := by rw [hbody, ← letters_plain, hp, letters_plain, tree_letters]
  have hic' : ex.flags.ignoreCase = true → CaseOn chars (fun c => c ∈ a.text ∨ c ∈ letters ex.body) := by
    rw [hflags, hlet]
    intro h
    exact hic (by simpa using h)
  have hcb : CaseFor (envOf chars ex a) (letters body) := by rw [← hbody]; exact hic'
  have hct : CaseFor (envOf chars ex a) (letters (e.tree (x.withFlags fl) ⟨1, []⟩)) := by rw [tree_letters, ← hlet]; exact hic'
  have hfr' : inFrag false ex.body = true := by
    rw [hbody, ← inFrag_plain, hp, inFrag_plain]
    exact tree_frag e hok hfr
  have hsame : ∀ p q, 0 ≤ p → p ≤ a.eol → (MatchL (envOf chars ex a) ex.body p q ↔ e.L (x.withFlags fl) (envOf chars ex a) p q) := by
    intro p q hp0 hp1
    rw [← tree_L e hok, hbody]
    exact same_plain h2 hcb hct hp hp0 hp1
  obtain ⟨k, hk⟩ := C29_success_iff_there_is_a_match_partial chars ex o a mtch (by rw [← hex]) hfr' (by rw [hflags]; simpa using hm)
    hic' h0 h1 h2 hb
  refine ⟨k, fun fuel hf => ?_⟩
  obtain ⟨out, ho, hd, hr⟩ := hk fuel hf
  refine ⟨out, ho, hd, hr.trans ⟨?_, ?_⟩⟩
  · rintro ⟨p, q, i1, i2, i3, i4⟩
    exact ⟨p, q, i1, i2, i3, (hsame p q (by omega) i2).1 i4⟩
  · rintro ⟨p, q, i1, i2, i3, i4⟩
    exact ⟨p, q, i1, i2, i3, (hsame p q (by omega) i2).2 i4⟩

/-- C51 of written expressions -/
theorem C56_matching_ends {x : Ctx} (hx : CtxOk x) (chars : Chars) {sp fl : Text} {e : Re} (hsp : ∀ c ∈ sp, x.isSpace c = true)
    (hfl : 47 ∉ fl) (hok : e.Ok (x.withFlags fl) ⟨1, []⟩ []) (hr : e.repsTake = true) :
    ∃ ex, setRE x (written sp e fl) = some (.ok ex) ∧ ∀ (o : Obj) (a : Args) (mtch : Matches), a.pos ≤ a.eol →
      ∃ k out, ∀ fuel, k ≤ fuel → parse chars ex fuel o a mtch = some out := by
  obtain ⟨body, hp, h⟩ := setRE_written hx hsp hfl hok
  refine ⟨_, h, fun o a mtch h1 => C51_matching_ends_partial chars _ o a mtch ?_ h1⟩
  show RegExp.repsTake body = true
  rw [← repsTake_plain, hp, repsTake_plain, tree_repsTake e hok, hr]

/-- C30 of written expressions -/
theorem C56_no_memory {x : Ctx} (hx : CtxOk x) (chars : Chars) {sp fl : Text} {e : Re} (hsp : ∀ c ∈ sp, x.isSpace c = true)
    (hfl : 47 ∉ fl) (hok : e.Ok (x.withFlags fl) ⟨1, []⟩ []) (hr : e.noMark = true) :
    ∃ ex, setRE x (written sp e fl) = some (.ok ex) ∧ ∀ (history : List (Nat × Args × Matches)) (o0 o : Obj), uses chars ex history o0 = some o →
      ∀ (fuel : Nat) (a : Args) (mt mt' : Matches), SameResult ex (parse chars ex fuel o a mt) (parse chars ex fuel o0 a mt') := by
  obtain ⟨body, hp, h⟩ := setRE_written hx hsp hfl hok
  refine ⟨_, h, fun history o0 o ho fuel a mt mt' => C30_calls_do_not_depend_on_earlier_calls_partial chars _ ?_ history o0 o ho fuel a mt mt'⟩
  show RegExp.noMark body = true
  rw [← noMark_plain, hp, noMark_plain, tree_noMark e, hr]

/-- C57: a class stands for the characters it describes: at every place of an expression (`u`: the text behind it), `[…]` or `[^…]` written correctly is
read to its `]`, and the characters accepted are those of the set `CR.set`. Missing: `\W` and `\S` in classes and the flag `i`, for which
it is false. -/
theorem C57_a_class_is_the_set_it_describes_partial {x : Ctx} (hx : CtxOk x) {neg : Bool} {k : CR} {u : Text}
    (h1 : neg = false → k.text.head? ≠ some 94) (h2 : k.Ok x (93 :: u)) :
    ∃ s, createCharClass x false (bra neg ++ (k.text ++ [93]) ++ u) = some (some (s, u)) ∧ ∀ d, s d = true ↔ negIf neg (k.set x fun _ => False) d := by
  refine ⟨clsOf x neg k, ?_, clsOf_iff h2⟩
  exact class_read hx h1 h2

end Verif.RegExp
