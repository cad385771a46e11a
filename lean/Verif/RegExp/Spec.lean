import Verif.RegExp.Quick

/-!
# What an expression matches (specification for C29)

`ends l p`: the positions where a match of the chain `l` that begins at `p` may end, the preferred one first (an earlier alternative
before a later one, one more repetition before none unless the repetition is lazy). It says nothing about stacks, counters or node
fields. `MatchL` (Verif.RegExp.Lang) is the same without the order, as a relation.
-/
namespace Verif.RegExp

/-- one test -/
def chkEnds : Chk → List Int
  | .yes q => [q]
  | _ => []

/-- exactly `k` repetitions -/
def times (f : Int → List Int) : Nat → Int → List Int
  | 0, p => [p]
  | k + 1, p => (f p).flatMap (times f k)

/-- at most `n` repetitions -/
def rep (f : Int → List Int) (lzy : Bool) : Nat → Int → List Int
  | 0, p => [p]
  | n + 1, p => if lzy then p :: (f p).flatMap (rep f lzy n) else (f p).flatMap (rep f lzy n) ++ [p]

/-- any number of repetitions (each one takes a character, so there are no more than characters left) -/
def star (env : Env) (f : Int → List Int) (lzy : Bool) (p : Int) : List Int := rep f lzy (env.text.length - p).toNat p

mutual
def ends (env : Env) : List Node → Int → List Int
  | [], p => [p]
  | n :: ns, p => if isOr n then endsN env n p ++ ends env ns p else (endsN env n p).flatMap (ends env ns)
def endsN (env : Env) : Node → Int → List Int
  | .empty, p => [p]
  | .msym k, p => chkEnds (checkMeta env k p)
  | .symb c, p => chkEnds (eat env p (symEq env c))
  | .word w, p => chkEnds (checkWord env w p)
  | .enum cls, p => chkEnds (eat env p cls)
  | .nenum cls, p => chkEnds (eat env p fun c => !cls c)
  | .brackets _ b, p => ends env b p
  | .named _ b, p => ends env b p
  | .bkTrace k, p => chkEnds (checkTrace env false false k p)
  | .bkTraceN k, p => chkEnds (checkTrace env false true k p)
  | .bkTraceName k, p => chkEnds (checkTrace env true false k p)
  | .bkTraceNName k, p => chkEnds (checkTrace env true true k p)
  | .bkBrack _, _ => []
  | .bkBrackName _, _ => []
  | .ahead b, p => if ends env b p = [] then [] else [p]
  | .nahead b, p => if ends env b p = [] then [p] else []
  | .behind k b, p => if p - k < 0 then [] else if ends env b (p - k) = [] then [] else [p]
  | .nbehind k b, p => if p - k < 0 then [p] else if ends env b (p - k) = [] then [p] else []
  | .or b, p => ends env b p
  | .rangeN s b, p => (times (ends env b) s.toNat p).flatMap (star env (ends env b) false)
  | .ngRangeN s b, p => (times (ends env b) s.toNat p).flatMap (star env (ends env b) true)
  | .rangeNM s e b, p => (times (ends env b) s.toNat p).flatMap (rep (ends env b) false (e - s).toNat)
  | .ngRangeNM s e b, p => (times (ends env b) s.toNat p).flatMap (rep (ends env b) true (e - s).toNat)
end

/-! ## The fragment -/

/-- metas that take a character -/
def charMeta : Meta → Bool
  | .any | .digit | .ndigit | .word | .nword | .space | .nspace | .upper | .lower => true
  | _ => false

mutual
/-- characters taken at least -/
def minLen : List Node → Nat
  | [] => 0
  | n :: ns => if isOr n then min (minLenN n) (minLen ns) else minLenN n + minLen ns
def minLenN : Node → Nat
  | .msym k => if charMeta k then 1 else 0
  | .symb _ | .enum _ | .nenum _ => 1
  | .word w => w.length
  | .brackets _ b | .named _ b | .or b => minLen b
  | .rangeN s b | .ngRangeN s b | .rangeNM s _ b | .ngRangeNM s _ b => s.toNat * minLen b
  | .empty | .bkTrace _ | .bkTraceN _ | .bkTraceName _ | .bkTraceNName _ | .bkBrack _ | .bkBrackName _ | .ahead _ | .nahead _
  | .behind _ _ | .nbehind _ _ => 0
end

mutual
/-- no choices: tests, and brackets around them -/
def simple : List Node → Bool
  | [] => true
  | n :: ns => simpleN n && simple ns
def simpleN : Node → Bool
  | .empty | .msym _ | .symb _ | .word _ | .enum _ | .nenum _ | .bkTrace _ | .bkTraceN _ | .bkTraceName _ => true
  | .brackets _ b | .named _ b => simple b
  | .bkTraceNName _ | .bkBrack _ | .bkBrackName _ | .ahead _ | .nahead _ | .behind _ _ | .nbehind _ _ | .or _ | .rangeN _ _ | .rangeNM _ _ _ | .ngRangeN _ _
  | .ngRangeNM _ _ _ => false
end

mutual
/-- The expressions for which the matcher does what the specification says. `il`: inside the body of a repetition. Excluded:
references to own groups; `\Y{name}` (compares with the wrong group); repetitions whose body may match nothing; counted repetitions, other than `?`, of a body with choices; `?` of a
body with choices, and `??`, inside a repetition. -/
def inFrag (il : Bool) : List Node → Bool
  | [] => true
  | n :: ns => inFragN il n && inFrag il ns
def inFragN (il : Bool) : Node → Bool
  | .empty | .msym _ | .symb _ | .word _ | .enum _ | .nenum _ | .bkTrace _ | .bkTraceN _ | .bkTraceName _ => true
  | .bkTraceNName _ | .bkBrack _ | .bkBrackName _ => false
  | .brackets _ b | .named _ b | .or b => inFrag il b
  | .ahead b | .nahead b | .behind _ b | .nbehind _ b => inFrag false b
  | .rangeN s b => decide (0 ≤ s) && decide (0 < minLen b) && (if s ≤ 1 then inFrag true b else simple b)
  | .ngRangeN s b => decide (0 ≤ s) && decide (s ≤ 1) && decide (0 < minLen b) && inFrag true b
  | .rangeNM s e b => if simple b then decide (0 ≤ s) && decide (s ≤ e) else !il && decide (s = 0) && decide (e = 1) && inFrag il b
  | .ngRangeNM s e b => !il && decide (s = 0) && decide (e = 1) && inFrag il b
end

/-! ## Bounds of the ends -/

theorem chkEnds_ok {H p q : Int} {c : Chk} (h : ChkOk H p c) (hq : q ∈ chkEnds c) : p ≤ q ∧ q ≤ H := by
  cases c with
  | no => simp [chkEnds] at hq
  | oob => simp [chkEnds] at hq
  | yes r => simp only [chkEnds, List.mem_singleton] at hq; subst hq; exact h.2 _ rfl

/-- `f` goes forward by at least `k` and stays in the text -/
def Fwd (H : Int) (k : Nat) (f : Int → List Int) : Prop := ∀ p q, 0 ≤ p → p ≤ H → q ∈ f p → p + k ≤ q ∧ q ≤ H

theorem times_fwd {H : Int} {f : Int → List Int} {j : Nat} (h : Fwd H j f) (k : Nat) : Fwd H (k * j) (times f k) := by
  induction k with
  | zero => intro p q h0 h1 hq; simp only [times, List.mem_singleton] at hq; subst hq; simp; omega
  | succ k ih =>
    intro p q h0 h1 hq
    simp only [times, List.mem_flatMap] at hq
    obtain ⟨r, hr, hq⟩ := hq
    have a := h p r h0 h1 hr
    have b := ih r q (by omega) a.2 hq
    refine ⟨?_, b.2⟩
    have : ((k + 1) * j : Nat) = k * j + j := by rw [Nat.add_mul]; omega
    omega

theorem rep_fwd {H : Int} {f : Int → List Int} {lzy : Bool} {j : Nat} (h : Fwd H j f) (n : Nat) : Fwd H 0 (rep f lzy n) := by
  induction n with
  | zero => intro p q h0 h1 hq; simp only [rep, List.mem_singleton] at hq; subst hq; simp; omega
  | succ n ih =>
    intro p q h0 h1 hq
    have key : q = p ∨ q ∈ (f p).flatMap (rep f lzy n) := by
      rw [rep] at hq
      cases lzy <;> simp at hq ⊢ <;> grind
    rcases key with rfl | hq
    · simp; omega
    · simp only [List.mem_flatMap] at hq
      obtain ⟨r, hr, hq⟩ := hq
      have a := h p r h0 h1 hr
      have b := ih r q (by omega) a.2 hq
      omega

theorem flatMap_fwd {H : Int} {f g : Int → List Int} {j k : Nat} (hf : Fwd H j f) (hg : Fwd H k g) : Fwd H (j + k) fun p => (f p).flatMap g := by
  intro p q h0 h1 hq
  simp only [List.mem_flatMap] at hq
  obtain ⟨r, hr, hq⟩ := hq
  have a := hf p r h0 h1 hr
  have b := hg r q (by omega) a.2 hq
  omega

theorem Fwd.mono {H : Int} {f : Int → List Int} {j k : Nat} (h : Fwd H j f) (hk : k ≤ j) : Fwd H k f := by
  intro p q h0 h1 hq
  have := h p q h0 h1 hq
  omega

theorem chk_fwd {H : Int} {c : Int → Chk} (h : ∀ p, 0 ≤ p → p ≤ H → ChkOk H p (c p)) : Fwd H 0 fun p => chkEnds (c p) := by
  intro p q h0 h1 hq
  have := chkEnds_ok (h p h0 h1) hq
  omega

theorem eat_fwd {env : Env} {H : Int} (he : EnvOk env H) (f : Nat → Bool) : Fwd H 1 fun p => chkEnds (eat env p f) := by
  intro p q h0 h1 hq
  have a := chkEnds_ok (chk_eat he h0 f) hq
  refine ⟨?_, a.2⟩
  dsimp only at hq
  revert hq
  unfold eat
  split
  · simp [chkEnds]
  · cases rd env.text p with
    | none => simp [chkEnds]
    | some d =>
      dsimp only
      split
      · simp [chkEnds]; omega
      · simp [chkEnds]

theorem cmpLoop_len {env : Env} {guard : Bool} {src : Int → Option Nat} {eq : Nat → Nat → Bool} (n : Nat) :
    ∀ {i q q' : Int}, cmpLoop env guard src eq n i q = .yes q' → q' = q + n := by
  induction n with
  | zero => intro i q q' h; simp only [cmpLoop, Chk.yes.injEq] at h; omega
  | succ n ih =>
    intro i q q' h
    simp only [cmpLoop] at h
    split at h
    · cases h
    · split at h
      · split at h
        · have := ih h; omega
        · cases h
      · cases h

theorem word_fwd {env : Env} {H : Int} (he : EnvOk env H) (w : Text) : Fwd H w.length fun p => chkEnds (checkWord env w p) := by
  intro p q h0 h1 hq
  have a := chkEnds_ok (chk_word he w h0 h1) hq
  refine ⟨?_, a.2⟩
  have : checkWord env w p = .yes q := by
    dsimp only at hq
    revert hq
    cases checkWord env w p <;> simp [chkEnds]
    exact fun h => h.symm
  unfold checkWord at this
  repeat' split at this
  all_goals first
    | cases this
    | (have h2 := cmpLoop_len _ this; omega)
  omega

theorem meta_fwd {env : Env} {H : Int} (he : EnvOk env H) (k : Meta) : Fwd H (if charMeta k then 1 else 0) fun p => chkEnds (checkMeta env k p) := by
  cases k <;> simp only [charMeta, Bool.false_eq_true, if_true, if_false] <;> first
    | exact eat_fwd he _
    | exact chk_fwd fun p h0 h1 => chk_meta he h0 h1 _

mutual
theorem ends_fwd {env : Env} {H : Int} (he : EnvOk env H) : ∀ l : List Node, Fwd H (minLen l) (ends env l)
  | [] => by intro p q h0 h1 hq; simp only [ends, List.mem_singleton] at hq; subst hq; simp [minLen]; omega
  | n :: ns => by
    have a := endsN_fwd he n
    have b := ends_fwd he ns
    rw [minLen]
    cases ho : isOr n with
    | true =>
      simp only [if_true]
      intro p q h0 h1 hq
      rw [ends, ho, if_pos rfl, List.mem_append] at hq
      rcases hq with hq | hq
      · have := a p q h0 h1 hq; omega
      · have := b p q h0 h1 hq; omega
    | false =>
      simp only [Bool.false_eq_true, if_false]
      intro p q h0 h1 hq
      rw [ends, ho] at hq
      exact flatMap_fwd a b p q h0 h1 hq
theorem endsN_fwd {env : Env} {H : Int} (he : EnvOk env H) : ∀ n : Node, Fwd H (minLenN n) (endsN env n)
  | .empty => by intro p q h0 h1 hq; simp only [endsN, List.mem_singleton] at hq; subst hq; simp [minLenN]; omega
  | .msym k => by have := meta_fwd he k; intro p q h0 h1 hq; rw [endsN] at hq; rw [minLenN]; exact this p q h0 h1 hq
  | .symb c => by intro p q h0 h1 hq; rw [endsN] at hq; rw [minLenN]; exact eat_fwd he _ p q h0 h1 hq
  | .enum c => by intro p q h0 h1 hq; rw [endsN] at hq; rw [minLenN]; exact eat_fwd he _ p q h0 h1 hq
  | .nenum c => by intro p q h0 h1 hq; rw [endsN] at hq; rw [minLenN]; exact eat_fwd he _ p q h0 h1 hq
  | .word w => by intro p q h0 h1 hq; rw [endsN] at hq; rw [minLenN]; exact word_fwd he _ p q h0 h1 hq
  | .brackets _ b => by intro p q h0 h1 hq; rw [endsN] at hq; rw [minLenN]; exact ends_fwd he b p q h0 h1 hq
  | .named _ b => by intro p q h0 h1 hq; rw [endsN] at hq; rw [minLenN]; exact ends_fwd he b p q h0 h1 hq
  | .or b => by intro p q h0 h1 hq; rw [endsN] at hq; rw [minLenN]; exact ends_fwd he b p q h0 h1 hq
  | .bkTrace k => by
    intro p q h0 h1 hq; rw [endsN] at hq; rw [minLenN]; exact chk_fwd (fun p h0 h1 => chk_trace he _ _ k h0 h1) p q h0 h1 hq
  | .bkTraceN k => by
    intro p q h0 h1 hq; rw [endsN] at hq; rw [minLenN]; exact chk_fwd (fun p h0 h1 => chk_trace he _ _ k h0 h1) p q h0 h1 hq
  | .bkTraceName k => by
    intro p q h0 h1 hq; rw [endsN] at hq; rw [minLenN]; exact chk_fwd (fun p h0 h1 => chk_trace he _ _ k h0 h1) p q h0 h1 hq
  | .bkTraceNName k => by
    intro p q h0 h1 hq; rw [endsN] at hq; rw [minLenN]; exact chk_fwd (fun p h0 h1 => chk_trace he _ _ k h0 h1) p q h0 h1 hq
  | .bkBrack k => by intro p q h0 h1 hq; rw [endsN] at hq; cases hq
  | .bkBrackName k => by intro p q h0 h1 hq; rw [endsN] at hq; cases hq
  | .ahead b => by
    intro p q h0 h1 hq; rw [endsN] at hq; rw [minLenN]
    split at hq
    · cases hq
    · simp only [List.mem_singleton] at hq; subst hq; simp; omega
  | .nahead b => by
    intro p q h0 h1 hq; rw [endsN] at hq; rw [minLenN]
    split at hq
    · simp only [List.mem_singleton] at hq; subst hq; simp; omega
    · cases hq
  | .behind k b => by
    intro p q h0 h1 hq; rw [endsN] at hq; rw [minLenN]
    repeat' split at hq
    all_goals first
      | cases hq; done
      | (simp only [List.mem_singleton] at hq; subst hq; simp; omega)
  | .nbehind k b => by
    intro p q h0 h1 hq; rw [endsN] at hq; rw [minLenN]
    repeat' split at hq
    all_goals first
      | cases hq; done
      | (simp only [List.mem_singleton] at hq; subst hq; simp; omega)
  | .rangeN s b => by
    intro p q h0 h1 hq; rw [endsN] at hq; rw [minLenN]
    have a := ends_fwd he b
    exact flatMap_fwd (times_fwd a _) (k := 0) (fun p q h0 h1 hq => rep_fwd a _ p q h0 h1 hq) p q h0 h1 hq
  | .ngRangeN s b => by
    intro p q h0 h1 hq; rw [endsN] at hq; rw [minLenN]
    have a := ends_fwd he b
    exact flatMap_fwd (times_fwd a _) (k := 0) (fun p q h0 h1 hq => rep_fwd a _ p q h0 h1 hq) p q h0 h1 hq
  | .rangeNM s e b => by
    intro p q h0 h1 hq; rw [endsN] at hq; rw [minLenN]
    have a := ends_fwd he b
    exact flatMap_fwd (times_fwd a _) (k := 0) (rep_fwd a _) p q h0 h1 hq
  | .ngRangeNM s e b => by
    intro p q h0 h1 hq; rw [endsN] at hq; rw [minLenN]
    have a := ends_fwd he b
    exact flatMap_fwd (times_fwd a _) (k := 0) (rep_fwd a _) p q h0 h1 hq
end

end Verif.RegExp
