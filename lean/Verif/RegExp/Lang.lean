import Verif.RegExp.Exact

/-!
# The language of an expression (specification for C29)

`MatchL env l p q`: the text from `p` to `q` matches the chain `l`. Written from the meaning of the expressions only: no stack, no node
fields, no order. `^` and `$` are the ends of the text (flag `m` off). The proofs relate it to `ends` and so to the matcher.
-/
namespace Verif.RegExp

/-- the character at `p`, before the end, satisfies `P`, and `q` is behind it -/
def Take (env : Env) (P : Nat → Prop) (p q : Int) : Prop := q = p + 1 ∧ p < env.stop ∧ ∃ d, env.text[p.toNat]? = some d ∧ P d

/-- a word character (letter, digit, underscore) stands at `i` -/
def WordAt (env : Env) (i : Int) : Prop := 0 ≤ i ∧ i < env.stop ∧ ∃ d, env.text[i.toNat]? = some d ∧ (env.chars.isLetterOrDigit d = true ∨ d = 0x5F)

def MetaAt (env : Env) (k : Meta) (p q : Int) : Prop :=
  match k with
  | .any => Take env (fun d => env.flags.singleLine = true ∨ d ∉ [0x0A, 0x0B, 0x0C, 0x0D, 0x85, 0x2028, 0x2029]) p q
  | .sol => q = p ∧ p = 0
  | .eol => q = p ∧ p = env.stop
  | .digit => Take env (fun d => env.chars.isDigit d = true) p q
  | .ndigit => Take env (fun d => env.chars.isDigit d = false) p q
  | .word => Take env (fun d => env.chars.isLetterOrDigit d = true ∨ d = 0x5F) p q
  | .nword => Take env (fun d => ¬ (env.chars.isLetterOrDigit d = true ∨ d = 0x5F)) p q
  | .space => Take env (fun d => env.chars.isSpace d = true) p q
  | .nspace => Take env (fun d => env.chars.isSpace d = false) p q
  | .upper => Take env (fun d => env.chars.isUpper d = true) p q
  | .lower => Take env (fun d => env.chars.isLower d = true) p q
  | .wbound => q = p ∧ ¬ (WordAt env p ↔ WordAt env (p - 1))
  | .nwbound => q = p ∧ (WordAt env p ↔ WordAt env (p - 1))
  | .preNW => q = p ∧ (p = env.stop ∨ p = 0 ∨ ∃ d, env.text[(p - 1).toNat]? = some d ∧ env.chars.isLetter d = false)
  | .soScheme => q = p ∧ p = env.schemeStart
  | .start | .stop => q = p
  | .bad => False

/-- from `p` on there stand `n` characters that agree (`eq`) with those of `t` from `i` on -/
def Copy (env : Env) (t : Text) (eq : Nat → Nat → Prop) (i : Int) (n : Nat) (p q : Int) : Prop :=
  q = p + n ∧ q ≤ env.stop ∧ ∀ j : Nat, j < n → ∃ c d, env.text[(p + j).toNat]? = some c ∧ t[(i + j).toNat]? = some d ∧ eq c d

/-- the group from `s` to `e` of the text of the start expression -/
def TraceAt (env : Env) (s e : Matches → Int) (eq : Nat → Nat → Prop) (p q : Int) : Prop :=
  ∃ t tr, env.back = some (t, tr) ∧ Copy env t eq (s tr) (e tr - s tr).toNat p q

/-- `k` times -/
def Iter (R : Int → Int → Prop) : Nat → Int → Int → Prop
  | 0, p, q => q = p
  | k + 1, p, q => ∃ r, R p r ∧ Iter R k r q

mutual
def MatchL (env : Env) : List Node → Int → Int → Prop
  | [], p, q => q = p
  | n :: ns, p, q => if isOr n then MatchN env n p q ∨ MatchL env ns p q else ∃ r, MatchN env n p r ∧ MatchL env ns r q
def MatchN (env : Env) : Node → Int → Int → Prop
  | .empty, p, q => q = p
  | .msym k, p, q => MetaAt env k p q
  | .symb c, p, q => Take env (fun d => if env.flags.ignoreCase = true then
      env.chars.lower d = env.chars.lower c ∨ env.chars.upper d = env.chars.upper c else d = c) p q
  | .word w, p, q => if env.flags.ignoreCase = true then
      q = p + w.length ∧ q ≤ env.stop ∧ env.chars.caseEq ((env.text.drop p.toNat).take w.length) w = true
      else Copy env w (fun c d => c = d) 0 w.length p q
  | .enum cls, p, q => Take env (fun d => cls d = true) p q
  | .nenum cls, p, q => Take env (fun d => cls d = false) p q
  | .brackets _ b, p, q => MatchL env b p q
  | .named _ b, p, q => MatchL env b p q
  | .bkTrace k, p, q => TraceAt env (fun tr => tr.s k) (fun tr => tr.e k) (fun c d => c = d) p q
  | .bkTraceN k, p, q => TraceAt env (fun tr => tr.s k) (fun tr => tr.e k) (fun c d => env.chars.lower c = env.chars.lower d) p q
  | .bkTraceName k, p, q => TraceAt env (fun tr => tr.ns k) (fun tr => tr.ne k) (fun c d => c = d) p q
  | .bkTraceNName k, p, q => TraceAt env (fun tr => tr.ns k) (fun tr => tr.ne k) (fun c d => env.chars.lower c = env.chars.lower d) p q
  | .bkBrack _, _, _ => False
  | .bkBrackName _, _, _ => False
  | .ahead b, p, q => q = p ∧ ∃ r, MatchL env b p r
  | .nahead b, p, q => q = p ∧ ¬ ∃ r, MatchL env b p r
  | .behind k b, p, q => q = p ∧ 0 ≤ p - k ∧ ∃ r, MatchL env b (p - k) r
  | .nbehind k b, p, q => q = p ∧ ¬ (0 ≤ p - k ∧ ∃ r, MatchL env b (p - k) r)
  | .or b, p, q => MatchL env b p q
  | .rangeN s b, p, q => ∃ k, s ≤ (k : Nat) ∧ Iter (MatchL env b) k p q
  | .ngRangeN s b, p, q => ∃ k, s ≤ (k : Nat) ∧ Iter (MatchL env b) k p q
  | .rangeNM s e b, p, q => ∃ k, s ≤ (k : Nat) ∧ (k : Nat) ≤ e ∧ Iter (MatchL env b) k p q
  | .ngRangeNM s e b, p, q => ∃ k, s ≤ (k : Nat) ∧ (k : Nat) ≤ e ∧ Iter (MatchL env b) k p q
end

/-! ## Single tests -/

theorem chkEnds_mem {c : Chk} {q : Int} : q ∈ chkEnds c ↔ c = .yes q := by
  cases c <;> simp [chkEnds]
  exact eq_comm

theorem rd_pos {t : Text} {i : Int} (h : 0 ≤ i) : rd t i = t[i.toNat]? := by simp [rd, h]

theorem eat_iff {env : Env} {f : Nat → Bool} {P : Nat → Prop} (hP : ∀ d, f d = true ↔ P d) {p q : Int} (h0 : 0 ≤ p) :
    q ∈ chkEnds (eat env p f) ↔ Take env P p q := by
  rw [chkEnds_mem]
  unfold eat Take
  rw [rd_pos h0]
  by_cases h : env.stop ≤ p
  · simp [h]; omega
  · rw [if_neg h]
    cases hd : env.text[p.toNat]? with
    | none => simp
    | some d =>
      dsimp only
      cases hf : f d with
      | false =>
        simp only [Bool.false_eq_true, if_false]
        simp only [reduceCtorEq, Option.some.injEq, exists_eq_left', false_iff]
        rintro ⟨_, _, x⟩
        rw [← hP] at x
        simp [hf] at x
      | true =>
        simp only [if_true, Chk.yes.injEq, Option.some.injEq, exists_eq_left', ← hP, hf, and_true]
        omega

theorem hold_iff {p q : Int} {b : Bool} : q ∈ chkEnds (hold p b) ↔ q = p ∧ b = true := by
  rw [chkEnds_mem]
  cases b <;> simp [hold]
  exact eq_comm

theorem andAt_iff {env : Env} {g : Bool} {i : Int} {f : Nat → Bool} (h : g = true → 0 ≤ i ∧ i < env.text.length) :
    ∃ b, andAt env g i f = some b ∧ (b = true ↔ g = true ∧ ∃ d, env.text[i.toNat]? = some d ∧ f d = true) := by
  cases g with
  | false => exact ⟨false, rfl, by simp⟩
  | true =>
    obtain ⟨h0, h1⟩ := h rfl
    obtain ⟨c, hc⟩ := rd_some h0 h1
    refine ⟨f c, by simp [andAt, hc], ?_⟩
    rw [rd_pos h0] at hc
    simp [hc]

theorem isWordChar_iff {env : Env} {d : Nat} : isWordChar env d = true ↔ (env.chars.isLetterOrDigit d = true ∨ d = 0x5F) := by
  simp [isWordChar]

theorem wordBoundary_iff {env : Env} (hs : env.stop ≤ env.text.length) {p : Int} (h0 : 0 ≤ p) (h1 : p ≤ env.stop) :
    ∃ b, wordBoundary env p = some b ∧ (b = true ↔ ¬ (WordAt env p ↔ WordAt env (p - 1))) := by
  obtain ⟨x, hx, hx'⟩ := andAt_iff (env := env) (g := decide (p < env.stop)) (i := p) (f := isWordChar env)
    (by intro h; have := of_decide_eq_true h; omega)
  obtain ⟨y, hy, hy'⟩ := andAt_iff (env := env) (g := decide (0 < p)) (i := p - 1) (f := isWordChar env)
    (by intro h; have := of_decide_eq_true h; omega)
  refine ⟨x != y, by simp [wordBoundary, hx, hy], ?_⟩
  have ex : x = true ↔ WordAt env p := by
    rw [hx', decide_eq_true_eq]
    simp only [isWordChar_iff]
    exact ⟨fun h => ⟨h0, h.1, h.2⟩, fun h => ⟨h.2.1, h.2.2⟩⟩
  have ey : y = true ↔ WordAt env (p - 1) := by
    rw [hy', decide_eq_true_eq]
    simp only [isWordChar_iff]
    exact ⟨fun h => ⟨by omega, by omega, h.2⟩, fun h => ⟨by have := h.1; omega, h.2.2⟩⟩
  rw [← ex, ← ey]
  cases x <;> cases y <;> simp

theorem meta_iff {env : Env} (hml : env.flags.multiLine = false) (hs : env.stop ≤ env.text.length) {k : Meta}
    {p q : Int} (h0 : 0 ≤ p) (h1 : p ≤ env.stop) : q ∈ chkEnds (checkMeta env k p) ↔ MetaAt env k p q := by
  cases k with
  | bad => simp [checkMeta, MetaAt, chkEnds]
  | any => exact eat_iff (fun d => by simp [isEol, and_assoc]) h0
  | sol => simp only [checkMeta, hml, MetaAt, Bool.false_eq_true, if_false]; rw [hold_iff]; simp
  | eol => simp only [checkMeta, hml, MetaAt, Bool.false_eq_true, if_false]; rw [hold_iff]; simp [eq_comm]
  | soScheme => simp only [checkMeta, MetaAt]; rw [hold_iff]; simp [eq_comm]
  | digit => exact eat_iff (fun d => by simp) h0
  | ndigit => exact eat_iff (fun d => by simp) h0
  | word => exact eat_iff (fun d => isWordChar_iff) h0
  | nword => exact eat_iff (fun d => by rw [← isWordChar_iff]; simp) h0
  | space => exact eat_iff (fun d => by simp) h0
  | nspace => exact eat_iff (fun d => by simp) h0
  | upper => exact eat_iff (fun d => by simp) h0
  | lower => exact eat_iff (fun d => by simp) h0
  | wbound =>
    obtain ⟨b, hb, hb'⟩ := wordBoundary_iff hs h0 h1
    simp only [checkMeta, MetaAt, hb, holdO]
    rw [hold_iff, hb']
  | nwbound =>
    obtain ⟨b, hb, hb'⟩ := wordBoundary_iff hs h0 h1
    simp only [checkMeta, MetaAt, hb, holdO, Option.map_some]
    rw [hold_iff, Bool.not_eq_true', ← Bool.not_eq_true, hb', Classical.not_not]
  | preNW =>
    simp only [checkMeta, MetaAt]
    by_cases h : env.stop ≤ p
    · have : p = env.stop := by omega
      rw [if_pos h, chkEnds_mem]
      simp [this]
      exact eq_comm
    · rw [if_neg h]
      obtain ⟨b, hb, hb'⟩ := andAt_iff (env := env) (g := decide (p ≠ 0)) (i := p - 1) (f := env.chars.isLetter)
        (by intro h; have := of_decide_eq_true h; omega)
      simp only [hb, holdO, Option.map_some]
      rw [hold_iff, Bool.not_eq_true', ← Bool.not_eq_true, hb', decide_eq_true_eq]
      refine and_congr_right fun _ => ?_
      have hlt : (p - 1).toNat < env.text.length ∨ p = 0 := by omega
      constructor
      · intro hn
        by_cases hp : p = 0
        · exact Or.inr (Or.inl hp)
        · right; right
          have hlt : (p - 1).toNat < env.text.length := by omega
          refine ⟨env.text[(p - 1).toNat], by simp, ?_⟩
          rw [← Bool.not_eq_true]
          intro hl
          exact hn ⟨hp, _, by simp, hl⟩
      · rintro (h' | h' | ⟨d, hd, hl⟩) ⟨hp, d', hd', hl'⟩
        · omega
        · exact hp h'
        · rw [hd] at hd'; cases hd'; rw [hl] at hl'; cases hl'
  | start => simp [checkMeta, MetaAt, chkEnds]
  | stop => simp [checkMeta, MetaAt, chkEnds]

/-- the comparing loops -/
theorem cmp_iff {env : Env} {t : Text} {eq : Nat → Nat → Bool} {P : Nat → Nat → Prop} (hP : ∀ c d, eq c d = true ↔ P c d) (guard : Bool) (n : Nat) :
    ∀ {i p q : Int}, 0 ≤ i → 0 ≤ p → p ≤ env.stop → (guard = false → p + n ≤ env.stop) →
    (cmpLoop env guard (rd t) eq n i p = .yes q ↔ Copy env t P i n p q) := by
  induction n with
  | zero =>
    intro i p q hi hp hs _
    simp only [cmpLoop, Chk.yes.injEq, Copy]
    constructor
    · rintro rfl; exact ⟨by simp, hs, by omega⟩
    · rintro ⟨h, _⟩; simp at h; omega
  | succ n ih =>
    intro i p q hi hp hs hg
    rw [cmpLoop, rd_pos hp, rd_pos hi]
    have hcopy : Copy env t P i (n + 1) p q ↔ p < env.stop ∧ (∃ c d, env.text[p.toNat]? = some c ∧ t[i.toNat]? = some d ∧ P c d) ∧
        Copy env t P (i + 1) n (p + 1) q := by
      constructor
      · rintro ⟨a1, a2, a3⟩
        refine ⟨by omega, ?_, by omega, a2, fun j hj => ?_⟩
        · have := a3 0 (by omega); simpa using this
        · have := a3 (j + 1) (by omega)
          rw [show p + ((j + 1 : Nat) : Int) = p + 1 + (j : Int) by omega, show i + ((j + 1 : Nat) : Int) = i + 1 + (j : Int) by omega] at this
          exact this
      · rintro ⟨a1, a2, b1, b2, b3⟩
        refine ⟨by omega, b2, fun j hj => ?_⟩
        cases j with
        | zero => simpa using a2
        | succ j =>
          have := b3 j (by omega)
          rw [show p + ((j + 1 : Nat) : Int) = p + 1 + (j : Int) by omega, show i + ((j + 1 : Nat) : Int) = i + 1 + (j : Int) by omega]
          exact this
    rw [hcopy]
    by_cases hstop : env.stop ≤ p
    · have : guard = true := by
        cases guard with
        | true => rfl
        | false => have := hg rfl; omega
      simp [this, hstop]
      omega
    · rw [if_neg (by simp; omega)]
      cases hc : env.text[p.toNat]? with
      | none => simp
      | some c =>
        cases hd : t[i.toNat]? with
        | none => simp
        | some d =>
          dsimp only
          cases he : eq c d with
          | false =>
            simp only [Bool.false_eq_true, if_false, reduceCtorEq, false_iff]
            rintro ⟨_, ⟨c', d', hc', hd', hP'⟩, _⟩
            cases hc'; cases hd'
            rw [← hP] at hP'
            rw [he] at hP'
            cases hP'
          | true =>
            rw [if_pos rfl, ih (by omega) (by omega) (by omega) fun hgu => by have := hg hgu; omega]
            constructor
            · intro h
              exact ⟨by omega, ⟨c, d, rfl, rfl, (hP _ _).mp he⟩, h⟩
            · exact fun h => h.2.2

theorem word_iff {env : Env} (hs : env.stop ≤ env.text.length) (w : Text) {p q : Int} (h0 : 0 ≤ p) (h1 : p ≤ env.stop) :
    q ∈ chkEnds (checkWord env w p) ↔ MatchN env (.word w) p q := by
  rw [chkEnds_mem, MatchN]
  unfold checkWord
  by_cases h : p + w.length > env.stop
  · rw [if_pos h]
    simp only [reduceCtorEq, false_iff]
    split
    · rintro ⟨a, b, _⟩; omega
    · rintro ⟨a, b, _⟩; omega
  · rw [if_neg h]
    cases hi : env.flags.ignoreCase with
    | true =>
      simp only [if_true]
      rw [if_pos (by omega)]
      cases hc : env.chars.caseEq ((env.text.drop p.toNat).take w.length) w with
      | false => simp
      | true => simp; constructor
                · rintro rfl; omega
                · rintro ⟨rfl, _⟩; rfl
    | false =>
      simp only [Bool.false_eq_true, if_false]
      exact cmp_iff (P := fun c d => c = d) (fun c d => by simp) false _ (by omega) h0 h1 fun _ => by omega

theorem copy_nil {env : Env} {t : Text} {P : Nat → Nat → Prop} {i j p q : Int} : Copy env t P i 0 p q ↔ Copy env t P j 0 p q := by
  simp [Copy]

theorem trace_iff {env : Env} (hb : TraceOk env.back) (named nocase : Bool) (k : Nat) (s e : Matches → Int) (P : Nat → Nat → Prop)
    (hs : ∀ tr, s tr = if named && !nocase then tr.ns k else tr.s k) (he : ∀ tr, e tr = if named && !nocase then tr.ne k else tr.e k)
    (hP : ∀ c d, (if nocase then eqLower env else eqExact) c d = true ↔ P c d) {p q : Int} (h0 : 0 ≤ p) (h1 : p ≤ env.stop) :
    q ∈ chkEnds (checkTrace env named nocase k p) ↔ TraceAt env s e P p q := by
  rw [chkEnds_mem]
  unfold checkTrace TraceAt
  cases hbk : env.back with
  | none => simp
  | some v =>
    obtain ⟨t, tr⟩ := v
    rw [hbk] at hb
    have hb := hb k
    simp only [Option.some.injEq, Prod.mk.injEq]
    have key : refLoop env t (if nocase then eqLower env else eqExact) (s tr) (e tr) p = .yes q ↔ Copy env t P (s tr) (e tr - s tr).toNat p q := by
      unfold refLoop
      have hor : e tr ≤ s tr ∨ 0 ≤ s tr := by
        rw [hs, he]
        split
        · exact hb.2.imp id fun x => x.1
        · exact hb.1.imp id fun x => x.1
      rcases hor with hor | hor
      · rw [show (e tr - s tr).toNat = 0 by omega]
        rw [copy_nil (j := 0)]
        rw [show cmpLoop env true (rd t) (if nocase = true then eqLower env else eqExact) 0 (s tr) p =
          cmpLoop env true (rd t) (if nocase = true then eqLower env else eqExact) 0 0 p from rfl]
        exact cmp_iff hP true 0 (Int.le_refl 0) h0 h1 (by simp)
      · exact cmp_iff hP true _ hor h0 h1 (by simp)
    rw [← hs, ← he, key]
    constructor
    · intro h; exact ⟨t, tr, ⟨rfl, rfl⟩, h⟩
    · rintro ⟨t', tr', ⟨rfl, rfl⟩, h⟩; exact h

/-! ## Repetitions -/

theorem times_iff {f : Int → List Int} {R : Int → Int → Prop} {H : Int} {j : Nat} (hf : Fwd H j f) (hR : ∀ p q, 0 ≤ p → p ≤ H → (q ∈ f p ↔ R p q)) (k : Nat) :
    ∀ {p q : Int}, 0 ≤ p → p ≤ H → (q ∈ times f k p ↔ Iter R k p q) := by
  induction k with
  | zero => intro p q h0 h1; simp [times, Iter]
  | succ k ih =>
    intro p q h0 h1
    simp only [times, Iter, List.mem_flatMap]
    constructor
    · rintro ⟨r, hr, hq⟩
      have := hf p r h0 h1 hr
      exact ⟨r, (hR p r h0 h1).mp hr, (ih (by omega) this.2).mp hq⟩
    · rintro ⟨r, hr, hq⟩
      have hr' := (hR p r h0 h1).mpr hr
      have := hf p r h0 h1 hr'
      exact ⟨r, hr', (ih (by omega) this.2).mpr hq⟩

theorem rep_iff {f : Int → List Int} {R : Int → Int → Prop} {H : Int} {j : Nat} (hf : Fwd H j f) (hR : ∀ p q, 0 ≤ p → p ≤ H → (q ∈ f p ↔ R p q))
    (lzy : Bool) (n : Nat) : ∀ {p q : Int}, 0 ≤ p → p ≤ H → (q ∈ rep f lzy n p ↔ ∃ k, k ≤ n ∧ Iter R k p q) := by
  induction n with
  | zero =>
    intro p q h0 h1
    simp only [rep, List.mem_singleton]
    constructor
    · rintro rfl; exact ⟨0, by omega, rfl⟩
    · rintro ⟨k, hk, h⟩
      obtain rfl : k = 0 := by omega
      exact h
  | succ n ih =>
    intro p q h0 h1
    have : q ∈ rep f lzy (n + 1) p ↔ q = p ∨ ∃ r ∈ f p, q ∈ rep f lzy n r := by
      rw [rep]
      cases lzy <;> simp
      exact or_comm
    rw [this]
    constructor
    · rintro (rfl | ⟨r, hr, hq⟩)
      · exact ⟨0, by omega, rfl⟩
      · have hlt := hf p r h0 h1 hr
        obtain ⟨k, hk, hi⟩ := (ih (by omega) hlt.2).mp hq
        exact ⟨k + 1, by omega, r, (hR p r h0 h1).mp hr, hi⟩
    · rintro ⟨k, hk, hi⟩
      cases k with
      | zero => exact Or.inl hi
      | succ k =>
        obtain ⟨r, hr, hi⟩ := hi
        have hr' := (hR p r h0 h1).mpr hr
        have hlt := hf p r h0 h1 hr'
        exact Or.inr ⟨r, hr', (ih (by omega) hlt.2).mpr ⟨k, by omega, hi⟩⟩

theorem iter_add {R : Int → Int → Prop} (a b : Nat) : ∀ {p q : Int}, Iter R (a + b) p q ↔ ∃ r, Iter R a p r ∧ Iter R b r q := by
  induction a with
  | zero => intro p q; simp [Iter]
  | succ a ih =>
    intro p q
    rw [show a + 1 + b = (a + b) + 1 by omega]
    simp only [Iter, ih]
    grind

theorem iter_len {R : Int → Int → Prop} {H : Int} (hR : ∀ p q, 0 ≤ p → p ≤ H → R p q → p + 1 ≤ q ∧ q ≤ H) (k : Nat) :
    ∀ {p q : Int}, 0 ≤ p → p ≤ H → Iter R k p q → p + k ≤ q ∧ q ≤ H := by
  induction k with
  | zero => intro p q h0 h1 h; simp only [Iter] at h; omega
  | succ k ih =>
    intro p q h0 h1 h
    obtain ⟨r, hr, hi⟩ := h
    have a := hR p r h0 h1 hr
    have b := ih (by omega) a.2 hi
    omega

/-- `x{s,}` -/
theorem loop_iff {env : Env} {H : Int} (hH : H ≤ env.text.length) {f : Int → List Int} {R : Int → Int → Prop} (hf : Fwd H 1 f)
    (hR : ∀ p q, 0 ≤ p → p ≤ H → (q ∈ f p ↔ R p q)) (lzy : Bool) {s : Int} (hs : 0 ≤ s) {p q : Int} (h0 : 0 ≤ p) (h1 : p ≤ H) :
    q ∈ (times f s.toNat p).flatMap (star env f lzy) ↔ ∃ k : Nat, s ≤ k ∧ Iter R k p q := by
  have hR' : ∀ p q, 0 ≤ p → p ≤ H → R p q → p + 1 ≤ q ∧ q ≤ H := fun p q a b h => hf p q a b ((hR p q a b).mpr h)
  rw [List.mem_flatMap]
  constructor
  · rintro ⟨r, hr, hq⟩
    have hlt := times_fwd hf s.toNat p r h0 h1 hr
    obtain ⟨k, _, hk⟩ := (rep_iff hf hR lzy _ (by omega) hlt.2).mp hq
    exact ⟨s.toNat + k, by omega, (iter_add _ _).mpr ⟨r, (times_iff hf hR _ h0 h1).mp hr, hk⟩⟩
  · rintro ⟨k, hk, hi⟩
    obtain ⟨j, rfl⟩ : ∃ j, k = s.toNat + j := ⟨k - s.toNat, by omega⟩
    obtain ⟨r, hr, hj⟩ := (iter_add _ _).mp hi
    have hr' := (times_iff hf hR _ h0 h1).mpr hr
    have hlt := times_fwd hf s.toNat p r h0 h1 hr'
    have hlen := iter_len hR' j (by omega) hlt.2 hj
    exact ⟨r, hr', (rep_iff hf hR lzy _ (by omega) hlt.2).mpr ⟨j, by omega, hj⟩⟩

/-- `x{s,e}` -/
theorem range_iff {H : Int} {f : Int → List Int} {R : Int → Int → Prop} {j : Nat} (hf : Fwd H j f)
    (hR : ∀ p q, 0 ≤ p → p ≤ H → (q ∈ f p ↔ R p q)) (lzy : Bool) {s e : Int} (hs : 0 ≤ s) (hse : s ≤ e) {p q : Int} (h0 : 0 ≤ p) (h1 : p ≤ H) :
    q ∈ (times f s.toNat p).flatMap (rep f lzy (e - s).toNat) ↔ ∃ k : Nat, s ≤ k ∧ k ≤ e ∧ Iter R k p q := by
  rw [List.mem_flatMap]
  constructor
  · rintro ⟨r, hr, hq⟩
    have hlt := times_fwd hf s.toNat p r h0 h1 hr
    obtain ⟨k, hk', hk⟩ := (rep_iff hf hR lzy _ (by omega) hlt.2).mp hq
    exact ⟨s.toNat + k, by omega, by omega, (iter_add _ _).mpr ⟨r, (times_iff hf hR _ h0 h1).mp hr, hk⟩⟩
  · rintro ⟨k, hk, hke, hi⟩
    obtain ⟨j', rfl⟩ : ∃ j, k = s.toNat + j := ⟨k - s.toNat, by omega⟩
    obtain ⟨r, hr, hj⟩ := (iter_add _ _).mp hi
    have hr' := (times_iff hf hR _ h0 h1).mpr hr
    have hlt := times_fwd hf s.toNat p r h0 h1 hr'
    exact ⟨r, hr', (rep_iff hf hR lzy _ (by omega) hlt.2).mpr ⟨j', by omega, hj⟩⟩

/-! ## The ends of a chain are the ends of its matches -/

mutual
theorem simple_frag : ∀ (l : List Node) (il : Bool), simple l = true → inFrag il l = true
  | [], _, _ => by rw [inFrag]
  | n :: ns, il, h => by
    rw [simple, Bool.and_eq_true] at h
    rw [inFrag, simple_fragN n il h.1, simple_frag ns il h.2]; rfl
theorem simple_fragN : ∀ (n : Node) (il : Bool), simpleN n = true → inFragN il n = true
  | .brackets _ b, il, h => by rw [inFragN]; rw [simpleN] at h; exact simple_frag b il h
  | .named _ b, il, h => by rw [inFragN]; rw [simpleN] at h; exact simple_frag b il h
  | .empty, _, _ => by rw [inFragN]
  | .msym _, _, h => by rw [inFragN]
  | .symb _, _, _ => by rw [inFragN]
  | .word _, _, _ => by rw [inFragN]
  | .enum _, _, _ => by rw [inFragN]
  | .nenum _, _, _ => by rw [inFragN]
  | .bkTrace _, _, _ => by rw [inFragN]
  | .bkTraceN _, _, _ => by rw [inFragN]
  | .bkTraceName _, _, _ => by rw [inFragN]
  | .bkTraceNName _, _, h => by rw [simpleN] at h; cases h
  | .bkBrack _, _, h => by rw [simpleN] at h; cases h
  | .bkBrackName _, _, h => by rw [simpleN] at h; cases h
  | .ahead _, _, h => by rw [simpleN] at h; cases h
  | .nahead _, _, h => by rw [simpleN] at h; cases h
  | .behind _ _, _, h => by rw [simpleN] at h; cases h
  | .nbehind _ _, _, h => by rw [simpleN] at h; cases h
  | .or _, _, h => by rw [simpleN] at h; cases h
  | .rangeN _ _, _, h => by rw [simpleN] at h; cases h
  | .rangeNM _ _ _, _, h => by rw [simpleN] at h; cases h
  | .ngRangeN _ _, _, h => by rw [simpleN] at h; cases h
  | .ngRangeNM _ _ _, _, h => by rw [simpleN] at h; cases h
end

theorem nil_iff {l : List Int} {P : Int → Prop} (h : ∀ r, r ∈ l ↔ P r) : l = [] ↔ ¬ ∃ r, P r := by
  simp only [← h]
  cases l with
  | nil => simp
  | cons x xs => simp

/-- what holds throughout -/
structure SpecOk (env : Env) : Prop where
  ok : EnvOk env env.stop
  line : env.flags.multiLine = false

mutual
theorem mem_ends {env : Env} (he : SpecOk env) : ∀ (l : List Node) (il : Bool), inFrag il l = true → ∀ p q, 0 ≤ p → p ≤ env.stop →
    (q ∈ ends env l p ↔ MatchL env l p q)
  | [], _, _, p, q, _, _ => by rw [ends, MatchL]; simp
  | n :: ns, il, h, p, q, h0, h1 => by
    rw [inFrag, Bool.and_eq_true] at h
    have a := mem_endsN he n il h.1
    have b := mem_ends he ns il h.2
    rw [ends, MatchL]
    cases ho : isOr n with
    | true => simp only [if_true, List.mem_append]; rw [a p q h0 h1, b p q h0 h1]
    | false =>
      simp only [Bool.false_eq_true, if_false, List.mem_flatMap]
      constructor
      · rintro ⟨r, hr, hq⟩
        have := endsN_fwd he.ok n p r h0 h1 hr
        exact ⟨r, (a p r h0 h1).mp hr, (b r q (by omega) this.2).mp hq⟩
      · rintro ⟨r, hr, hq⟩
        have hr' := (a p r h0 h1).mpr hr
        have := endsN_fwd he.ok n p r h0 h1 hr'
        exact ⟨r, hr', (b r q (by omega) this.2).mpr hq⟩
theorem mem_endsN {env : Env} (he : SpecOk env) : ∀ (n : Node) (il : Bool), inFragN il n = true → ∀ p q, 0 ≤ p → p ≤ env.stop →
    (q ∈ endsN env n p ↔ MatchN env n p q)
  | .empty, _, _, p, q, _, _ => by rw [endsN, MatchN]; simp
  | .msym k, _, h, p, q, h0, h1 => by rw [endsN, MatchN]; exact meta_iff he.line he.ok.text h0 h1
  | .symb c, _, _, p, q, h0, _ => by
    rw [endsN, MatchN]
    refine eat_iff (fun d => ?_) h0
    cases hi : env.flags.ignoreCase <;> simp [symEq, hi]
  | .word w, _, _, p, q, h0, h1 => by rw [endsN]; exact word_iff he.ok.text w h0 h1
  | .enum c, _, _, p, q, h0, _ => by rw [endsN, MatchN]; exact eat_iff (fun d => Iff.rfl) h0
  | .nenum c, _, _, p, q, h0, _ => by rw [endsN, MatchN]; exact eat_iff (fun d => by simp) h0
  | .bkTrace k, _, _, p, q, h0, h1 => by
    rw [endsN, MatchN]
    exact trace_iff he.ok.back false false k _ _ _ (fun _ => rfl) (fun _ => rfl) (fun c d => by simp [eqExact]) h0 h1
  | .bkTraceN k, _, _, p, q, h0, h1 => by
    rw [endsN, MatchN]
    exact trace_iff he.ok.back false true k _ _ _ (fun _ => rfl) (fun _ => rfl) (fun c d => by simp [eqLower]) h0 h1
  | .bkTraceName k, _, _, p, q, h0, h1 => by
    rw [endsN, MatchN]
    exact trace_iff he.ok.back true false k _ _ _ (fun _ => rfl) (fun _ => rfl) (fun c d => by simp [eqExact]) h0 h1
  | .bkTraceNName k, _, h, _, _, _, _ => by rw [inFragN] at h; cases h
  | .bkBrack _, _, h, _, _, _, _ => by rw [inFragN] at h; cases h
  | .bkBrackName _, _, h, _, _, _, _ => by rw [inFragN] at h; cases h
  | .brackets _ b, il, h, p, q, h0, h1 => by rw [endsN, MatchN]; rw [inFragN] at h; exact mem_ends he b il h p q h0 h1
  | .named _ b, il, h, p, q, h0, h1 => by rw [endsN, MatchN]; rw [inFragN] at h; exact mem_ends he b il h p q h0 h1
  | .or b, il, h, p, q, h0, h1 => by rw [endsN, MatchN]; rw [inFragN] at h; exact mem_ends he b il h p q h0 h1
  | .ahead b, il, h, p, q, h0, h1 => by
    rw [endsN, MatchN]; rw [inFragN] at h
    have := nil_iff fun r => mem_ends he b false h p r h0 h1
    by_cases hh : ends env b p = []
    · simp [hh, this.mp hh]
    · rw [if_neg hh, List.mem_singleton]
      rw [this, Classical.not_not] at hh
      simp [hh]
  | .nahead b, il, h, p, q, h0, h1 => by
    rw [endsN, MatchN]; rw [inFragN] at h
    have := nil_iff fun r => mem_ends he b false h p r h0 h1
    by_cases hh : ends env b p = []
    · rw [if_pos hh, List.mem_singleton]; exact ⟨fun x => ⟨x, this.mp hh⟩, fun x => x.1⟩
    · rw [if_neg hh]
      rw [this, Classical.not_not] at hh
      simp [hh]
  | .behind k b, il, h, p, q, h0, h1 => by
    rw [endsN, MatchN]; rw [inFragN] at h
    by_cases hk : p - k < 0
    · rw [if_pos hk]; simp only [List.not_mem_nil, false_iff]; exact fun x => by omega
    · rw [if_neg hk]
      have := nil_iff fun r => mem_ends he b false h (p - k) r (by omega) (by omega)
      by_cases hh : ends env b (p - k) = []
      · rw [if_pos hh]; simp only [List.not_mem_nil, false_iff]; exact fun x => this.mp hh x.2.2
      · rw [if_neg hh, List.mem_singleton]
        rw [this, Classical.not_not] at hh
        exact ⟨fun x => ⟨x, by omega, hh⟩, fun x => x.1⟩
  | .nbehind k b, il, h, p, q, h0, h1 => by
    rw [endsN, MatchN]; rw [inFragN] at h
    by_cases hk : p - k < 0
    · rw [if_pos hk, List.mem_singleton]; exact ⟨fun x => ⟨x, fun y => by omega⟩, fun x => x.1⟩
    · rw [if_neg hk]
      have := nil_iff fun r => mem_ends he b false h (p - k) r (by omega) (by omega)
      by_cases hh : ends env b (p - k) = []
      · rw [if_pos hh, List.mem_singleton]; exact ⟨fun x => ⟨x, fun y => this.mp hh y.2⟩, fun x => x.1⟩
      · rw [if_neg hh]
        rw [this, Classical.not_not] at hh
        simp only [List.not_mem_nil, false_iff]
        exact fun x => x.2 ⟨by omega, hh⟩
  | .rangeN s b, il, h, p, q, h0, h1 => by
    rw [endsN, MatchN]; rw [inFragN, Bool.and_eq_true, Bool.and_eq_true, decide_eq_true_eq, decide_eq_true_eq] at h
    have hb : inFrag true b = true := by
      have := h.2
      split at this
      · exact this
      · exact simple_frag b true this
    exact loop_iff he.ok.text ((ends_fwd he.ok b).mono h.1.2) (mem_ends he b true hb) false h.1.1 h0 h1
  | .ngRangeN s b, il, h, p, q, h0, h1 => by
    rw [endsN, MatchN]
    rw [inFragN, Bool.and_eq_true, Bool.and_eq_true, Bool.and_eq_true, decide_eq_true_eq, decide_eq_true_eq, decide_eq_true_eq] at h
    exact loop_iff he.ok.text ((ends_fwd he.ok b).mono h.1.2) (mem_ends he b true h.2) true h.1.1.1 h0 h1
  | .rangeNM s e b, il, h, p, q, h0, h1 => by
    rw [endsN, MatchN]; rw [inFragN] at h
    have key : (0 ≤ s ∧ s ≤ e) ∧ inFrag il b = true := by
      split at h
      · rename_i hsb
        rw [Bool.and_eq_true, decide_eq_true_eq, decide_eq_true_eq] at h
        exact ⟨h, simple_frag b il hsb⟩
      · simp only [Bool.and_eq_true, Bool.not_eq_true', decide_eq_true_eq] at h
        exact ⟨by omega, h.2⟩
    exact range_iff (ends_fwd he.ok b) (mem_ends he b il key.2) false key.1.1 key.1.2 h0 h1
  | .ngRangeNM s e b, il, h, p, q, h0, h1 => by
    rw [endsN, MatchN]; rw [inFragN] at h
    simp only [Bool.and_eq_true, Bool.not_eq_true', decide_eq_true_eq] at h
    exact range_iff (ends_fwd he.ok b) (mem_ends he b il h.2) true (by omega) (by omega) h0 h1
end

end Verif.RegExp
