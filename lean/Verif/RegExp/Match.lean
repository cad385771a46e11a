import Verif.RegExp.Lang
import Verif.RegExp.History

/-!
# A reported match is a match, and a match is reported (C29)
-/
namespace Verif.RegExp

/-- the first position from `p` on, among `n + 1`, where the chain matches, with the preferred end -/
def firstMatch (env : Env) (body : List Node) : Nat → Int → Option (Int × Int)
  | 0, p => match ends env body p with
    | q :: _ => some (p, q)
    | [] => none
  | n + 1, p => match ends env body p with
    | q :: _ => some (p, q)
    | [] => firstMatch env body n (p + 1)

/-- `Whole` of what a call left -/
def WholeOut (p r : Int) (out : Out) : Prop :=
  (out.obj.endChange = false → out.m.e 0 = r) ∧ (out.obj.startChange = false → out.m.s 0 = min p (out.m.e 0)) ∧ out.m.s 0 ≤ out.m.e 0

theorem tries_exact {env : Env} (he : EnvOk env env.stop) (body : List Node) (hf : inFrag false body = true) (keep : Bool) (n : Nat) :
    ∀ (p : Int) (m : Mem), 0 ≤ p → p + n ≤ env.stop →
    ∃ k, ∀ fuel, k ≤ fuel → ∃ out, tries env [[.brackets (some 0) body]] fuel keep n p m = some out ∧
      out.res = .ret (firstMatch env body n p).isSome ∧ ∀ a b, firstMatch env body n p = some (a, b) → WholeOut a b out := by
  induction n with
  | zero =>
    intro p m h0 h1
    obtain ⟨k, m', hr, hw⟩ := run_root he body hf h0 (by omega) m
    refine ⟨k, fun fuel hk => ?_⟩
    rw [tries.eq_def]
    dsimp only
    rw [hr fuel hk, firstMatch]
    cases hl : ends env body p with
    | nil => exact ⟨_, rfl, rfl, by simp⟩
    | cons q qs =>
      refine ⟨_, rfl, by simp [outOf], fun a b hab => ?_⟩
      simp only [Option.some.injEq, Prod.mk.injEq] at hab
      obtain ⟨rfl, rfl⟩ := hab
      exact hw q (by rw [hl]; rfl)
  | succ n ih =>
    intro p m h0 h1
    obtain ⟨k, m', hr, hw⟩ := run_root he body hf h0 (by omega) m
    obtain ⟨k', hr'⟩ := ih (p + 1) m' (by omega) (by omega)
    refine ⟨max k k', fun fuel hk => ?_⟩
    rw [tries.eq_def]
    dsimp only
    rw [hr fuel (by omega), firstMatch]
    cases hl : ends env body p with
    | nil => exact hr' fuel (by omega)
    | cons q qs =>
      refine ⟨_, rfl, by simp [outOf], fun a b hab => ?_⟩
      simp only [Option.some.injEq, Prod.mk.injEq] at hab
      obtain ⟨rfl, rfl⟩ := hab
      exact hw q (by rw [hl]; rfl)

theorem firstMatch_le {env : Env} (he : EnvOk env env.stop) (body : List Node) (n : Nat) :
    ∀ {p a b : Int}, 0 ≤ p → p + n ≤ env.stop → firstMatch env body n p = some (a, b) → p ≤ a ∧ a ≤ p + n ∧ a ≤ b ∧ b ≤ env.stop := by
  induction n with
  | zero =>
    intro p a b h0 h1 h
    rw [firstMatch] at h
    cases hl : ends env body p with
    | nil => rw [hl] at h; cases h
    | cons q qs =>
      rw [hl] at h
      simp only [Option.some.injEq, Prod.mk.injEq] at h
      obtain ⟨rfl, rfl⟩ := h
      have := ends_fwd he body p q h0 (by omega) (by rw [hl]; simp)
      omega
  | succ n ih =>
    intro p a b h0 h1 h
    rw [firstMatch] at h
    cases hl : ends env body p with
    | nil =>
      rw [hl] at h
      have := ih (by omega) (by omega) h
      omega
    | cons q qs =>
      rw [hl] at h
      simp only [Option.some.injEq, Prod.mk.injEq] at h
      obtain ⟨rfl, rfl⟩ := h
      have := ends_fwd he body p q h0 (by omega) (by rw [hl]; simp)
      omega

/-- `parse` on expressions of the fragment, which may contain the marks `\m`, `\M` -/
theorem parse_exact (chars : Chars) (x : Expr) (o : Obj) (a : Args) (mtch : Matches) (hok : x.ok = true)
    (hfr : inFrag false x.body = true) (hml : x.flags.multiLine = false) (hic : x.flags.ignoreCase = true → CaseOn chars (fun c => c ∈ a.text ∨ c ∈ letters x.body))
    (h0 : 0 ≤ a.pos) (h1 : a.pos ≤ a.eol) (h2 : a.eol ≤ a.text.length) (hb : TraceOk a.back) :
    ∃ k, ∀ fuel, k ≤ fuel → ∃ out, parse chars x fuel o a mtch = some out ∧
      out.res = .ret (firstMatch (envOf chars x a) x.body (if a.moves.getD o.moves then (a.eol - a.pos).toNat else 0) a.pos).isSome ∧
      ∀ p q, firstMatch (envOf chars x a) x.body (if a.moves.getD o.moves then (a.eol - a.pos).toNat else 0) a.pos = some (p, q) →
        WholeOut p q out := by
  have he : EnvOk (envOf chars x a) (envOf chars x a).stop := ⟨Int.le_refl _, h2, hb⟩
  obtain ⟨k1, hk1⟩ := tries_exact he x.body hfr o.moves (if a.moves.getD o.moves then (a.eol - a.pos).toNat else 0) a.pos
    ⟨o.vars, clearMatches x mtch, o.startChange, o.endChange⟩ h0 (by show _ ≤ a.eol; split <;> omega)
  obtain ⟨k2, hk2⟩ := C31_the_first_test_is_invisible_partial chars x a hml hic h0 (by omega) h2
  refine ⟨max k1 k2, fun fuel hk => ?_⟩
  obtain ⟨out, ho, hr, hw⟩ := hk1 fuel (by omega)
  obtain ⟨e1, e2⟩ := hk2 fuel o mtch (by omega)
  have hall : parseAll chars x fuel o a mtch = some out := by
    unfold parseAll
    rw [if_neg (by simp [hok])]
    exact ho
  rw [hall] at e1 e2
  cases hp : parse chars x fuel o a mtch with
  | none => rw [hp] at e1; cases e1
  | some out' =>
    rw [hp] at e1
    simp only [Option.map_some, Option.some.injEq] at e1
    refine ⟨out', rfl, e1.trans hr, fun p q hpq => ?_⟩
    have ht : out'.res = .ret true := by rw [e1, hr, hpq]; rfl
    have := e2 out' hp ht
    cases this
    exact hw p q hpq

/-- The preferred match. On expressions of the fragment without marks, from a state without `\m` / `\M` marks, `parse` terminates and reports the first
position (only `pos` if it does not move) where the expression matches, with the end its priorities choose: an earlier alternative before
a later one, more repetitions before fewer unless lazy. -/
theorem C29_parse_finds_the_preferred_match (chars : Chars) (x : Expr) (o : Obj) (a : Args) (mtch : Matches) (hok : x.ok = true)
    (hfr : inFrag false x.body = true) (hnm : noMark x.body = true) (hml : x.flags.multiLine = false) (hic : x.flags.ignoreCase = true → CaseOn chars (fun c => c ∈ a.text ∨ c ∈ letters x.body))
    (h0 : 0 ≤ a.pos) (h1 : a.pos ≤ a.eol) (h2 : a.eol ≤ a.text.length) (hb : TraceOk a.back) (hs : o.startChange = false) (hn : o.endChange = false) :
    ∃ k, ∀ fuel, k ≤ fuel → ∃ out, parse chars x fuel o a mtch = some out ∧
      out.res = .ret (firstMatch (envOf chars x a) x.body (if a.moves.getD o.moves then (a.eol - a.pos).toNat else 0) a.pos).isSome ∧
      ∀ p q, firstMatch (envOf chars x a) x.body (if a.moves.getD o.moves then (a.eol - a.pos).toNat else 0) a.pos = some (p, q) →
        out.m.s 0 = p ∧ out.m.e 0 = q := by
  obtain ⟨k, hk⟩ := parse_exact chars x o a mtch hok hfr hml hic h0 h1 h2 hb
  refine ⟨k, fun fuel hf => ?_⟩
  obtain ⟨out, ho, hr, hw⟩ := hk fuel hf
  refine ⟨out, ho, hr, fun p q hpq => ?_⟩
  obtain ⟨w1, w2, -⟩ := hw p q hpq
  obtain ⟨f1, f2, -⟩ := parse_marks hnm ho
  have e := w1 (f2.trans hn)
  have hle := firstMatch_le ⟨Int.le_refl _, h2, hb⟩ x.body _ h0 (by show _ ≤ a.eol; split <;> omega) hpq
  have := w2 (f1.trans hs)
  omega

theorem firstMatch_some {env : Env} (he : SpecOk env) {body : List Node} (hf : inFrag false body = true) (n : Nat) :
    ∀ {p a b : Int}, 0 ≤ p → p + n ≤ env.stop → firstMatch env body n p = some (a, b) →
    p ≤ a ∧ a ≤ p + n ∧ MatchL env body a b ∧ ∀ p' q', p ≤ p' → p' < a → ¬ MatchL env body p' q' := by
  induction n with
  | zero =>
    intro p a b h0 h1 h
    rw [firstMatch] at h
    cases hl : ends env body p with
    | nil => rw [hl] at h; cases h
    | cons q qs =>
      rw [hl] at h
      simp only [Option.some.injEq, Prod.mk.injEq] at h
      obtain ⟨rfl, rfl⟩ := h
      exact ⟨by omega, by omega, (mem_ends he body false hf p q h0 (by omega)).mp (by rw [hl]; simp), fun p' q' h3 h4 => by omega⟩
  | succ n ih =>
    intro p a b h0 h1 h
    rw [firstMatch] at h
    cases hl : ends env body p with
    | nil =>
      rw [hl] at h
      obtain ⟨r1, r2, r3, r4⟩ := ih (by omega) (by omega) h
      refine ⟨by omega, by omega, r3, fun p' q' h3 h4 hm => ?_⟩
      by_cases hp : p' = p
      · subst hp
        rw [← mem_ends he body false hf p' q' h0 (by omega), hl] at hm
        cases hm
      · exact r4 p' q' (by omega) h4 hm
    | cons q qs =>
      rw [hl] at h
      simp only [Option.some.injEq, Prod.mk.injEq] at h
      obtain ⟨rfl, rfl⟩ := h
      exact ⟨by omega, by omega, (mem_ends he body false hf p q h0 (by omega)).mp (by rw [hl]; simp), fun p' q' h3 h4 => by omega⟩

theorem firstMatch_none {env : Env} (he : SpecOk env) {body : List Node} (hf : inFrag false body = true) (n : Nat) :
    ∀ {p : Int}, 0 ≤ p → p + n ≤ env.stop → firstMatch env body n p = none → ∀ p' q', p ≤ p' → p' ≤ p + n → ¬ MatchL env body p' q' := by
  induction n with
  | zero =>
    intro p h0 h1 h p' q' h3 h4 hm
    obtain rfl : p' = p := by omega
    rw [firstMatch] at h
    rw [← mem_ends he body false hf p' q' h0 (by omega)] at hm
    cases hl : ends env body p' with
    | nil => rw [hl] at hm; cases hm
    | cons q qs => rw [hl] at h; cases h
  | succ n ih =>
    intro p h0 h1 h p' q' h3 h4 hm
    rw [firstMatch] at h
    cases hl : ends env body p with
    | nil =>
      rw [hl] at h
      by_cases hp : p' = p
      · subst hp
        rw [← mem_ends he body false hf p' q' h0 (by omega), hl] at hm
        cases hm
      · exact ih (by omega) (by omega) h p' q' (by omega) (by omega) hm
    | cons q qs => rw [hl] at h; cases h

/-- C29: on expressions of the fragment without marks, from a state without marks, `parse` terminates (for all sufficiently many rounds the result is
there). If it reports success, [s(0), e(0)) matches the expression, begins at `pos` (or, when the search moves, at the first position from
`pos` on where there is a match); if it reports failure, there is no match at any of the tried positions. Missing: expressions outside the
fragment, for which it is false (see below). -/
theorem C29_a_reported_match_is_a_match_partial (chars : Chars) (x : Expr) (o : Obj) (a : Args) (mtch : Matches) (hok : x.ok = true)
    (hfr : inFrag false x.body = true) (hnm : noMark x.body = true) (hml : x.flags.multiLine = false) (hic : x.flags.ignoreCase = true → CaseOn chars (fun c => c ∈ a.text ∨ c ∈ letters x.body))
    (h0 : 0 ≤ a.pos) (h1 : a.pos ≤ a.eol) (h2 : a.eol ≤ a.text.length) (hb : TraceOk a.back) (hs : o.startChange = false) (hn : o.endChange = false) :
    ∃ k, ∀ fuel, k ≤ fuel → ∃ out, parse chars x fuel o a mtch = some out ∧
      ((out.res = .ret true ∧ MatchL (envOf chars x a) x.body (out.m.s 0) (out.m.e 0) ∧
          a.pos ≤ out.m.s 0 ∧ (a.moves.getD o.moves = false → out.m.s 0 = a.pos) ∧
          ∀ p q, a.pos ≤ p → p < out.m.s 0 → ¬ MatchL (envOf chars x a) x.body p q) ∨
       (out.res = .ret false ∧ ∀ p q, a.pos ≤ p → p ≤ a.eol → (a.moves.getD o.moves = false → p = a.pos) →
          ¬ MatchL (envOf chars x a) x.body p q)) := by
  obtain ⟨k, hk⟩ := C29_parse_finds_the_preferred_match chars x o a mtch hok hfr hnm hml hic h0 h1 h2 hb hs hn
  refine ⟨k, fun fuel hf => ?_⟩
  obtain ⟨out, ho, hr, hw⟩ := hk fuel hf
  refine ⟨out, ho, ?_⟩
  have he : SpecOk (envOf chars x a) := ⟨⟨Int.le_refl _, h2, hb⟩, hml⟩
  have hN : a.pos + ((if a.moves.getD o.moves then (a.eol - a.pos).toNat else 0 : Nat) : Int) ≤ a.eol := by split <;> omega
  cases hfm : firstMatch (envOf chars x a) x.body (if a.moves.getD o.moves then (a.eol - a.pos).toNat else 0) a.pos with
  | none =>
    right
    refine ⟨by rw [hr, hfm]; rfl, fun p q hp hp2 hp3 => ?_⟩
    refine firstMatch_none he hfr _ h0 hN hfm p q hp ?_
    cases hmv : a.moves.getD o.moves with
    | true => simp only [if_true]; omega
    | false => have := hp3 hmv; simp; omega
  | some v =>
    obtain ⟨p, q⟩ := v
    left
    obtain ⟨w1, w2⟩ := hw p q hfm
    obtain ⟨r1, r2, r3, r4⟩ := firstMatch_some he hfr _ h0 hN hfm
    refine ⟨by rw [hr, hfm]; rfl, by rw [w1, w2]; exact r3, by omega, fun hmv => ?_, fun p' q' h3 h4 => r4 p' q' h3 (by omega)⟩
    rw [hmv] at r2
    simp at r2
    omega

/-- C29: success is reported exactly when there is a match. On expressions of the fragment, which may contain the marks `\m`, `\M`, and whatever
marks earlier calls left: `parse` terminates, and reports success if and only if the expression matches at one of the tried positions. (Where
the reported match begins and ends is C29 above for expressions without marks, C81 for those with marks.) -/
theorem C29_success_iff_there_is_a_match_partial (chars : Chars) (x : Expr) (o : Obj) (a : Args) (mtch : Matches) (hok : x.ok = true)
    (hfr : inFrag false x.body = true) (hml : x.flags.multiLine = false) (hic : x.flags.ignoreCase = true → CaseOn chars (fun c => c ∈ a.text ∨ c ∈ letters x.body))
    (h0 : 0 ≤ a.pos) (h1 : a.pos ≤ a.eol) (h2 : a.eol ≤ a.text.length) (hb : TraceOk a.back) :
    ∃ k, ∀ fuel, k ≤ fuel → ∃ out, parse chars x fuel o a mtch = some out ∧ (out.res = .ret true ∨ out.res = .ret false) ∧
      (out.res = .ret true ↔ ∃ p q, a.pos ≤ p ∧ p ≤ a.eol ∧ (a.moves.getD o.moves = false → p = a.pos) ∧ MatchL (envOf chars x a) x.body p q) := by
  obtain ⟨k, hk⟩ := parse_exact chars x o a mtch hok hfr hml hic h0 h1 h2 hb
  refine ⟨k, fun fuel hf => ?_⟩
  obtain ⟨out, ho, hr, -⟩ := hk fuel hf
  refine ⟨out, ho, ?_⟩
  have he : SpecOk (envOf chars x a) := ⟨⟨Int.le_refl _, h2, hb⟩, hml⟩
  have hN : a.pos + ((if a.moves.getD o.moves then (a.eol - a.pos).toNat else 0 : Nat) : Int) ≤ a.eol := by split <;> omega
  cases hfm : firstMatch (envOf chars x a) x.body (if a.moves.getD o.moves then (a.eol - a.pos).toNat else 0) a.pos with
  | none =>
    rw [hfm] at hr
    refine ⟨Or.inr hr, fun h => (by rw [hr] at h; cases h), ?_⟩
    rintro ⟨p, q, hp, hp2, hp3, hm⟩
    refine absurd hm (firstMatch_none he hfr _ h0 hN hfm p q hp ?_)
    cases hmv : a.moves.getD o.moves with
    | true => simp only [if_true]; omega
    | false => have := hp3 hmv; simp; omega
  | some v =>
    obtain ⟨p, q⟩ := v
    rw [hfm] at hr
    obtain ⟨r1, r2, r3, r4⟩ := firstMatch_some he hfr _ h0 hN hfm
    refine ⟨Or.inl hr, fun _ => ⟨p, q, r1, by omega, fun hmv => ?_, r3⟩, fun _ => hr⟩
    rw [hmv] at r2
    simp at r2
    omega

end Verif.RegExp
