import Verif.RegExp.Lands

/-!
# Chains without choices (for C29)

A chain of tests and brackets either fails or comes to its only end, and changes nothing but the `s` fields of its brackets and the groups.
-/
namespace Verif.RegExp

/-- only `s` fields in `R` and the groups change -/
structure Eff (R : Addr → Prop) (m m' : Mem) : Prop where
  frame : ∀ a, ¬ R a → m'.vars a = m.vars a
  same : ∀ a, (m'.vars a).p0 = (m.vars a).p0 ∧ (m'.vars a).p1 = (m.vars a).p1 ∧ (m'.vars a).old = (m.vars a).old

theorem Eff.refl (R : Addr → Prop) (m : Mem) : Eff R m m := ⟨fun _ _ => rfl, fun _ => ⟨rfl, rfl, rfl⟩⟩

theorem Eff.trans {R : Addr → Prop} {m m1 m2 : Mem} (h : Eff R m m1) (h1 : Eff R m1 m2) : Eff R m m2 :=
  ⟨fun a ha => (h1.frame a ha).trans (h.frame a ha), fun a =>
    ⟨(h1.same a).1.trans (h.same a).1, (h1.same a).2.1.trans (h.same a).2.1, (h1.same a).2.2.trans (h.same a).2.2⟩⟩

theorem Eff.mono {R R' : Addr → Prop} {m m1 : Mem} (h : Eff R m m1) (hr : ∀ a, R a → R' a) : Eff R' m m1 :=
  ⟨fun a ha => h.frame a fun x => ha (hr a x), h.same⟩

theorem Eff.link {R T : Addr → Prop} {sok : Sok} {m m1 : Mem} (h : Eff R m m1) (hr : ∀ a, R a → T a) : Link T sok m m1 :=
  ⟨fun a ha => h.frame a fun x => ha (hr a x), fun a => Or.inl ⟨(h.same a).1, (h.same a).2.2⟩⟩

theorem eff_close {R : Addr → Prop} {m m' : Mem} (hv : m'.vars = m.vars) :
    Eff R m m' := ⟨fun a _ => by rw [hv], fun a => by rw [hv]; exact ⟨rfl, rfl, rfl⟩⟩

/-- from `c` the machine fails, or comes to `nxt q`, where `q` is the only element of `es` -/
def Det (env : Env) (R : Addr → Prop) (c : Cfg) (nxt : Int → Cfg) (es : List Int) : Prop :=
  (es = [] ∧ ∀ m S, Lands env ⟨c, none, m, S⟩ false S (Eff R m)) ∨
  ∃ q, es = [q] ∧ ∀ m S, ∃ m', Eff R m m' ∧ Reach env ⟨c, none, m, S⟩ ⟨nxt q, none, m', S⟩

theorem det_test {env : Env} {H p : Int} {R : Addr → Prop} {n : Node} {ns : List Node} {up : List (List Node)} {ck : Chk} {f : Mem → Mem}
    (hv : ∀ m, (f m).vars = m.vars) (hc : ChkOk H p ck) (he : ∀ m, execNode env n ns up true p m = (tested ns up ck, f m)) :
    Det env R ⟨(n :: ns) :: up, true, p⟩ (fun q => ⟨ns :: up, true, q⟩) (chkEnds ck) := by
  have hs : ∀ m S, step env ⟨⟨(n :: ns) :: up, true, p⟩, none, m, S⟩ = after ⟨(n :: ns) :: up, true, p⟩ S (tested ns up ck, f m) := by
    intro m S
    rw [← he m]; rfl
  cases ck with
  | oob => exact absurd rfl hc.1
  | no => exact Or.inl ⟨rfl, fun m S => lands_pop (hs m S) (eff_close (hv m))⟩
  | yes q => exact Or.inr ⟨q, rfl, fun m S => ⟨f m, eff_close (hv m), reach_step (hs m S) (reach_refl _ _)⟩⟩

theorem eff_start {R : Addr → Prop} {m : Mem} {a : Addr} {q : Int} (ha : R a) : Eff R m (m.set a { m.vars a with start := q }) := by
  refine ⟨fun b hb => set_other m _ ?_, fun b => ?_⟩
  · rintro rfl; exact hb ha
  · by_cases h : b = a
    · subst h; rw [set_same]; exact ⟨rfl, rfl, rfl⟩
    · rw [set_other m _ h]; exact ⟨rfl, rfl, rfl⟩

/-- brackets around a body without choices; `fin`: what the closing does -/
theorem det_wrap {env : Env} {p : Int} {n : Node} {ns : List Node} {up : List (List Node)} {b : List Node} {es : List Int}
    (hin : ∀ m, execNode env n ns up true p m = (.goto ⟨b :: (n :: ns) :: up, true, p⟩,
      m.set (addr ((n :: ns) :: up)) { m.vars (addr ((n :: ns) :: up)) with start := p }))
    (hout : ∀ q m, ∃ m', execNode env n ns up false q m = (.goto ⟨ns :: up, true, q⟩, m') ∧ m'.vars = m.vars)
    (hb : Det env (Reg b.length (addr ((n :: ns) :: up))) ⟨b :: (n :: ns) :: up, true, p⟩ (fun q => ⟨(n :: ns) :: up, false, q⟩) es) :
    Det env (Sub (addr ((n :: ns) :: up))) ⟨(n :: ns) :: up, true, p⟩ (fun q => ⟨ns :: up, true, q⟩) es := by
  have h1 : ∀ m S, step env ⟨⟨(n :: ns) :: up, true, p⟩, none, m, S⟩ = .inl ⟨⟨b :: (n :: ns) :: up, true, p⟩, none,
      m.set (addr ((n :: ns) :: up)) { m.vars (addr ((n :: ns) :: up)) with start := p }, S⟩ := by
    intro m S
    have : step env ⟨⟨(n :: ns) :: up, true, p⟩, none, m, S⟩ = after ⟨(n :: ns) :: up, true, p⟩ S (execNode env n ns up true p m) := rfl
    rw [this, hin m]; rfl
  have e1 : ∀ m, Eff (Sub (addr ((n :: ns) :: up))) m (m.set (addr ((n :: ns) :: up)) { m.vars (addr ((n :: ns) :: up)) with start := p }) :=
    fun m => eff_start (Sub.refl _)
  rcases hb with ⟨h2, h3⟩ | ⟨q, h2, h3⟩
  · refine Or.inl ⟨h2, fun m S => lands_step (h1 m S) (lands_mono (h3 _ S) fun m2 h4 => (e1 m).trans (h4.mono fun a ha => ha.sub))⟩
  · refine Or.inr ⟨q, h2, fun m S => ?_⟩
    obtain ⟨m2, e2, r2⟩ := h3 (m.set (addr ((n :: ns) :: up)) { m.vars (addr ((n :: ns) :: up)) with start := p }) S
    obtain ⟨m3, e3, v3⟩ := hout q m2
    refine ⟨m3, ((e1 m).trans (e2.mono fun a ha => ha.sub)).trans (eff_close v3), reach_step (h1 m S) (reach_trans r2 ?_)⟩
    have : step env ⟨⟨(n :: ns) :: up, false, q⟩, none, m2, S⟩ = after ⟨(n :: ns) :: up, false, q⟩ S (execNode env n ns up false q m2) := rfl
    refine reach_step ?_ (reach_refl _ _)
    rw [this, e3]; rfl

theorem det_cons {env : Env} {n : Node} {ns : List Node} {up : List (List Node)} {p : Int} (hno : isOr n = false)
    (h1 : Det env (Sub (addr ((n :: ns) :: up))) ⟨(n :: ns) :: up, true, p⟩ (fun q => ⟨ns :: up, true, q⟩) (endsN env n p))
    (h2 : ∀ q ∈ endsN env n p, Det env (Reg ns.length (addr up)) ⟨ns :: up, true, q⟩ (fun q => ⟨up, false, q⟩) (ends env ns q)) :
    Det env (Reg (n :: ns).length (addr up)) ⟨(n :: ns) :: up, true, p⟩ (fun q => ⟨up, false, q⟩) (ends env (n :: ns) p) := by
  have r1 : ∀ a, Sub (addr ((n :: ns) :: up)) a → Reg (n :: ns).length (addr up) a := fun a h => h.reg
  have r2 : ∀ a, Reg ns.length (addr up) a → Reg (n :: ns).length (addr up) a := fun a h => h.mono (by simp)
  rw [ends, hno]
  simp only [Bool.false_eq_true, if_false]
  rcases h1 with ⟨e1, l1⟩ | ⟨q, e1, l1⟩
  · exact Or.inl ⟨by rw [e1]; rfl, fun m S => lands_mono (l1 m S) fun m' h => h.mono r1⟩
  · rw [e1] at h2 ⊢
    rw [List.flatMap_cons, List.flatMap_nil, List.append_nil]
    rcases h2 q (by simp) with ⟨e2, l2⟩ | ⟨r, e2, l2⟩
    · refine Or.inl ⟨e2, fun m S => ?_⟩
      obtain ⟨m1, f1, g1⟩ := l1 m S
      exact lands_reach g1 (lands_mono (l2 m1 S) fun m' h => (f1.mono r1).trans (h.mono r2))
    · refine Or.inr ⟨r, e2, fun m S => ?_⟩
      obtain ⟨m1, f1, g1⟩ := l1 m S
      obtain ⟨m2, f2, g2⟩ := l2 m1 S
      exact ⟨m2, (f1.mono r1).trans (f2.mono r2), reach_trans g1 g2⟩

theorem simpleN_not_or {n : Node} (h : simpleN n = true) : isOr n = false := by cases n <;> first | rfl | exact absurd h (by simp [simpleN])

mutual
theorem det_chain {env : Env} {H : Int} (he : EnvOk env H) : ∀ (l : List Node) (up : List (List Node)) (p : Int), simple l = true → 0 ≤ p → p ≤ H →
    Det env (Reg l.length (addr up)) ⟨l :: up, true, p⟩ (fun q => ⟨up, false, q⟩) (ends env l p)
  | [], up, p, _, _, _ => by
    refine Or.inr ⟨p, by rw [ends], fun m S => ⟨m, Eff.refl _ m, reach_step ?_ (reach_refl _ _)⟩⟩
    rfl
  | n :: ns, up, p, h, h0, h1 => by
    rw [simple, Bool.and_eq_true] at h
    refine det_cons (simpleN_not_or h.1) (det_node he n ns up p h.1 h0 h1) fun q hq => ?_
    have := endsN_fwd he n p q h0 h1 hq
    exact det_chain he ns up q h.2 (by omega) this.2
theorem det_node {env : Env} {H : Int} (he : EnvOk env H) : ∀ (n : Node) (ns : List Node) (up : List (List Node)) (p : Int), simpleN n = true →
    0 ≤ p → p ≤ H → Det env (Sub (addr ((n :: ns) :: up))) ⟨(n :: ns) :: up, true, p⟩ (fun q => ⟨ns :: up, true, q⟩) (endsN env n p)
  | .empty, ns, up, p, _, h0, h1 => by
    rw [endsN]
    exact det_test (f := id) (ck := .yes p) (H := H) (fun _ => rfl) ⟨by simp, fun q' h => by cases h; omega⟩ fun m => rfl
  | .msym k, ns, up, p, h, h0, h1 => by
    rw [endsN]
    exact det_test (f := fun m => markMeta m p k) (fun m => vars_mark m p k) (chk_meta he h0 h1 k) fun m => rfl
  | .symb c, ns, up, p, _, h0, h1 => by rw [endsN]; exact det_test (f := id) (fun _ => rfl) (chk_eat he h0 _) fun m => rfl
  | .word c, ns, up, p, _, h0, h1 => by rw [endsN]; exact det_test (f := id) (fun _ => rfl) (chk_word he _ h0 h1) fun m => rfl
  | .enum c, ns, up, p, _, h0, h1 => by rw [endsN]; exact det_test (f := id) (fun _ => rfl) (chk_eat he h0 _) fun m => rfl
  | .nenum c, ns, up, p, _, h0, h1 => by rw [endsN]; exact det_test (f := id) (fun _ => rfl) (chk_eat he h0 _) fun m => rfl
  | .bkTrace c, ns, up, p, _, h0, h1 => by rw [endsN]; exact det_test (f := id) (fun _ => rfl) (chk_trace he _ _ _ h0 h1) fun m => rfl
  | .bkTraceN c, ns, up, p, _, h0, h1 => by rw [endsN]; exact det_test (f := id) (fun _ => rfl) (chk_trace he _ _ _ h0 h1) fun m => rfl
  | .bkTraceName c, ns, up, p, _, h0, h1 => by rw [endsN]; exact det_test (f := id) (fun _ => rfl) (chk_trace he _ _ _ h0 h1) fun m => rfl
  | .bkTraceNName _, _, _, _, h, _, _ => by rw [simpleN] at h; cases h
  | .brackets i b, ns, up, p, h, h0, h1 => by
    rw [endsN]
    rw [simpleN] at h
    refine det_wrap (b := b) (fun m => rfl) (fun q m => ?_) (det_chain he b _ p h h0 h1)
    cases i with
    | none => exact ⟨m, rfl, rfl⟩
    | some i => exact ⟨_, rfl, rfl⟩
  | .named i b, ns, up, p, h, h0, h1 => by
    rw [endsN]
    rw [simpleN] at h
    refine det_wrap (b := b) (fun m => rfl) (fun q m => ?_) (det_chain he b _ p h h0 h1)
    cases i with
    | none => exact ⟨m, rfl, rfl⟩
    | some i => exact ⟨_, rfl, rfl⟩
  | .bkBrack _, _, _, _, h, _, _ => by rw [simpleN] at h; cases h
  | .bkBrackName _, _, _, _, h, _, _ => by rw [simpleN] at h; cases h
  | .ahead _, _, _, _, h, _, _ => by rw [simpleN] at h; cases h
  | .nahead _, _, _, _, h, _, _ => by rw [simpleN] at h; cases h
  | .behind _ _, _, _, _, h, _, _ => by rw [simpleN] at h; cases h
  | .nbehind _ _, _, _, _, h, _, _ => by rw [simpleN] at h; cases h
  | .or _, _, _, _, h, _, _ => by rw [simpleN] at h; cases h
  | .rangeN _ _, _, _, _, h, _, _ => by rw [simpleN] at h; cases h
  | .rangeNM _ _ _, _, _, _, h, _, _ => by rw [simpleN] at h; cases h
  | .ngRangeN _ _, _, _, _, h, _, _ => by rw [simpleN] at h; cases h
  | .ngRangeNM _ _ _, _, _, _, h, _, _ => by rw [simpleN] at h; cases h
end

end Verif.RegExp
