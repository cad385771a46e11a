import Verif.RegExp.Counted

/-!
# The whole matcher does what the specification says (C29)
-/
namespace Verif.RegExp

theorem node_leaf {env : Env} {H : Int} (he : EnvOk env H) {n : Node} (h : ∀ il, inFragN il n = true → simpleN n = true) : NodeOk env H n := by
  intro il ns up K Tn sok Fin Inv p hf h0 h1
  exact node_det (fun ns up p h0 h1 => det_node he n ns up p (h il hf) h0 h1) il ns up K Tn sok Fin Inv p hf h0 h1

theorem node_behind {env : Env} {H : Int} {k : Nat} {b : List Node} (hb : LeftOk env H b) : NodeOk env H (.behind k b) := by
  intro il ns up K Tn sok Fin Inv p hf h0 h1 hag hdis hst hloc hk
  rw [inFragN] at hf
  by_cases h : p - k < 0
  · have e : endsN env (.behind k b) p = [] := by rw [endsN, if_pos h]
    rw [e]
    intro m S hi
    refine lands_pop (m := m) ?_ (Link.refl _ _ m).post
    have : step env ⟨⟨(.behind k b :: ns) :: up, true, p⟩, none, m, S⟩ =
      after ⟨(.behind k b :: ns) :: up, true, p⟩ S (if p - k < 0 then (.fail, m) else (.call ⟨b :: (.behind k b :: ns) :: up, true, p - k⟩ .brk .no, m)) := rfl
    rw [this, if_pos h]; rfl
  · refine node_look (n := .behind k b) hb false (p := p) (p' := p - k) (by omega) (by omega) hf (fun m => ?_) (fun _ _ => rfl)
      (fun _ _ _ _ _ => by rw [sokN]; trivial) ?_ hag hloc hk
    · show (if p - k < 0 then (Res.fail, m) else (.call ⟨b :: (.behind k b :: ns) :: up, true, p - k⟩ .brk .no, m)) = _
      rw [if_neg h]; rfl
    · rw [endsN, if_neg h]
      by_cases hh : ends env b (p - k) = [] <;> simp [hh]

theorem node_nbehind {env : Env} {H : Int} {k : Nat} {b : List Node} (hb : LeftOk env H b) : NodeOk env H (.nbehind k b) := by
  intro il ns up K Tn sok Fin Inv p hf h0 h1 hag hdis hst hloc hk
  rw [inFragN] at hf
  by_cases h : p - k < 0
  · have e : endsN env (.nbehind k b) p = [p] := by rw [endsN, if_pos h]
    rw [e] at hk ⊢
    rw [one_find]
    intro m S hi
    refine lands_goto (m1 := m) ?_ (Link.refl _ _ m).pre hi (hk p (by simp)) fun a ha => Or.inr ha
    have : step env ⟨⟨(.nbehind k b :: ns) :: up, true, p⟩, none, m, S⟩ = after ⟨(.nbehind k b :: ns) :: up, true, p⟩ S
        (if p - k ≥ 0 then (.call ⟨b :: (.nbehind k b :: ns) :: up, true, p - k⟩ .no .brk, m) else (.goto ⟨ns :: up, true, p⟩, m)) := rfl
    rw [this, if_neg (by omega)]; rfl
  · refine node_look (n := .nbehind k b) hb true (p := p) (p' := p - k) (by omega) (by omega) hf (fun m => ?_) (fun _ _ => rfl)
      (fun _ _ _ _ _ => by rw [sokN]; trivial) ?_ hag hloc hk
    · show (if p - k ≥ 0 then (Res.call ⟨b :: (.nbehind k b :: ns) :: up, true, p - k⟩ .no .brk, m) else (.goto ⟨ns :: up, true, p⟩, m)) = _
      rw [if_pos (by omega)]; rfl
    · rw [endsN, if_neg h]
      by_cases hh : ends env b (p - k) = [] <;> simp [hh]

/-- a chain behind a node that is not an alternative -/
theorem left_cons {env : Env} {H : Int} (he : EnvOk env H) {n : Node} {ns : List Node} (hno : isOr n = false) (hn : NodeOk env H n)
    (hns : LeftOk env H ns) : LeftOk env H (n :: ns) := by
  intro il up K Tc sok Fin Inv p hf h0 h1 hag hdis hst hloc hk
  rw [inFrag, Bool.and_eq_true] at hf
  have hends : ends env (n :: ns) p = (endsN env n p).flatMap (ends env ns) := by rw [ends, hno]; rfl
  have hafter : afterK env n ns K = fun q => (ends env ns q).findSome? K := by rw [afterK, hno]; rfl
  have key := hn il ns up (fun q => (ends env ns q).findSome? K) (fun a => Reg ns.length (addr up) a ∨ Tc a) sok Fin Inv p hf.1 h0 h1
    (by have := hag.node; rw [hafter] at this; exact this)
    (by
      rintro hil a (ha | ha) hs
      · exact sub_not_reg hs ha
      · exact hdis hil a ha hs.reg)
    (hst.mono (by
      rintro a (ha | ha | ha)
      · exact Or.inl ha.reg
      · exact Or.inl (ha.mono (by simp))
      · exact Or.inr ha))
    (hloc.mono fun a ha => ha.reg)
    (by
      intro q hq
      have := endsN_fwd he n p q h0 h1 hq
      refine hns il up K Tc sok Fin Inv q hf.2 (by omega) this.2 hag.tail (fun hil a ha hr => hdis hil a ha (hr.mono (by simp))) ?_ ?_ ?_
      · exact hst.mono fun a ha => ha.imp (fun x => x.mono (by simp)) id
      · exact hloc.mono fun a ha => ha.mono (by simp)
      · intro r hr
        refine hk r ?_
        rw [hends, List.mem_flatMap]
        exact ⟨q, hq, hr⟩)
  rw [hends, find_flatMap]
  refine key.mono ?_
  rintro a (ha | ha | ha)
  · exact Or.inl ha.reg
  · exact Or.inl (ha.mono (by simp))
  · exact Or.inr ha

/-- an alternative -/
theorem left_or {env : Env} {H : Int} {b ns : List Node} (hb : LeftOk env H b) (hns : LeftOk env H ns) : LeftOk env H (.or b :: ns) := by
  intro il up K Tc sok Fin Inv p hf h0 h1 hag hdis hst hloc hk m S hi
  rw [inFrag, Bool.and_eq_true, inFragN] at hf
  have hends : ends env (.or b :: ns) p = ends env b p ++ ends env ns p := by rw [ends, endsN]; rfl
  have hnode : AgreeAt env sok (.or b) ((.or b :: ns) :: up) K := hag.node
  have sub1 : ∀ a, Reg b.length (addr ((.or b :: ns) :: up)) a → Reg (Node.or b :: ns).length (addr up) a := fun a ha => ha.sub.reg
  have key := hb il ((.or b :: ns) :: up) K Tc sok Fin Inv p hf.1 h0 h1 (hnode.body fun a p0 old _ => by rw [sokN])
    (fun hil a ha hr => hdis hil a ha (sub1 a hr)) (hst.mono fun a ha => ha.imp (sub1 a) id) (hloc.mono sub1) (by
      intro q hq m S hi
      refine lands_goto (m1 := m) rfl (Link.refl _ _ m).pre hi (hk q (by rw [hends]; simp [hq])) fun a ha => ha)
  have key2 := hns il up K Tc sok Fin Inv p hf.2 h0 h1 hag.tail (fun hil a ha hr => hdis hil a ha (hr.mono (by simp)))
    (hst.mono fun a ha => ha.imp (fun x => x.mono (by simp)) id) (hloc.mono fun a ha => ha.mono (by simp))
    (fun q hq => hk q (by rw [hends]; simp [hq]))
  rw [hends, List.findSome?_append]
  have hs : step env ⟨⟨(.or b :: ns) :: up, true, p⟩, none, m, S⟩ = .inl ⟨⟨b :: (.or b :: ns) :: up, true, p⟩, none, m,
    ⟨⟨(.or b :: ns) :: up, true, p⟩, .yes, .brk⟩ :: S⟩ := rfl
  refine lands_alt rfl hs (key m _ hi) ?_ ?_
  · intro r m2 hr h
    rw [hr] at h ⊢
    exact h.mono fun a ha => ha.imp (sub1 a) id
  · intro hno m2 h
    have hl := (h.mono (T' := fun a => Reg (Node.or b :: ns).length (addr up) a ∨ Tc a) fun a ha => ha.imp (sub1 a) id).link hno
    rw [hno, Option.none_or]
    exact lands_step rfl (lands_mono (key2 m2 S (hst m m2 hi hl)) fun _ h2 => hl.pre.post (h2.mono fun a ha => ha.imp (fun x => x.mono (by simp)) id))

theorem left_nil {env : Env} {H : Int} : LeftOk env H [] := by
  intro il up K Tc sok Fin Inv p hf h0 h1 hag hdis hst hloc hk m S hi
  rw [ends] at hk ⊢
  rw [one_find]
  exact lands_goto (m1 := m) rfl (Link.refl _ _ m).pre hi (hk p (by simp)) fun a ha => Or.inr ha

mutual
theorem chain_ok {env : Env} {H : Int} (he : EnvOk env H) : ∀ l : List Node, LeftOk env H l
  | [] => left_nil
  | n :: ns => by
    have h1 := each_ok he n
    have h2 := chain_ok he ns
    cases ho : isOr n with
    | false => exact left_cons he ho (h1.1 ho) h2
    | true =>
      cases n with
      | or b => exact left_or (h1.2 _ rfl) h2
      | _ => exact absurd ho (by simp [isOr])
theorem each_ok {env : Env} {H : Int} (he : EnvOk env H) : ∀ n : Node, (isOr n = false → NodeOk env H n) ∧ ∀ b, n = .or b → LeftOk env H b
  | .empty => ⟨fun _ => node_leaf he fun _ _ => by rw [simpleN], by simp⟩
  | .msym k => ⟨fun _ => node_leaf he fun _ _ => by rw [simpleN], by simp⟩
  | .symb _ => ⟨fun _ => node_leaf he fun _ _ => by rw [simpleN], by simp⟩
  | .word _ => ⟨fun _ => node_leaf he fun _ _ => by rw [simpleN], by simp⟩
  | .enum _ => ⟨fun _ => node_leaf he fun _ _ => by rw [simpleN], by simp⟩
  | .nenum _ => ⟨fun _ => node_leaf he fun _ _ => by rw [simpleN], by simp⟩
  | .bkTrace _ => ⟨fun _ => node_leaf he fun _ _ => by rw [simpleN], by simp⟩
  | .bkTraceN _ => ⟨fun _ => node_leaf he fun _ _ => by rw [simpleN], by simp⟩
  | .bkTraceName _ => ⟨fun _ => node_leaf he fun _ _ => by rw [simpleN], by simp⟩
  | .bkTraceNName _ => ⟨fun _ => node_leaf he fun _ h => (by rw [inFragN] at h; cases h), by simp⟩
  | .bkBrack _ => ⟨fun _ => node_leaf he fun _ h => (by rw [inFragN] at h; cases h), by simp⟩
  | .bkBrackName _ => ⟨fun _ => node_leaf he fun _ h => (by rw [inFragN] at h; cases h), by simp⟩
  | .brackets i b => by
    refine ⟨fun _ => node_wrap (chain_ok he b) (fun _ _ _ _ => rfl) (fun ns up q m => ?_) (fun p => by rw [endsN]) (fun il h => by rw [inFragN] at h; exact h)
      (fun pos K a p0 old => by rw [sokN]), by simp⟩
    cases i with
    | none => exact ⟨m, rfl, rfl⟩
    | some i => exact ⟨_, rfl, rfl⟩
  | .named i b => by
    refine ⟨fun _ => node_wrap (chain_ok he b) (fun _ _ _ _ => rfl) (fun ns up q m => ?_) (fun p => by rw [endsN]) (fun il h => by rw [inFragN] at h; exact h)
      (fun pos K a p0 old => by rw [sokN]), by simp⟩
    cases i with
    | none => exact ⟨m, rfl, rfl⟩
    | some i => exact ⟨_, rfl, rfl⟩
  | .ahead b => by
    refine ⟨fun _ => ?_, by simp⟩
    intro il ns up K Tn sok Fin Inv p hf h0 h1 hag hdis hst hloc hk
    rw [inFragN] at hf
    refine node_look (n := .ahead b) (chain_ok he b) false (p := p) (p' := p) h0 h1 hf (fun m => rfl) (fun _ _ => rfl)
      (fun _ _ _ _ _ => by rw [sokN]; trivial) ?_ hag hloc hk
    rw [endsN]
    by_cases hh : ends env b p = [] <;> simp [hh]
  | .nahead b => by
    refine ⟨fun _ => ?_, by simp⟩
    intro il ns up K Tn sok Fin Inv p hf h0 h1 hag hdis hst hloc hk
    rw [inFragN] at hf
    refine node_look (n := .nahead b) (chain_ok he b) true (p := p) (p' := p) h0 h1 hf (fun m => rfl) (fun _ _ => rfl)
      (fun _ _ _ _ _ => by rw [sokN]; trivial) ?_ hag hloc hk
    rw [endsN]
    by_cases hh : ends env b p = [] <;> simp [hh]
  | .behind k b => ⟨fun _ => node_behind (chain_ok he b), by simp⟩
  | .nbehind k b => ⟨fun _ => node_nbehind (chain_ok he b), by simp⟩
  | .or b => ⟨fun h => by simp [isOr] at h, fun b' h => by cases h; exact chain_ok he b⟩
  | .rangeN s b => by
    refine ⟨fun _ => ?_, by simp⟩
    by_cases hs : s ≤ 1
    · exact node_rangeN1 he (chain_ok he b) hs
    · exact node_rangeN2 he hs
  | .rangeNM s e b => ⟨fun _ => node_rangeNM he (chain_ok he b), by simp⟩
  | .ngRangeN s b => ⟨fun _ => node_ngRangeN he (chain_ok he b), by simp⟩
  | .ngRangeNM s e b => ⟨fun _ => node_ngRangeNM (chain_ok he b), by simp⟩
end

/-! ## A whole expression -/

/-- what group 0 holds after a success that began at `p` and ended at `r`: the end is `r` unless a mark `\M` was passed, the begin is `p` unless
a mark `\m` was passed, and the begin is not behind the end -/
def Whole (p r : Int) (m : Mem) : Prop :=
  (m.endChange = false → m.m.e 0 = r) ∧ (m.startChange = false → m.m.s 0 = min p (m.m.e 0)) ∧ m.m.s 0 ≤ m.m.e 0

theorem whole_close {p r : Int} (m : Mem) : Whole p r (m.close 0 p r) := by
  refine ⟨fun h => ?_, fun h => ?_, ?_⟩
  · have h : m.endChange = false := h
    simp [Mem.close, h, upd]
  · have h : m.startChange = false := h
    simp only [Mem.close]
    grind [upd]
  · simp only [Mem.close]
    grind [upd]

theorem run_root {env : Env} {H : Int} (he : EnvOk env H) (body : List Node) (hf : inFrag false body = true) {p : Int} (h0 : 0 ≤ p) (h1 : p ≤ H)
    (m : Mem) :
    ∃ k m', (∀ fuel, k ≤ fuel → run env fuel ⟨⟨[[.brackets (some 0) body]], true, p⟩, none, m, []⟩ =
        some (.ret (decide (ends env body p ≠ [])), m')) ∧
      ∀ r, (ends env body p).head? = some r → Whole p r m' := by
  have key := chain_ok he body false [[.brackets (some 0) body]] some (fun _ => False) (sokL env body [[.brackets (some 0) body]] some) (Whole p)
    (fun m => (m.vars [1]).start = p) p hf h0 h1 (fun _ _ _ _ => Iff.rfl) (by simp)
    (by
      intro m m' i1 hl
      rw [hl.frame]
      · exact i1
      · rintro (x | x)
        · exact x.ne rfl
        · exact x)
    (by
      intro m m' i1 hfr
      rw [hfr [1] fun x => x.ne rfl]
      exact i1)
    (by
      intro q hq m S i1
      refine lands_step (st1 := ⟨⟨[[]], true, q⟩, none, m.close 0 (m.vars [1]).start q, S⟩) rfl ?_
      refine lands_step (st1 := ⟨⟨[], false, q⟩, none, m.close 0 (m.vars [1]).start q, S⟩) rfl ?_
      refine lands_pop (m := m.close 0 (m.vars [1]).start q) rfl ⟨fun _ _ => rfl, by simp, ?_⟩
      intro r hr
      cases hr
      rw [i1]
      exact whole_close m)
  have hst : step env ⟨⟨[[.brackets (some 0) body]], true, p⟩, none, m, []⟩ = .inl ⟨⟨[body, [.brackets (some 0) body]], true, p⟩, none,
      m.set [1] { m.vars [1] with start := p }, []⟩ := rfl
  have hl := lands_step hst (key (m.set [1] { m.vars [1] with start := p }) [] (by show ((m.set _ _).vars [1]).start = p; rw [set_same]))
  obtain ⟨k, m', hp, hr⟩ := hl
  refine ⟨k, m', fun fuel hfuel => ?_, fun r hr => hp.fin r ?_⟩
  · obtain ⟨d, rfl⟩ : ∃ d, fuel = d + k := ⟨fuel - k, by omega⟩
    rw [hr d, pop, cont, find_some_isSome]
    simp
  · cases hl : ends env body p with
    | nil => rw [hl] at hr; cases hr
    | cons x xs => rw [hl] at hr; rw [List.findSome?_cons]; exact hr

end Verif.RegExp
