import Verif.RegExp.Nodes

/-!
# Repetitions do what the specification says (for C29)
-/
namespace Verif.RegExp

theorem one_find {α β : Type} (q : α) (K : α → Option β) : [q].findSome? K = K q := by
  rw [List.findSome?_cons]; cases K q <;> rfl

theorem or_none' (a : Option Int) : a.or none = a := by cases a <;> rfl

/-! ## `x*`, `x+`, `x*?`, `x+?` with any body -/

section loop
variable {env : Env} {H : Int} {n : Node} {b ns : List Node} {up : List (List Node)} {lzy : Bool} {K : Int → Option Int} {Tn : Addr → Prop} {sok : Sok}
  {Fin : Int → Mem → Prop} {Inv : Mem → Prop}

/-- what holds at the node of the loop while its body runs from `q` on -/
def BodyInv (env : Env) (b : List Node) (lzy : Bool) (K : Int → Option Int) (a : Addr) (Inv : Mem → Prop) (q : Int) (m : Mem) : Prop :=
  Inv m ∧ (m.vars a).p0 = 0 ∧ ((m.vars a).old ≤ q ∨ (ends env b (m.vars a).old).findSome? (loopK env (ends env b) lzy K) = none)

/-- the run of the body of a loop, given the visits of the loop at later positions -/
theorem loop_body (hb : LeftOk env H b) (hf : inFrag true b = true) (hfwd : Fwd H 1 (ends env b))
    (hown : ∀ p0 old, sok (addr ((n :: ns) :: up)) p0 old → LoopOk env (ends env b) lzy K p0 old)
    (hag : Agree env sok b ((n :: ns) :: up) (loopK env (ends env b) lzy K))
    (hst : Stable (fun a => Sub (addr ((n :: ns) :: up)) a ∨ Tn a) sok Inv) (hloc : Loc (Sub (addr ((n :: ns) :: up))) Inv)
    {q : Int} (h0 : 0 ≤ q) (h1 : q ≤ H)
    (hr : ∀ r ∈ ends env b q, ∀ m S, Inv m → (m.vars (addr ((n :: ns) :: up))).p0 = 0 →
      ((m.vars (addr ((n :: ns) :: up))).old < r ∨
        (ends env b (m.vars (addr ((n :: ns) :: up))).old).findSome? (loopK env (ends env b) lzy K) = none) →
      Lands env ⟨⟨(n :: ns) :: up, false, r⟩, none, m, S⟩ (loopK env (ends env b) lzy K r).isSome S
        (Post (fun a => Sub (addr ((n :: ns) :: up)) a ∨ Tn a) sok Fin m (loopK env (ends env b) lzy K r))) :
    Runs env (fun a => Sub (addr ((n :: ns) :: up)) a ∨ Tn a) sok Fin (BodyInv env b lzy K (addr ((n :: ns) :: up)) Inv q)
      ⟨b :: (n :: ns) :: up, true, q⟩ ((ends env b q).findSome? (loopK env (ends env b) lzy K)) := by
  have h := hb true ((n :: ns) :: up) (loopK env (ends env b) lzy K) (fun a => Sub (addr ((n :: ns) :: up)) a ∨ Tn a) sok Fin
    (BodyInv env b lzy K (addr ((n :: ns) :: up)) Inv q) q hf h0 h1 hag (by simp) ?_ ?_ ?_
  · exact h.mono fun a ha => ha.elim (fun x => Or.inl x.sub) id
  · rintro m m' ⟨i1, i2, i3⟩ hl
    refine ⟨hst m m' i1 (hl.mono fun a ha => ha.elim (fun x => Or.inl x.sub) id), ?_⟩
    rcases hl.ok (addr ((n :: ns) :: up)) with ⟨e1, e2⟩ | e
    · rw [e1, e2]; exact ⟨i2, i3⟩
    · obtain ⟨e1, e2⟩ := hown _ _ e
      exact ⟨e1, e2.imp (fun x => by omega) id⟩
  · rintro m m' ⟨i1, i2, i3⟩ hfr
    refine ⟨hloc m m' i1 (fun a ha => hfr a fun x => ha x.sub), ?_⟩
    rw [hfr _ fun x => x.ne rfl]
    exact ⟨i2, i3⟩
  · rintro r hr' m S ⟨i1, i2, i3⟩
    have := hfwd q r h0 h1 hr'
    exact hr r hr' m S i1 i2 (i3.imp (fun x => by omega) id)

/-- a visit of a greedy loop whose counter is 0 -/
theorem loop_greedy {s : Int} (he : EnvOk env H) (hn : n = .rangeN s b) (hb : LeftOk env H b) (hf : inFrag true b = true) (hfwd : Fwd H 1 (ends env b))
    (hown : ∀ p0 old, sok (addr ((n :: ns) :: up)) p0 old ↔ LoopOk env (ends env b) false K p0 old)
    (hag : Agree env sok b ((n :: ns) :: up) (loopK env (ends env b) false K))
    (hst : Stable (fun a => Sub (addr ((n :: ns) :: up)) a ∨ Tn a) sok Inv) (hloc : Loc (Sub (addr ((n :: ns) :: up))) Inv) (k : Nat) :
    ∀ (q : Int), 0 ≤ q → q ≤ H → H - q ≤ k →
    (∀ r ∈ star env (ends env b) false q, Runs env Tn sok Fin Inv ⟨ns :: up, true, r⟩ (K r)) → ∀ (left : Bool) m S, Inv m →
    (initVars (m.vars (addr ((n :: ns) :: up))) left s (m.vars (addr ((n :: ns) :: up))).p1).p0 = 0 →
    ((initVars (m.vars (addr ((n :: ns) :: up))) left s (m.vars (addr ((n :: ns) :: up))).p1).old < q ∨
      (ends env b (initVars (m.vars (addr ((n :: ns) :: up))) left s (m.vars (addr ((n :: ns) :: up))).p1).old).findSome?
        (loopK env (ends env b) false K) = none) →
    Lands env ⟨⟨(n :: ns) :: up, left, q⟩, none, m, S⟩ (loopK env (ends env b) false K q).isSome S
        (Post (fun a => Sub (addr ((n :: ns) :: up)) a ∨ Tn a) sok Fin m (loopK env (ends env b) false K q)) := by
  induction k using Nat.strongRecOn with
  | _ k ih =>
    intro q h0 h1 hk hcont left m S hi hp0 hold
    generalize hv : initVars (m.vars (addr ((n :: ns) :: up))) left s (m.vars (addr ((n :: ns) :: up))).p1 = v at hp0 hold
    have hs : step env ⟨⟨(n :: ns) :: up, left, q⟩, none, m, S⟩ =
        after ⟨(n :: ns) :: up, left, q⟩ S (execRangeN ns up n s b left q m) := by subst hn; rfl
    have hself := hcont q (star_self he false hfwd h0 h1)
    rw [loopK_unfold he false hfwd K h0 h1]
    simp only [Bool.false_eq_true, if_false]
    by_cases hq : v.old = q
    · -- the body is known to fail here
      have hno : (ends env b q).findSome? (loopK env (ends env b) false K) = none := by
        rcases hold with h | h
        · omega
        · rw [hq] at h; exact h
      rw [hno, Option.none_or]
      have hs' : step env ⟨⟨(n :: ns) :: up, left, q⟩, none, m, S⟩ =
          .inl ⟨⟨ns :: up, true, q⟩, none, m.set (addr ((n :: ns) :: up)) v, S⟩ := by
        rw [hs]
        simp only [execRangeN, hv, hp0, hq, and_self, if_true]
        rfl
      refine lands_goto hs' (pre_set (Or.inl (Sub.refl _)) fun _ => Or.inr ?_) (hloc.set hi (Sub.refl _) _) hself fun a ha => Or.inr ha
      rw [hown]
      exact ⟨hp0, Or.inr (by rw [hq]; exact hno)⟩
    · have hs' : step env ⟨⟨(n :: ns) :: up, left, q⟩, none, m, S⟩ =
          .inl ⟨⟨b :: (n :: ns) :: up, true, q⟩, none, m.set (addr ((n :: ns) :: up)) { v with old := q },
            ⟨⟨(n :: ns) :: up, left, q⟩, .yes, .rangeN2⟩ :: S⟩ := by
        rw [hs]
        simp only [execRangeN, hv, hp0, hq, and_false, if_true, if_false]
        rfl
      have hi1 := hloc.set hi (Sub.refl _) { v with old := q }
      have hbody := loop_body (Fin := Fin) hb hf hfwd (fun p0 old => (hown p0 old).mp) hag hst hloc h0 h1 (by
        intro r hr m S i1 i2 i3
        have hlt := hfwd q r h0 h1 hr
        exact ih (H - r).toNat (by omega) r (by omega) hlt.2 (by omega)
          (fun r' hr' => hcont r' (star_mem he false hfwd h0 h1 hr hr')) false m S i1 i2 i3)
      refine lands_alt rfl hs' (hbody _ _ ⟨hi1, by rw [set_same]; exact hp0, by rw [set_same]; exact Or.inl (Int.le_refl q)⟩) ?_ ?_
      · intro r m2 hr hp
        rw [hr] at hp ⊢
        exact (pre_set (Or.inl (Sub.refl _)) (by simp)).post hp
      · intro hno m2 hp
        have hl : Link (fun a => Sub (addr ((n :: ns) :: up)) a ∨ Tn a) sok m m2 := by
          refine (link_set (Or.inl (Sub.refl _)) (Or.inr ?_)).trans (hp.link hno)
          rw [hown]
          exact ⟨hp0, Or.inr hno⟩
        have hi2 : Inv m2 := hst m m2 hi hl
        rw [hno, Option.none_or]
        rw [← or_none' (K q)]
        refine lands_alt (c := ⟨(n :: ns) :: up, left, q⟩) rfl rfl (hself m2 _ hi2) ?_ ?_
        · intro r m3 hr hp3
          rw [hr] at hp3 ⊢
          exact hl.pre.post (hp3.mono fun a ha => Or.inr ha)
        · intro hno2 m3 hp3
          refine lands_no rfl ?_
          rw [hno2] at hp3 ⊢
          exact hl.pre.post (hp3.mono fun a ha => Or.inr ha)

/-- a visit of a lazy loop whose counter is 0 -/
theorem loop_lazy {s : Int} (he : EnvOk env H) (hn : n = .ngRangeN s b) (hb : LeftOk env H b) (hf : inFrag true b = true) (hfwd : Fwd H 1 (ends env b))
    (hown : ∀ p0 old, sok (addr ((n :: ns) :: up)) p0 old ↔ LoopOk env (ends env b) true K p0 old)
    (hag : Agree env sok b ((n :: ns) :: up) (loopK env (ends env b) true K))
    (hst : Stable (fun a => Sub (addr ((n :: ns) :: up)) a ∨ Tn a) sok Inv) (hloc : Loc (Sub (addr ((n :: ns) :: up))) Inv) (k : Nat) :
    ∀ (q : Int), 0 ≤ q → q ≤ H → H - q ≤ k →
    (∀ r ∈ star env (ends env b) true q, Runs env Tn sok Fin Inv ⟨ns :: up, true, r⟩ (K r)) → ∀ (left : Bool) m S, Inv m →
    (initVars (m.vars (addr ((n :: ns) :: up))) left s (m.vars (addr ((n :: ns) :: up))).p1).p0 = 0 →
    ((initVars (m.vars (addr ((n :: ns) :: up))) left s (m.vars (addr ((n :: ns) :: up))).p1).old < q ∨
      (ends env b (initVars (m.vars (addr ((n :: ns) :: up))) left s (m.vars (addr ((n :: ns) :: up))).p1).old).findSome?
        (loopK env (ends env b) true K) = none) →
    Lands env ⟨⟨(n :: ns) :: up, left, q⟩, none, m, S⟩ (loopK env (ends env b) true K q).isSome S
        (Post (fun a => Sub (addr ((n :: ns) :: up)) a ∨ Tn a) sok Fin m (loopK env (ends env b) true K q)) := by
  induction k using Nat.strongRecOn with
  | _ k ih =>
    intro q h0 h1 hk hcont left m S hi hp0 hold
    generalize hv : initVars (m.vars (addr ((n :: ns) :: up))) left s (m.vars (addr ((n :: ns) :: up))).p1 = v at hp0 hold
    have hs : step env ⟨⟨(n :: ns) :: up, left, q⟩, none, m, S⟩ =
        after ⟨(n :: ns) :: up, left, q⟩ S (execNGRangeN ns up n s b left q m) := by subst hn; rfl
    have hself := hcont q (star_self he true hfwd h0 h1)
    rw [loopK_unfold he true hfwd K h0 h1]
    simp only [if_true]
    by_cases hq : v.old = q
    · have hno : (ends env b q).findSome? (loopK env (ends env b) true K) = none := by
        rcases hold with h | h
        · omega
        · rw [hq] at h; exact h
      rw [hno, or_none']
      have hs' : step env ⟨⟨(n :: ns) :: up, left, q⟩, none, m, S⟩ =
          .inl ⟨⟨ns :: up, true, q⟩, none, m.set (addr ((n :: ns) :: up)) v, S⟩ := by
        rw [hs]
        simp only [execNGRangeN, hv, hp0, hq, and_self, if_true]
        rfl
      refine lands_goto hs' (pre_set (Or.inl (Sub.refl _)) fun _ => Or.inr ?_) (hloc.set hi (Sub.refl _) _) hself fun a ha => Or.inr ha
      rw [hown]
      exact ⟨hp0, Or.inr (by rw [hq]; exact hno)⟩
    · have hs' : step env ⟨⟨(n :: ns) :: up, left, q⟩, none, m, S⟩ =
          .inl ⟨⟨ns :: up, true, q⟩, none, m.set (addr ((n :: ns) :: up)) { v with old := q },
            ⟨⟨(n :: ns) :: up, left, q⟩, .yes, .ngRangeN2⟩ :: S⟩ := by
        rw [hs]
        simp only [execNGRangeN, hv, hp0, hq, and_false, if_true, if_false]
        rfl
      have hi1 := hloc.set hi (Sub.refl _) { v with old := q }
      have hbody := loop_body (Fin := Fin) hb hf hfwd (fun p0 old => (hown p0 old).mp) hag hst hloc h0 h1 (by
        intro r hr m S i1 i2 i3
        have hlt := hfwd q r h0 h1 hr
        exact ih (H - r).toNat (by omega) r (by omega) hlt.2 (by omega)
          (fun r' hr' => hcont r' (star_mem he true hfwd h0 h1 hr hr')) false m S i1 i2 i3)
      refine lands_alt rfl hs' (hself _ _ hi1) ?_ ?_
      · intro r m2 hr hp
        rw [hr] at hp ⊢
        exact (pre_set (Or.inl (Sub.refl _)) (by simp)).post (hp.mono fun a ha => Or.inr ha)
      · intro hno m2 hp
        have hl1 := (hp.link hno).mono (T' := fun a => Sub (addr ((n :: ns) :: up)) a ∨ Tn a) fun a ha => Or.inr ha
        have hi2 : Inv m2 := hst _ m2 hi1 hl1
        have ho : (m2.vars (addr ((n :: ns) :: up))).p0 = 0 ∧ ((m2.vars (addr ((n :: ns) :: up))).old ≤ q ∨
            (ends env b (m2.vars (addr ((n :: ns) :: up))).old).findSome? (loopK env (ends env b) true K) = none) := by
          rcases hl1.ok (addr ((n :: ns) :: up)) with ⟨e1, e2⟩ | e
          · rw [set_same] at e1 e2
            rw [e1, e2]
            exact ⟨hp0, Or.inl (Int.le_refl q)⟩
          · rw [hown] at e
            exact ⟨e.1, e.2.imp (fun x => by omega) id⟩
        rw [hno, Option.none_or]
        have hs2 : step env ⟨⟨(n :: ns) :: up, left, q⟩, some .ngRangeN2, m2, S⟩ = .inl ⟨⟨b :: (n :: ns) :: up, true, q⟩, none, m2, S⟩ := by
          have : step env ⟨⟨(n :: ns) :: up, left, q⟩, some .ngRangeN2, m2, S⟩ = .inl ⟨⟨n.body :: (n :: ns) :: up, true, q⟩, none,
            if (m2.vars (addr ((n :: ns) :: up))).p0 = 0 then m2 else
              m2.set (addr ((n :: ns) :: up)) { m2.vars (addr ((n :: ns) :: up)) with p0 := (m2.vars (addr ((n :: ns) :: up))).p0 - 1 }, S⟩ := rfl
          rw [this, if_pos ho.1]
          subst hn
          rfl
        refine lands_step hs2 (lands_mono (hbody m2 S ⟨hi2, ho⟩) fun m3 hp3 => Pre.post ?_ hp3)
        refine Pre.trans (pre_set (Or.inl (Sub.refl _)) fun hr => Or.inr ?_) hl1.pre
        rw [hown]
        exact ⟨hp0, Or.inr hr⟩

end loop

theorem loop_first {s : Int} {f g : Int → List Int} {K : Int → Option Int} (p : Int) (h0 : 0 ≤ s) (h1 : s ≤ 1) :
    ((times f s.toNat p).flatMap g).findSome? K =
      if s = 0 then (g p).findSome? K else (f p).findSome? fun q => (g q).findSome? K := by
  rw [find_flatMap]
  by_cases h : s = 0
  · subst h; simp only [Int.toNat_zero, times, one_find, if_true]
  · have : s = 1 := by omega
    subst this
    simp only [Int.toNat_one, times, find_flatMap, one_find]
    rfl

theorem node_rangeN1 {env : Env} {H : Int} (he : EnvOk env H) {s : Int} {b : List Node} (hb : LeftOk env H b) (hs1 : s ≤ 1) :
    NodeOk env H (.rangeN s b) := by
  intro il ns up K Tn sok Fin Inv p hf h0 h1 hag hdis hst hloc hk m S hi
  rw [inFragN, if_pos hs1, Bool.and_eq_true, Bool.and_eq_true, decide_eq_true_eq, decide_eq_true_eq] at hf
  obtain ⟨⟨hs0, hlen⟩, hf⟩ := hf
  have hfwd : Fwd H 1 (ends env b) := (ends_fwd he b).mono hlen
  have hown : ∀ p0 old, sok (addr ((.rangeN s b :: ns) :: up)) p0 old ↔ LoopOk env (ends env b) false K p0 old := by
    intro p0 old
    rw [hag _ p0 old (Sub.refl _), sokN]
    exact ⟨fun x => (x hs1).1 rfl, fun x _ => ⟨fun _ => x, sokL_off _ _ _ _ _ _ fun hr => hr.ne rfl⟩⟩
  have hag' : Agree env sok b ((.rangeN s b :: ns) :: up) (loopK env (ends env b) false K) := by
    refine hag.body fun a p0 old ha => ?_
    rw [sokN]
    exact ⟨fun x => (x hs1).2, fun x _ => ⟨fun e => absurd e ha, x⟩⟩
  have hcont : ∀ r q, q ∈ times (ends env b) s.toNat p → r ∈ star env (ends env b) false q → Runs env Tn sok Fin Inv ⟨ns :: up, true, r⟩ (K r) := by
    intro r q hq hr
    refine hk r ?_
    rw [endsN, List.mem_flatMap]
    exact ⟨q, hq, hr⟩
  rw [endsN, loop_first p hs0 hs1]
  by_cases h : s = 0
  · rw [if_pos h]
    refine loop_greedy he rfl hb hf hfwd hown hag' hst hloc (H - p).toNat p h0 h1 (by omega)
      (fun r hr => hcont r p (by subst h; simp [times]) hr) true m S hi ?_ ?_
    · simp [initVars, h]
    · left; simp [initVars]; omega
  · rw [if_neg h]
    have h1' : s = 1 := by omega
    have hbody := loop_body (Fin := Fin) (ns := ns) (up := up) (n := .rangeN s b) (lzy := false) (K := K) hb hf hfwd (fun p0 old => (hown p0 old).mp)
      hag' hst hloc h0 h1 (by
      intro r hr m S i1 i2 i3
      have hlt := hfwd p r h0 h1 hr
      exact loop_greedy he rfl hb hf hfwd hown hag' hst hloc (H - r).toNat r (by omega) hlt.2 (by omega)
        (fun r' hr' => hcont r' r (by subst h1'; simp [times, hr]) hr') false m S i1 i2 i3)
    have hs' : step env ⟨⟨(.rangeN s b :: ns) :: up, true, p⟩, none, m, S⟩ = .inl ⟨⟨b :: (.rangeN s b :: ns) :: up, true, p⟩, none,
        m.set (addr ((.rangeN s b :: ns) :: up)) { m.vars (addr ((.rangeN s b :: ns) :: up)) with p0 := s - 1, old := p }, S⟩ := by
      have : step env ⟨⟨(.rangeN s b :: ns) :: up, true, p⟩, none, m, S⟩ =
        after ⟨(.rangeN s b :: ns) :: up, true, p⟩ S (execRangeN ns up (.rangeN s b) s b true p m) := rfl
      rw [this]
      simp only [execRangeN, initVars, if_true, h, false_and, if_false]
      rfl
    refine lands_goto hs' (pre_set (Or.inl (Sub.refl _)) fun hr => Or.inr ?_) ⟨hloc.set hi (Sub.refl _) _, ?_, ?_⟩ hbody fun a ha => ha
    · rw [hown]
      refine ⟨?_, Or.inr hr⟩
      show s - 1 = 0
      omega
    · rw [set_same]
      show s - 1 = 0
      omega
    · rw [set_same]; exact Or.inl (Int.le_refl p)

theorem node_ngRangeN {env : Env} {H : Int} (he : EnvOk env H) {s : Int} {b : List Node} (hb : LeftOk env H b) :
    NodeOk env H (.ngRangeN s b) := by
  intro il ns up K Tn sok Fin Inv p hf h0 h1 hag hdis hst hloc hk m S hi
  rw [inFragN, Bool.and_eq_true, Bool.and_eq_true, Bool.and_eq_true, decide_eq_true_eq, decide_eq_true_eq, decide_eq_true_eq] at hf
  obtain ⟨⟨⟨hs0, hs1⟩, hlen⟩, hf⟩ := hf
  have hfwd : Fwd H 1 (ends env b) := (ends_fwd he b).mono hlen
  have hown : ∀ p0 old, sok (addr ((.ngRangeN s b :: ns) :: up)) p0 old ↔ LoopOk env (ends env b) true K p0 old := by
    intro p0 old
    rw [hag _ p0 old (Sub.refl _), sokN]
    exact ⟨fun x => x.1 rfl, fun x => ⟨fun _ => x, sokL_off _ _ _ _ _ _ fun hr => hr.ne rfl⟩⟩
  have hag' : Agree env sok b ((.ngRangeN s b :: ns) :: up) (loopK env (ends env b) true K) := by
    refine hag.body fun a p0 old ha => ?_
    rw [sokN]
    exact ⟨fun x => x.2, fun x => ⟨fun e => absurd e ha, x⟩⟩
  have hcont : ∀ r q, q ∈ times (ends env b) s.toNat p → r ∈ star env (ends env b) true q → Runs env Tn sok Fin Inv ⟨ns :: up, true, r⟩ (K r) := by
    intro r q hq hr
    refine hk r ?_
    rw [endsN, List.mem_flatMap]
    exact ⟨q, hq, hr⟩
  rw [endsN, loop_first p hs0 hs1]
  by_cases h : s = 0
  · rw [if_pos h]
    refine loop_lazy he rfl hb hf hfwd hown hag' hst hloc (H - p).toNat p h0 h1 (by omega)
      (fun r hr => hcont r p (by subst h; simp [times]) hr) true m S hi ?_ ?_
    · simp [initVars, h]
    · left; simp [initVars]; omega
  · rw [if_neg h]
    have h1' : s = 1 := by omega
    have hbody := loop_body (Fin := Fin) (ns := ns) (up := up) (n := .ngRangeN s b) (lzy := true) (K := K) hb hf hfwd (fun p0 old => (hown p0 old).mp)
      hag' hst hloc h0 h1 (by
      intro r hr m S i1 i2 i3
      have hlt := hfwd p r h0 h1 hr
      exact loop_lazy he rfl hb hf hfwd hown hag' hst hloc (H - r).toNat r (by omega) hlt.2 (by omega)
        (fun r' hr' => hcont r' r (by subst h1'; simp [times, hr]) hr') false m S i1 i2 i3)
    have hs' : step env ⟨⟨(.ngRangeN s b :: ns) :: up, true, p⟩, none, m, S⟩ = .inl ⟨⟨b :: (.ngRangeN s b :: ns) :: up, true, p⟩, none,
        m.set (addr ((.ngRangeN s b :: ns) :: up)) { m.vars (addr ((.ngRangeN s b :: ns) :: up)) with p0 := s - 1, old := p }, S⟩ := by
      have : step env ⟨⟨(.ngRangeN s b :: ns) :: up, true, p⟩, none, m, S⟩ =
        after ⟨(.ngRangeN s b :: ns) :: up, true, p⟩ S (execNGRangeN ns up (.ngRangeN s b) s b true p m) := rfl
      rw [this]
      simp only [execNGRangeN, initVars, if_true, h, false_and, if_false]
      rfl
    refine lands_goto hs' (pre_set (Or.inl (Sub.refl _)) fun hr => Or.inr ?_) ⟨hloc.set hi (Sub.refl _) _, ?_, ?_⟩ hbody fun a ha => ha
    · rw [hown]
      refine ⟨?_, Or.inr hr⟩
      show s - 1 = 0
      omega
    · rw [set_same]
      show s - 1 = 0
      omega
    · rw [set_same]; exact Or.inl (Int.le_refl p)

end Verif.RegExp
