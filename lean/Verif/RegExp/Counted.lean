import Verif.RegExp.Loops

/-!
# Counted repetitions and `?` do what the specification says (for C29)
-/
namespace Verif.RegExp

/-! ## Counted repetitions of a body without choices -/

section counted
variable {env : Env} {H : Int} {n : Node} {b ns : List Node} {up : List (List Node)} {K : Int → Option Int} {Tn : Addr → Prop} {sok : Sok}
  {Fin : Int → Mem → Prop} {Inv : Mem → Prop}

theorem Eff.own {m m' : Mem} {N : Nat} {a : Addr} (h : Eff (Reg N a) m m') : m'.vars a = m.vars a := h.frame a fun x => x.ne rfl

/-- the last part of a repetition: what follows it, then the action `f`, which fails -/
theorem then_next {c : Cfg} {m m1 : Mem} {S : List Elem} {T : Addr → Prop} {act : Act} {f : Act} {q : Int} (hc : c.pos = (n :: ns) :: up)
    (hs : step env ⟨c, some act, m1, S⟩ = .inl ⟨⟨ns :: up, true, q⟩, none, m1, ⟨c, .yes, f⟩ :: S⟩)
    (hf : ∀ m2, ∃ m3, step env ⟨c, some f, m2, S⟩ = pop false m3 S ∧ Link T sok m2 m3) (hp : Link T sok m m1) (hi : Inv m1)
    (hk : Runs env Tn sok Fin Inv ⟨ns :: up, true, q⟩ (K q)) (ht : ∀ a, Tn a → T a) :
    Lands env ⟨c, some act, m1, S⟩ (K q).isSome S (Post T sok Fin m (K q)) := by
  rw [← or_none' (K q)]
  refine lands_alt (res2 := none) hc hs (hk m1 _ hi) ?_ ?_
  · intro r m2 hr h
    rw [hr] at h ⊢
    exact hp.pre.post (h.mono ht)
  · intro hno m2 h
    rw [hno] at h ⊢
    obtain ⟨m3, h3, l3⟩ := hf m2
    exact lands_pop h3 ((hp.trans ((h.mono ht).link rfl)).trans l3).post

theorem times_zero (f : Int → List Int) (q : Int) : times f 0 q = [q] := rfl

/-- a visit of `x{s,}`, with `k` repetitions still to count -/
theorem counted_N {s : Int} (he : EnvOk env H) (hn : n = .rangeN s b) (hb : simple b = true) (hfwd : Fwd H 1 (ends env b))
    (hown : ∀ p0 old, sok (addr ((n :: ns) :: up)) p0 old)
    (hst : Stable (fun a => Sub (addr ((n :: ns) :: up)) a ∨ Tn a) sok Inv) (hloc : Loc (Sub (addr ((n :: ns) :: up))) Inv) (d : Nat) :
    ∀ (k : Nat) (q : Int), 0 ≤ q → q ≤ H → H - q ≤ d →
    (∀ r ∈ (times (ends env b) k q).flatMap (star env (ends env b) false), Runs env Tn sok Fin Inv ⟨ns :: up, true, r⟩ (K r)) → ∀ (left : Bool) m S,
    Inv m → (initVars (m.vars (addr ((n :: ns) :: up))) left s (m.vars (addr ((n :: ns) :: up))).p1).p0 = k →
    (initVars (m.vars (addr ((n :: ns) :: up))) left s (m.vars (addr ((n :: ns) :: up))).p1).old < q →
    Lands env ⟨⟨(n :: ns) :: up, left, q⟩, none, m, S⟩ (((times (ends env b) k q).flatMap (star env (ends env b) false)).findSome? K).isSome S
        (Post (fun a => Sub (addr ((n :: ns) :: up)) a ∨ Tn a) sok Fin m
          (((times (ends env b) k q).flatMap (star env (ends env b) false)).findSome? K)) := by
  induction d using Nat.strongRecOn with
  | _ d ih =>
    intro k q h0 h1 hd hcont left m S hi hp0 hold
    generalize hv : initVars (m.vars (addr ((n :: ns) :: up))) left s (m.vars (addr ((n :: ns) :: up))).p1 = v at hp0 hold
    have hs : step env ⟨⟨(n :: ns) :: up, left, q⟩, none, m, S⟩ =
        after ⟨(n :: ns) :: up, left, q⟩ S (execRangeN ns up n s b left q m) := by subst hn; rfl
    have hdet := det_chain he b ((n :: ns) :: up) q hb h0 h1
    have hlinkset : ∀ (m : Mem) (w : Vars), Link (fun a => Sub (addr ((n :: ns) :: up)) a ∨ Tn a) sok m (m.set (addr ((n :: ns) :: up)) w) :=
      fun m w => link_set (Or.inl (Sub.refl _)) (Or.inr (hown _ _))
    have hefflink : ∀ {m m' : Mem}, Eff (Reg b.length (addr ((n :: ns) :: up))) m m' → Link (fun a => Sub (addr ((n :: ns) :: up)) a ∨ Tn a) sok m m' :=
      fun h => h.link fun a ha => Or.inl ha.sub
    cases k with
    | zero =>
      have hq : v.old ≠ q := by omega
      have hp0' : v.p0 = 0 := hp0
      have hs' : step env ⟨⟨(n :: ns) :: up, left, q⟩, none, m, S⟩ =
          .inl ⟨⟨b :: (n :: ns) :: up, true, q⟩, none, m.set (addr ((n :: ns) :: up)) { v with old := q },
            ⟨⟨(n :: ns) :: up, left, q⟩, .yes, .rangeN2⟩ :: S⟩ := by
        rw [hs]
        simp only [execRangeN, hv, hp0', hq, and_false, if_true, if_false]
        rfl
      have hcont' : ∀ r ∈ star env (ends env b) false q, Runs env Tn sok Fin Inv ⟨ns :: up, true, r⟩ (K r) := by
        intro r hr; exact hcont r (by simp [times, hr])
      have e0 : ((times (ends env b) 0 q).flatMap (star env (ends env b) false)).findSome? K = loopK env (ends env b) false K q := by
        rw [find_flatMap, times, one_find]; rfl
      rw [e0, loopK_unfold he false hfwd K h0 h1]
      simp only [Bool.false_eq_true, if_false]
      have hi1 := hloc.set hi (Sub.refl _) { v with old := q }
      have hl1 := hlinkset m { v with old := q }
      have hself := hcont' q (star_self he false hfwd h0 h1)
      have fin2 : ∀ m2, Link (fun a => Sub (addr ((n :: ns) :: up)) a ∨ Tn a) sok m m2 →
          Lands env ⟨⟨(n :: ns) :: up, left, q⟩, some .rangeN2, m2, S⟩ (K q).isSome S
            (Post (fun a => Sub (addr ((n :: ns) :: up)) a ∨ Tn a) sok Fin m (K q)) := fun m2 hl =>
        then_next (c := ⟨(n :: ns) :: up, left, q⟩) (f := .no) rfl rfl (fun m3 => ⟨m3, rfl, Link.refl _ _ _⟩) hl (hst m m2 hi hl) hself
          fun a ha => Or.inr ha
      rcases hdet with ⟨e, l⟩ | ⟨r, e, l⟩
      · rw [e]
        refine lands_step hs' (lands_bind (l _ _) fun m2 h2 => ?_)
        exact fin2 m2 (hl1.trans (hefflink h2))
      · have hr : r ∈ ends env b q := by rw [e]; simp
        have hlt := hfwd q r h0 h1 hr
        rw [e, one_find]
        obtain ⟨m2, f2, g2⟩ := l (m.set (addr ((n :: ns) :: up)) { v with old := q }) (⟨⟨(n :: ns) :: up, left, q⟩, .yes, .rangeN2⟩ :: S)
        have hv2 : m2.vars (addr ((n :: ns) :: up)) = { v with old := q } := by rw [f2.own, set_same]
        have hl2 := hl1.trans (hefflink f2)
        have next := ih (H - r).toNat (by omega) 0 r (by omega) hlt.2 (by omega)
          (fun r' hr' => hcont' r' (star_mem he false hfwd h0 h1 hr (by simpa [times] using hr'))) false m2
          (⟨⟨(n :: ns) :: up, left, q⟩, .yes, .rangeN2⟩ :: S) (hst m m2 hi hl2)
          (by show (m2.vars (addr ((n :: ns) :: up))).p0 = _; rw [hv2]; exact hp0)
          (by show (m2.vars (addr ((n :: ns) :: up))).old < _; rw [hv2]; show q < r; omega)
        have e1 : ((times (ends env b) 0 r).flatMap (star env (ends env b) false)).findSome? K = loopK env (ends env b) false K r := by
          rw [find_flatMap, times, one_find]; rfl
        rw [e1] at next
        refine lands_alt rfl hs' (lands_reach g2 next) ?_ ?_
        · intro r' m3 hr' hp
          rw [hr'] at hp ⊢
          exact hl2.pre.post hp
        · intro hno m3 hp
          rw [hno, Option.none_or]
          exact fin2 m3 (hl2.trans (hp.link hno))
    | succ k =>
      have hp0' : v.p0 ≠ 0 := by omega
      have hs' : step env ⟨⟨(n :: ns) :: up, left, q⟩, none, m, S⟩ =
          .inl ⟨⟨b :: (n :: ns) :: up, true, q⟩, none, m.set (addr ((n :: ns) :: up)) { v with old := q, p0 := v.p0 - 1 }, S⟩ := by
        rw [hs]
        simp only [execRangeN, hv, hp0', false_and, if_false]
        rfl
      have hl1 := hlinkset m { v with old := q, p0 := v.p0 - 1 }
      rw [times] at hcont ⊢
      rcases hdet with ⟨e, l⟩ | ⟨r, e, l⟩
      · rw [e]
        exact lands_step hs' (lands_mono (l _ _) fun m2 h2 => (hl1.trans (hefflink h2)).post)
      · have hr : r ∈ ends env b q := by rw [e]; simp
        have hlt := hfwd q r h0 h1 hr
        rw [e, List.flatMap_cons, List.flatMap_nil, List.append_nil] at hcont ⊢
        obtain ⟨m2, f2, g2⟩ := l (m.set (addr ((n :: ns) :: up)) { v with old := q, p0 := v.p0 - 1 }) S
        have hv2 : m2.vars (addr ((n :: ns) :: up)) = { v with old := q, p0 := v.p0 - 1 } := by rw [f2.own, set_same]
        have hl2 := hl1.trans (hefflink f2)
        have next := ih (H - r).toNat (by omega) k r (by omega) hlt.2 (by omega) hcont false m2 S (hst m m2 hi hl2)
          (by show (m2.vars (addr ((n :: ns) :: up))).p0 = _; rw [hv2]; show v.p0 - 1 = k; omega)
          (by show (m2.vars (addr ((n :: ns) :: up))).old < _; rw [hv2]; show q < r; omega)
        exact lands_step hs' (lands_reach g2 (lands_mono next fun m3 h3 => hl2.pre.post h3))

theorem node_rangeN2 {s : Int} (he : EnvOk env H) (hs2 : ¬ s ≤ 1) : NodeOk env H (.rangeN s b) := by
  intro il ns up K Tn sok Fin Inv p hf h0 h1 hag hdis hst hloc hk m S hi
  rw [inFragN, if_neg hs2, Bool.and_eq_true, Bool.and_eq_true, decide_eq_true_eq, decide_eq_true_eq] at hf
  obtain ⟨⟨hs0, hlen⟩, hf⟩ := hf
  rw [endsN] at hk ⊢
  refine counted_N he rfl hf ((ends_fwd he b).mono hlen) (fun p0 old => ?_) hst hloc (H - p).toNat s.toNat p h0 h1 (by omega) hk true m S hi ?_ ?_
  · rw [hag _ p0 old (Sub.refl _), sokN]
    exact fun x => absurd x hs2
  · simp [initVars]; omega
  · simp [initVars]; omega

/-- a visit of `x{s,e}`, with `k` repetitions still to count and `j` more allowed -/
theorem counted_NM {s e : Int} (he : EnvOk env H) (hn : n = .rangeNM s e b) (hb : simple b = true)
    (hown : ∀ p0 old, sok (addr ((n :: ns) :: up)) p0 old)
    (hst : Stable (fun a => Sub (addr ((n :: ns) :: up)) a ∨ Tn a) sok Inv) (hloc : Loc (Sub (addr ((n :: ns) :: up))) Inv) (d : Nat) :
    ∀ (k j : Nat) (q : Int), k + j = d → 0 ≤ q → q ≤ H →
    (∀ r ∈ (times (ends env b) k q).flatMap (rep (ends env b) false j), Runs env Tn sok Fin Inv ⟨ns :: up, true, r⟩ (K r)) → ∀ (left : Bool) m S,
    Inv m → (initVars (m.vars (addr ((n :: ns) :: up))) left s (e - s)).p0 = k →
    (initVars (m.vars (addr ((n :: ns) :: up))) left s (e - s)).p1 = j →
    Lands env ⟨⟨(n :: ns) :: up, left, q⟩, none, m, S⟩ (((times (ends env b) k q).flatMap (rep (ends env b) false j)).findSome? K).isSome S
        (Post (fun a => Sub (addr ((n :: ns) :: up)) a ∨ Tn a) sok Fin m
          (((times (ends env b) k q).flatMap (rep (ends env b) false j)).findSome? K)) := by
  induction d with
  | zero =>
    intro k j q hkj h0 h1 hcont left m S hi hp0 hp1
    have hk0 : k = 0 := by omega
    have hj0 : j = 0 := by omega
    subst hk0 hj0
    generalize hv : initVars (m.vars (addr ((n :: ns) :: up))) left s (e - s) = v at hp0 hp1
    have hp0' : v.p0 = 0 := hp0
    have hp1' : v.p1 = 0 := hp1
    have hs' : step env ⟨⟨(n :: ns) :: up, left, q⟩, none, m, S⟩ =
        .inl ⟨⟨ns :: up, true, q⟩, none, m.set (addr ((n :: ns) :: up)) v, ⟨⟨(n :: ns) :: up, left, q⟩, .yes, .no⟩ :: S⟩ := by
      have : step env ⟨⟨(n :: ns) :: up, left, q⟩, none, m, S⟩ =
        after ⟨(n :: ns) :: up, left, q⟩ S (execRangeNM ns up n s e b false left q m) := by subst hn; rfl
      rw [this]
      simp only [execRangeNM, hv, hp0', hp1', if_true]
      rfl
    have hl : Link (fun a => Sub (addr ((n :: ns) :: up)) a ∨ Tn a) sok m (m.set (addr ((n :: ns) :: up)) v) :=
      link_set (Or.inl (Sub.refl _)) (Or.inr (hown _ _))
    have e0 : ((times (ends env b) 0 q).flatMap (rep (ends env b) false 0)).findSome? K = K q := by
      rw [find_flatMap, times, one_find, rep, one_find]
    rw [e0, ← or_none' (K q)]
    refine lands_alt rfl hs' (hcont q (by simp [times, rep]) _ _ (hst m _ hi hl)) ?_ ?_
    · intro r m2 hr h
      rw [hr] at h ⊢
      exact hl.pre.post (h.mono fun a ha => Or.inr ha)
    · intro hno m2 h
      refine lands_no rfl ?_
      rw [hno] at h ⊢
      exact hl.pre.post (h.mono fun a ha => Or.inr ha)
  | succ d ih =>
    intro k j q hkj h0 h1 hcont left m S hi hp0 hp1
    generalize hv : initVars (m.vars (addr ((n :: ns) :: up))) left s (e - s) = v at hp0 hp1
    have hs : step env ⟨⟨(n :: ns) :: up, left, q⟩, none, m, S⟩ =
        after ⟨(n :: ns) :: up, left, q⟩ S (execRangeNM ns up n s e b false left q m) := by subst hn; rfl
    have hdet := det_chain he b ((n :: ns) :: up) q hb h0 h1
    have hlinkset : ∀ (m : Mem) (w : Vars), Link (fun a => Sub (addr ((n :: ns) :: up)) a ∨ Tn a) sok m (m.set (addr ((n :: ns) :: up)) w) :=
      fun m w => link_set (Or.inl (Sub.refl _)) (Or.inr (hown _ _))
    have hefflink : ∀ {m m' : Mem}, Eff (Reg b.length (addr ((n :: ns) :: up))) m m' → Link (fun a => Sub (addr ((n :: ns) :: up)) a ∨ Tn a) sok m m' :=
      fun h => h.link fun a ha => Or.inl ha.sub
    cases k with
    | zero =>
      obtain ⟨j, rfl⟩ : ∃ i, j = i + 1 := ⟨j - 1, by omega⟩
      have hp0' : v.p0 = 0 := hp0
      have hp1' : v.p1 ≠ 0 := by omega
      have hs' : step env ⟨⟨(n :: ns) :: up, left, q⟩, none, m, S⟩ =
          .inl ⟨⟨b :: (n :: ns) :: up, true, q⟩, none, m.set (addr ((n :: ns) :: up)) { v with p1 := v.p1 - 1 },
            ⟨⟨(n :: ns) :: up, left, q⟩, .yes, .rangeNM2⟩ :: S⟩ := by
        rw [hs]
        simp only [execRangeNM, hv, hp0', hp1', if_true, if_false, Bool.false_eq_true]
        rfl
      have hl1 := hlinkset m { v with p1 := v.p1 - 1 }
      have e0 : ((times (ends env b) 0 q).flatMap (rep (ends env b) false (j + 1))).findSome? K =
          ((ends env b q).findSome? fun r => ((times (ends env b) 0 r).flatMap (rep (ends env b) false j)).findSome? K).or (K q) := by
        rw [find_flatMap, times_zero, one_find, rep]
        simp only [Bool.false_eq_true, if_false, List.findSome?_append, find_flatMap, one_find, times_zero]
      have hmem : ∀ r, r ∈ (times (ends env b) 0 q).flatMap (rep (ends env b) false (j + 1)) ↔
          (∃ r' ∈ ends env b q, r ∈ (times (ends env b) 0 r').flatMap (rep (ends env b) false j)) ∨ r = q := by
        intro r
        simp [times_zero, rep]
      have hself := hcont q ((hmem q).mpr (Or.inr rfl))
      rw [e0]
      have fin2 : ∀ m2, Link (fun a => Sub (addr ((n :: ns) :: up)) a ∨ Tn a) sok m m2 →
          Lands env ⟨⟨(n :: ns) :: up, left, q⟩, some .rangeNM2, m2, S⟩ (K q).isSome S
            (Post (fun a => Sub (addr ((n :: ns) :: up)) a ∨ Tn a) sok Fin m (K q)) := fun m2 hl =>
        then_next (c := ⟨(n :: ns) :: up, left, q⟩) (f := .rangeNM3) rfl rfl (fun m3 => ⟨_, rfl, hlinkset m3 _⟩) hl (hst m m2 hi hl) hself
          fun a ha => Or.inr ha
      rcases hdet with ⟨e', l⟩ | ⟨r, e', l⟩
      · rw [e']
        refine lands_step hs' (lands_bind (l _ _) fun m2 h2 => ?_)
        exact fin2 m2 (hl1.trans (hefflink h2))
      · have hr : r ∈ ends env b q := by rw [e']; simp
        have hlt := ends_fwd he b q r h0 h1 hr
        rw [e', one_find]
        obtain ⟨m2, f2, g2⟩ := l (m.set (addr ((n :: ns) :: up)) { v with p1 := v.p1 - 1 }) (⟨⟨(n :: ns) :: up, left, q⟩, .yes, .rangeNM2⟩ :: S)
        have hv2 : m2.vars (addr ((n :: ns) :: up)) = { v with p1 := v.p1 - 1 } := by rw [f2.own, set_same]
        have hl2 := hl1.trans (hefflink f2)
        have next := ih 0 j r (by omega) (by omega) hlt.2 (fun r' hr' => hcont r' ((hmem r').mpr (Or.inl ⟨r, hr, hr'⟩))) false m2
          (⟨⟨(n :: ns) :: up, left, q⟩, .yes, .rangeNM2⟩ :: S) (hst m m2 hi hl2)
          (by show (m2.vars (addr ((n :: ns) :: up))).p0 = _; rw [hv2]; exact hp0)
          (by show (m2.vars (addr ((n :: ns) :: up))).p1 = _; rw [hv2]; show v.p1 - 1 = j; omega)
        refine lands_alt rfl hs' (lands_reach g2 next) ?_ ?_
        · intro r' m3 hr' hp
          rw [hr'] at hp ⊢
          exact hl2.pre.post hp
        · intro hno m3 hp
          rw [hno, Option.none_or]
          exact fin2 m3 (hl2.trans (hp.link hno))
    | succ k =>
      have hp0' : v.p0 ≠ 0 := by omega
      have hs' : step env ⟨⟨(n :: ns) :: up, left, q⟩, none, m, S⟩ =
          .inl ⟨⟨b :: (n :: ns) :: up, true, q⟩, none, m.set (addr ((n :: ns) :: up)) { v with p0 := v.p0 - 1 }, S⟩ := by
        rw [hs]
        simp only [execRangeNM, hv, hp0', if_false]
        rfl
      have hl1 := hlinkset m { v with p0 := v.p0 - 1 }
      rw [times] at hcont ⊢
      rcases hdet with ⟨e', l⟩ | ⟨r, e', l⟩
      · rw [e']
        exact lands_step hs' (lands_mono (l _ _) fun m2 h2 => (hl1.trans (hefflink h2)).post)
      · have hr : r ∈ ends env b q := by rw [e']; simp
        have hlt := ends_fwd he b q r h0 h1 hr
        rw [e', List.flatMap_cons, List.flatMap_nil, List.append_nil] at hcont ⊢
        obtain ⟨m2, f2, g2⟩ := l (m.set (addr ((n :: ns) :: up)) { v with p0 := v.p0 - 1 }) S
        have hv2 : m2.vars (addr ((n :: ns) :: up)) = { v with p0 := v.p0 - 1 } := by rw [f2.own, set_same]
        have hl2 := hl1.trans (hefflink f2)
        have next := ih k j r (by omega) (by omega) hlt.2 hcont false m2 S (hst m m2 hi hl2)
          (by show (m2.vars (addr ((n :: ns) :: up))).p0 = _; rw [hv2]; show v.p0 - 1 = k; omega)
          (by show (m2.vars (addr ((n :: ns) :: up))).p1 = _; rw [hv2]; exact hp1)
        exact lands_step hs' (lands_reach g2 (lands_mono next fun m3 h3 => hl2.pre.post h3))

end counted

/-! ## `?` and `??` -/

/-- a visit of `x?` or `x??` behind its body -/
theorem quest_out {env : Env} {n : Node} {ns : List Node} {up : List (List Node)} {K : Int → Option Int} {Tn : Addr → Prop} {sok : Sok}
    {Fin : Int → Mem → Prop} {Inv : Mem → Prop} {q : Int} {lzy : Bool} {b : List Node}
    (hn : ∀ m S, step env ⟨⟨(n :: ns) :: up, false, q⟩, none, m, S⟩ = after ⟨(n :: ns) :: up, false, q⟩ S (execRangeNM ns up n 0 1 b lzy false q m))
    (hk : Runs env Tn sok Fin Inv ⟨ns :: up, true, q⟩ (K q)) :
    Runs env Tn sok Fin (fun m => Inv m ∧ (m.vars (addr ((n :: ns) :: up))).p0 = 0 ∧ (m.vars (addr ((n :: ns) :: up))).p1 = 0)
      ⟨(n :: ns) :: up, false, q⟩ (K q) := by
  rintro m S ⟨hi, hp0, hp1⟩
  have hs' : step env ⟨⟨(n :: ns) :: up, false, q⟩, none, m, S⟩ =
      .inl ⟨⟨ns :: up, true, q⟩, none, m, ⟨⟨(n :: ns) :: up, false, q⟩, .yes, .no⟩ :: S⟩ := by
    rw [hn]
    simp only [execRangeNM, initVars, hp0, hp1, if_true, Bool.false_eq_true, if_false, set_self]
    rfl
  rw [← or_none' (K q)]
  refine lands_alt rfl hs' (hk m _ hi) ?_ ?_
  · intro r m2 hr h; rw [hr] at h ⊢; exact h
  · intro hno m2 h; refine lands_no rfl ?_; rw [hno] at h ⊢; exact h

/-- the run of the body of `x?` or `x??` -/
theorem quest_body {env : Env} {H : Int} {n : Node} {ns : List Node} {up : List (List Node)} {K : Int → Option Int} {Tn : Addr → Prop} {sok : Sok}
    {Fin : Int → Mem → Prop} {Inv : Mem → Prop} {p : Int} {lzy : Bool} {b : List Node} (hb : LeftOk env H b) (hf : inFrag false b = true)
    (h0 : 0 ≤ p) (h1 : p ≤ H) (hag : Agree env sok b ((n :: ns) :: up) K) (hdis : ∀ a, Tn a → ¬ Sub (addr ((n :: ns) :: up)) a)
    (hst : Stable (fun a => Sub (addr ((n :: ns) :: up)) a ∨ Tn a) sok Inv) (hloc : Loc (Sub (addr ((n :: ns) :: up))) Inv)
    (hn : ∀ q m S, step env ⟨⟨(n :: ns) :: up, false, q⟩, none, m, S⟩ = after ⟨(n :: ns) :: up, false, q⟩ S (execRangeNM ns up n 0 1 b lzy false q m))
    (hk : ∀ q ∈ ends env b p, Runs env Tn sok Fin Inv ⟨ns :: up, true, q⟩ (K q)) :
    Runs env (fun a => Reg b.length (addr ((n :: ns) :: up)) a ∨ Tn a) sok Fin
      (fun m => Inv m ∧ (m.vars (addr ((n :: ns) :: up))).p0 = 0 ∧ (m.vars (addr ((n :: ns) :: up))).p1 = 0) ⟨b :: (n :: ns) :: up, true, p⟩
      ((ends env b p).findSome? K) := by
  refine hb false ((n :: ns) :: up) K Tn sok Fin _ p hf h0 h1 hag (fun _ a ha hr => hdis a ha hr.sub) ?_ ?_ fun q hq => quest_out (hn q) (hk q hq)
  · rintro m m' ⟨i1, i2, i3⟩ hl
    refine ⟨hst m m' i1 (hl.mono fun a ha => ha.imp (fun x => x.sub) id), ?_⟩
    rw [hl.frame]
    · exact ⟨i2, i3⟩
    · rintro (x | x)
      · exact x.ne rfl
      · exact hdis _ x (Sub.refl _)
  · rintro m m' ⟨i1, i2, i3⟩ hfr
    refine ⟨hloc m m' i1 (fun a ha => hfr a fun x => ha x.sub), ?_⟩
    rw [hfr _ fun x => x.ne rfl]
    exact ⟨i2, i3⟩

theorem node_rangeNM {env : Env} {H : Int} (he : EnvOk env H) {s e : Int} {b : List Node} (hb : LeftOk env H b) : NodeOk env H (.rangeNM s e b) := by
  intro il ns up K Tn sok Fin Inv p hf h0 h1 hag hdis hst hloc hk m S hi
  have hown : ∀ p0 old, sok (addr ((.rangeNM s e b :: ns) :: up)) p0 old := by
    intro p0 old
    rw [hag _ p0 old (Sub.refl _), sokN]
    exact sokL_off _ _ _ _ _ _ fun hr => hr.ne rfl
  rw [endsN] at hk ⊢
  rw [inFragN] at hf
  cases hsb : simple b with
  | true =>
    rw [hsb, if_pos rfl, Bool.and_eq_true, decide_eq_true_eq, decide_eq_true_eq] at hf
    refine counted_NM he rfl hsb hown hst hloc _ s.toNat (e - s).toNat p rfl h0 h1 hk true m S hi ?_ ?_
    · simp [initVars]; omega
    · simp [initVars]; omega
  | false =>
    rw [hsb] at hf
    simp only [Bool.false_eq_true, if_false, Bool.and_eq_true, Bool.not_eq_true', decide_eq_true_eq] at hf
    obtain ⟨⟨⟨hil, rfl⟩, rfl⟩, hf⟩ := hf
    subst hil
    have e0 : ((times (ends env b) (0 : Int).toNat p).flatMap (rep (ends env b) false ((1 : Int) - 0).toNat)).findSome? K =
        ((ends env b p).findSome? K).or (K p) := by
      rw [find_flatMap]
      simp only [Int.toNat_zero, times, one_find, Int.sub_zero, Int.toNat_one, rep, Bool.false_eq_true, if_false, List.findSome?_append,
        find_flatMap]
    have hmem : ∀ r, r = p ∨ r ∈ ends env b p →
        r ∈ (times (ends env b) (0 : Int).toNat p).flatMap (rep (ends env b) false ((1 : Int) - 0).toNat) := by
      intro r hr
      simp only [Int.toNat_zero, times, Int.sub_zero, Int.toNat_one, rep, Bool.false_eq_true, if_false]
      simp
      grind
    rw [e0]
    have hbody := quest_body (n := .rangeNM 0 1 b) (ns := ns) (up := up) (lzy := false) (Tn := Tn) (Fin := Fin) hb hf h0 h1
      (hag.body fun a p0 old _ => by rw [sokN]) (hdis rfl) hst hloc (fun _ _ _ => rfl) fun q hq => hk q (hmem q (Or.inr hq))
    have hself := hk p (hmem p (Or.inl rfl))
    have hs' : step env ⟨⟨(.rangeNM 0 1 b :: ns) :: up, true, p⟩, none, m, S⟩ =
        .inl ⟨⟨b :: (.rangeNM 0 1 b :: ns) :: up, true, p⟩, none,
          m.set (addr ((.rangeNM 0 1 b :: ns) :: up)) { m.vars (addr ((.rangeNM 0 1 b :: ns) :: up)) with p0 := 0, p1 := 0, old := -1 },
            ⟨⟨(.rangeNM 0 1 b :: ns) :: up, true, p⟩, .yes, .rangeNM2⟩ :: S⟩ := rfl
    have hlinkset : ∀ (m : Mem) (w : Vars), Link (fun a => Sub (addr ((.rangeNM 0 1 b :: ns) :: up)) a ∨ Tn a) sok m
        (m.set (addr ((.rangeNM 0 1 b :: ns) :: up)) w) :=
      fun m w => link_set (Or.inl (Sub.refl _)) (Or.inr (hown _ _))
    refine lands_alt rfl hs' (hbody _ _ ⟨hloc.set hi (Sub.refl _) _, by rw [set_same], by rw [set_same]⟩) ?_ ?_
    · intro r m2 hr h
      rw [hr] at h ⊢
      exact (hlinkset m _).pre.post (h.mono fun a ha => ha.imp (fun x => x.sub) id)
    · intro hno m2 h
      have hl := (hlinkset m _).trans ((h.mono fun a ha => ha.imp (fun x => x.sub) id).link hno)
      rw [hno, Option.none_or]
      exact then_next (c := ⟨(.rangeNM 0 1 b :: ns) :: up, true, p⟩) (f := .rangeNM3) rfl rfl (fun m3 => ⟨_, rfl, hlinkset m3 _⟩) hl (hst m m2 hi hl)
        hself fun a ha => Or.inr ha

theorem node_ngRangeNM {env : Env} {H : Int} {s e : Int} {b : List Node} (hb : LeftOk env H b) : NodeOk env H (.ngRangeNM s e b) := by
  intro il ns up K Tn sok Fin Inv p hf h0 h1 hag hdis hst hloc hk m S hi
  have hown : ∀ p0 old, sok (addr ((.ngRangeNM s e b :: ns) :: up)) p0 old := by
    intro p0 old
    rw [hag _ p0 old (Sub.refl _), sokN]
    exact sokL_off _ _ _ _ _ _ fun hr => hr.ne rfl
  rw [endsN] at hk ⊢
  rw [inFragN] at hf
  simp only [Bool.and_eq_true, Bool.not_eq_true', decide_eq_true_eq] at hf
  obtain ⟨⟨⟨hil, rfl⟩, rfl⟩, hf⟩ := hf
  subst hil
  have e0 : ((times (ends env b) (0 : Int).toNat p).flatMap (rep (ends env b) true ((1 : Int) - 0).toNat)).findSome? K =
      (K p).or ((ends env b p).findSome? K) := by
    rw [find_flatMap]
    simp only [Int.toNat_zero, times, one_find, Int.sub_zero, Int.toNat_one, rep, if_true]
    rw [List.findSome?_cons, find_flatMap]
    simp only [one_find]
    cases K p <;> rfl
  have hmem : ∀ r, r = p ∨ r ∈ ends env b p →
      r ∈ (times (ends env b) (0 : Int).toNat p).flatMap (rep (ends env b) true ((1 : Int) - 0).toNat) := by
    intro r hr
    simp only [Int.toNat_zero, times, Int.sub_zero, Int.toNat_one, rep, if_true]
    simp
    grind
  rw [e0]
  have hbody := quest_body (n := .ngRangeNM 0 1 b) (ns := ns) (up := up) (lzy := true) (Tn := Tn) (Fin := Fin) hb hf h0 h1
    (hag.body fun a p0 old _ => by rw [sokN]) (hdis rfl) hst hloc (fun _ _ _ => rfl) fun q hq => hk q (hmem q (Or.inr hq))
  have hself := hk p (hmem p (Or.inl rfl))
  have hs' : step env ⟨⟨(.ngRangeNM 0 1 b :: ns) :: up, true, p⟩, none, m, S⟩ =
      .inl ⟨⟨ns :: up, true, p⟩, none,
        m.set (addr ((.ngRangeNM 0 1 b :: ns) :: up)) { m.vars (addr ((.ngRangeNM 0 1 b :: ns) :: up)) with p0 := 0, p1 := 0, old := -1 },
          ⟨⟨(.ngRangeNM 0 1 b :: ns) :: up, true, p⟩, .yes, .ngRangeNM2⟩ :: S⟩ := rfl
  have hlinkset : ∀ (m : Mem) (w : Vars), Link (fun a => Sub (addr ((.ngRangeNM 0 1 b :: ns) :: up)) a ∨ Tn a) sok m
      (m.set (addr ((.ngRangeNM 0 1 b :: ns) :: up)) w) :=
    fun m w => link_set (Or.inl (Sub.refl _)) (Or.inr (hown _ _))
  refine lands_alt rfl hs' (hself _ _ (hloc.set hi (Sub.refl _) _)) ?_ ?_
  · intro r m2 hr h
    rw [hr] at h ⊢
    exact (hlinkset m _).pre.post (h.mono fun a ha => Or.inr ha)
  · intro hno m2 h
    have hl := (hlinkset m _).trans ((h.mono fun a ha => Or.inr ha).link hno)
    rw [hno, Option.none_or]
    have hv2 : m2.vars (addr ((.ngRangeNM 0 1 b :: ns) :: up)) = { m.vars (addr ((.ngRangeNM 0 1 b :: ns) :: up)) with p0 := 0, p1 := 0, old := -1 } := by
      rw [h.frame _ fun x => hdis rfl _ x (Sub.refl _), set_same]
    rw [← or_none' ((ends env b p).findSome? K)]
    refine lands_alt (c := ⟨(.ngRangeNM 0 1 b :: ns) :: up, true, p⟩) (f := .ngRangeNM3) (res2 := none) rfl rfl
      (hbody m2 _ ⟨hst m m2 hi hl, by rw [hv2], by rw [hv2]⟩) ?_ ?_
    · intro r m3 hr h3
      rw [hr] at h3 ⊢
      exact hl.pre.post (h3.mono fun a ha => ha.imp (fun x => x.sub) id)
    · intro hno2 m3 h3
      rw [hno2] at h3 ⊢
      exact lands_pop (m := m3.set _ _) rfl ((hl.trans ((h3.mono fun a ha => ha.imp (fun x => x.sub) id).link rfl)).trans (hlinkset m3 _)).post

end Verif.RegExp
