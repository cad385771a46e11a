import Verif.RegExp.Caps

/-!
# Groups hold what they matched (C80)
-/
namespace Verif.RegExp

theorem zeros_frame {g : Grp} {m m' : Mem} : ∀ {up : List (List Node)}, (∀ a : Addr, a.length ≤ up.length → m'.vars a = m.vars a) → Zeros g m up → Zeros g m' up
  | [], _, _ => trivial
  | [] :: up, h, hz => zeros_frame (up := up) (fun a ha => h a (by simp; omega)) hz
  | (n :: ns) :: up, h, hz => by
    refine ⟨fun e => ?_, zeros_frame (up := up) (fun a ha => h a (by simp; omega)) hz.2⟩
    rw [h _ (by simp [addr])]
    exact hz.1 e

theorem Reg.len {N : Nat} {u a : Addr} (h : Reg N u a) : u.length < a.length := by
  obtain ⟨pre, k, rfl, -⟩ := h
  simp
  omega

/-- looking ahead or behind, from `p` at the position `p'` -/
theorem capN_look {env : Env} {H : Int} {root : List Node} {g : Grp} (hg : g ≠ .num 0) {n : Node} {b : List Node} (hbody : n.body = b) (hb : CapL env H root g b) {p p' : Int} (h0 : 0 ≤ p') (h1 : p' ≤ H)
    {ns : List Node} {up : List (List Node)} {K : Int → Option Int} {Tn : Addr → Prop} {sok : Sok} {Inv : Mem → Prop}
    (hf : inFrag false b = true)
    (hin : ∀ m, execNode env n ns up true p m = (.call ⟨b :: (n :: ns) :: up, true, p'⟩ .brk .no, m))
    (hout : ∀ q m, execNode env n ns up false q m = (.succ, m)) (hsok : ∀ pos K a p0 old, sokN env n pos K a p0 old)
    (hends : endsN env n p = if ends env b p' = [] then [] else [p])
    (hcaps : capsN env g n p = (caps env g b p').head?.toList.map fun v => (p, v.2))
    (hex : exitG g n = true) (hat : At root ((n :: ns) :: up)) (hns : lacksG g ns = true) (hup : upLacks g up = true) (hz : ∀ m, Inv m → Zeros g m up)
    (hag : AgreeAt env sok n ((n :: ns) :: up) K) (hloc : Loc (Sub (addr ((n :: ns) :: up))) Inv)
    (hk : ∀ q ∈ endsN env n p, Runs env Tn sok (fun _ _ => True) Inv ⟨ns :: up, true, q⟩ (K q)) :
    Runs env (fun a => Sub (addr ((n :: ns) :: up)) a ∨ Tn a) sok (Holds g) Inv ⟨(n :: ns) :: up, true, p⟩ ((capsN env g n p).findSome? (coded K)) := by
  intro m S hi
  have hs : step env ⟨⟨(n :: ns) :: up, true, p⟩, none, m, S⟩ = .inl ⟨⟨b :: (n :: ns) :: up, true, p'⟩, none, m,
      ⟨⟨(n :: ns) :: up, true, p⟩, .brk, .no⟩ :: S⟩ := by
    rw [step_node, hin]; rfl
  have hlen : ∀ a : Addr, a.length ≤ up.length → ¬ (Reg b.length (addr ((n :: ns) :: up)) a) := by
    intro a ha hr
    have := hr.len
    simp [addr] at this
    omega
  have body : Runs env (fun a => Reg b.length (addr ((n :: ns) :: up)) a ∨ False) (sokL env b ((n :: ns) :: up) some) (Holds g) (fun m => Zeros g m up)
      ⟨b :: (n :: ns) :: up, true, p'⟩ ((caps env g b p').findSome? (coded some)) := by
    refine hb ((n :: ns) :: up) some (fun _ => False) (sokL env b ((n :: ns) :: up) some) (fun m => Zeros g m up) p' hf
      (.sub hat (by rw [hbody]; exact List.suffix_refl _))
      (fun _ => ⟨by rw [upLacks, hex, hns, hup]; rfl, fun m hm => ⟨fun e => (by rw [hex] at e; cases e), hm⟩⟩) h0 h1 (fun a p0 old _ => Iff.rfl) (by simp)
      ?_ ?_ ?_
    · intro m m' hm hl
      refine zeros_frame (fun a ha => hl.frame a ?_) hm
      rintro (x | x)
      · exact hlen a ha x
      · exact x
    · intro m m' hm hfr
      exact zeros_frame (fun a ha => hfr a (hlen a ha)) hm
    intro q _ m S _
    refine lands_pop (m := m) ?_ ⟨fun _ _ => rfl, by simp, by simp⟩
    rw [step_node, hout]; rfl
  refine lands_step hs (lands_bind (body m _ (hz m hi)) fun m1 hp => ?_)
  have hl : Link (fun a => Sub (addr ((n :: ns) :: up)) a ∨ Tn a) sok m m1 := by
    refine ⟨fun a ha => hp.frame a ?_, fun a => ?_⟩
    · rintro (x | x)
      · exact ha (Or.inl x.sub)
      · exact x
    · by_cases ha : Sub (addr ((n :: ns) :: up)) a
      · exact Or.inr ((hag a _ _ ha).mpr (hsok _ _ _ _ _))
      · left
        rw [hp.frame a]
        · exact ⟨rfl, rfl⟩
        · rintro (x | x)
          · exact ha x.sub
          · exact x
  have hi1 : Inv m1 := by
    refine hloc m m1 hi (fun a ha => hp.frame a ?_)
    rintro (x | x)
    · exact ha x.sub
    · exact x
  have hfst := caps_fst env g b p'
  cases hc : caps env g b p' with
  | nil =>
    rw [hcaps, hc]
    exact lands_no rfl hl.post
  | cons v vs =>
    rw [hc] at hfst hp
    have e : ends env b p' ≠ [] := by rw [← hfst]; simp
    rw [if_neg e] at hends
    rw [hends] at hk
    have e2 : (v :: vs).findSome? (coded some) = some (code v.2) := by rw [List.findSome?_cons]; rfl
    rw [e2] at hp ⊢
    have hv : Holds g (code v.2) m1 := hp.fin _ rfl
    rw [hcaps, hc]
    show Lands env ⟨⟨(n :: ns) :: up, true, p⟩, some .brk, m1, S⟩ (([(p, v.2)] : List Way).findSome? (coded K)).isSome S
      (Post (fun a => Sub (addr ((n :: ns) :: up)) a ∨ Tn a) sok (Holds g) m (([(p, v.2)] : List Way).findSome? (coded K)))
    rw [one_find]
    show Lands env ⟨⟨(n :: ns) :: up, true, p⟩, some .brk, m1, S⟩ ((K p).map fun _ => code v.2).isSome S
      (Post (fun a => Sub (addr ((n :: ns) :: up)) a ∨ Tn a) sok (Holds g) m ((K p).map fun _ => code v.2))
    rw [show ((K p).map fun _ => code v.2).isSome = (K p).isSome by cases K p <;> rfl]
    have hrun := runs_keep hg (hk p (by simp)) (show Quiet g ⟨ns :: up, true, p⟩ = true by simp [Quiet, posLacks, hns, hup]) m1 S hi1 ⟨hat.tail, zero_of_quiet hns (hz m1 hi1)⟩
    refine lands_step rfl (lands_mono hrun ?_)
    rintro m2 ⟨h2, hsame⟩
    refine post_map _ (hl.pre.post (h2.mono fun a ha => Or.inr ha)) fun _ s e hcode => ?_
    rw [hsame]
    exact hv s e hcode

/-! ## `x?` and `x??` -/

theorem capN_body {env : Env} {H : Int} {root : List Node} {g : Grp} {n : Node} {ns : List Node} {up : List (List Node)} {K : Int → Option Int} {Tn : Addr → Prop}
    {sok : Sok} {Inv : Mem → Prop} {p : Int} {lzy : Bool} {b : List Node} (hbody : n.body = b) (hb : CapL env H root g b) (hf : inFrag false b = true)
    (hq : quest n = true) (hat : At root ((n :: ns) :: up))
    (hup : lacksG g b = false → lacksG g ns = true ∧ upLacks g up = true ∧ ∀ m, Inv m → Zeros g m up)
    (h0 : 0 ≤ p) (h1 : p ≤ H) (hag : Agree env sok b ((n :: ns) :: up) K) (hdis : ∀ a, Tn a → ¬ Sub (addr ((n :: ns) :: up)) a)
    (hst : Stable (fun a => Sub (addr ((n :: ns) :: up)) a ∨ Tn a) sok Inv) (hloc : Loc (Sub (addr ((n :: ns) :: up))) Inv)
    (hn : ∀ q m S, step env ⟨⟨(n :: ns) :: up, false, q⟩, none, m, S⟩ = after ⟨(n :: ns) :: up, false, q⟩ S (execRangeNM ns up n 0 1 b lzy false q m))
    (hk : ∀ q ∈ ends env b p, Runs env Tn sok (fun _ _ => True) Inv ⟨ns :: up, true, q⟩ (K q)) :
    Runs env (fun a => Reg b.length (addr ((n :: ns) :: up)) a ∨ Tn a) sok (Holds g)
      (fun m => Inv m ∧ (m.vars (addr ((n :: ns) :: up))).p0 = 0 ∧ (m.vars (addr ((n :: ns) :: up))).p1 = 0) ⟨b :: (n :: ns) :: up, true, p⟩
      ((caps env g b p).findSome? (coded K)) := by
  refine hb ((n :: ns) :: up) K Tn sok _ p hf (.sub hat (by rw [hbody]; exact List.suffix_refl _)) (fun h => ?_) h0 h1 hag (fun a ha hr => hdis a ha hr.sub) ?_ ?_
    fun q hq => quest_out (hn q) (hk q hq)
  · obtain ⟨h2, h3, h4⟩ := hup h
    exact ⟨by rw [upLacks, hq, h2, h3]; simp, fun m hm => ⟨fun _ => hm.2, h4 m hm.1⟩⟩
  · rintro m m' ⟨i1, i2, i3⟩ hl
    refine ⟨hst m m' i1 (hl.mono fun a ha => ha.imp (fun x => x.sub) id), ?_⟩
    rw [hl.frame]
    · exact ⟨i2, i3⟩
    · rintro (x | x)
      · exact x.ne rfl
      · exact hdis _ x (Sub.refl _)
  · rintro m m' ⟨i1, i2, i3⟩ hfr
    refine ⟨hloc m m' i1 (fun a ha => hfr a fun x => ha x.sub), ?_⟩
    rw [hfr _ fun x => x.ne rfl]
    exact ⟨i2, i3⟩

/-- the continuation alone: the group is not passed -/
theorem Runs.none {env : Env} {Tn : Addr → Prop} {sok : Sok} {Inv : Mem → Prop} {g : Grp} {c : Cfg} {r : Option Int}
    (h : Runs env Tn sok (fun _ _ => True) Inv c r) : Runs env Tn sok (Holds g) Inv c (r.map fun _ => code none) :=
  h.map _ fun _ m => holds_none g m

theorem frag_NM {s e : Int} {b : List Node} (h : inFragN false (.rangeNM s e b) = true) (hs : simple b = false ∨ (s = 0 ∧ e = 1)) : inFrag false b = true := by
  rw [inFragN] at h
  cases hb : simple b with
  | true => exact simple_frag b false hb
  | false =>
    rw [hb] at h
    simp only [Bool.false_eq_true, if_false, Bool.and_eq_true] at h
    exact h.2

theorem capN_quest {env : Env} {H : Int} {root : List Node} {g : Grp} {b : List Node} (hb : CapL env H root g b) : CapN env H root g (.rangeNM 0 1 b) := by
  intro ns up K Tn sok Inv p hf hat hup h0 h1 hag hdis hst hloc hk m S hi
  have hown : ∀ p0 old, sok (addr ((.rangeNM 0 1 b :: ns) :: up)) p0 old := by
    intro p0 old
    rw [hag _ p0 old (Sub.refl _), sokN]
    exact sokL_off _ _ _ _ _ _ fun hr => hr.ne rfl
  have hends : endsN env (.rangeNM 0 1 b) p = ends env b p ++ [p] := by rw [endsN, quest_ends]; rfl
  have hcaps : capsN env g (.rangeNM 0 1 b) p = caps env g b p ++ [(p, none)] := by rw [capsN]; rfl
  rw [hends] at hk
  rw [hcaps, List.findSome?_append, one_find]
  have hbody := capN_body (n := .rangeNM 0 1 b) (b := b) (ns := ns) (up := up) (lzy := false) (Tn := Tn) (K := K) rfl hb (frag_NM hf (Or.inr ⟨rfl, rfl⟩)) rfl hat
    (fun h => hup (by rw [lacksGN]; exact h)) h0 h1
    (hag.body fun a p0 old _ => by rw [sokN]) hdis hst hloc (fun _ _ _ => rfl) fun q hq => hk q (by simp [hq])
  have hself := (hk p (by simp)).none (g := g)
  have hs' : step env ⟨⟨(.rangeNM 0 1 b :: ns) :: up, true, p⟩, none, m, S⟩ =
      .inl ⟨⟨b :: (.rangeNM 0 1 b :: ns) :: up, true, p⟩, none,
        m.set (addr ((.rangeNM 0 1 b :: ns) :: up)) { m.vars (addr ((.rangeNM 0 1 b :: ns) :: up)) with p0 := 0, p1 := 0, old := -1 },
          ⟨⟨(.rangeNM 0 1 b :: ns) :: up, true, p⟩, .yes, .rangeNM2⟩ :: S⟩ := rfl
  have hlinkset : ∀ (m : Mem) (w : Vars), Link (fun a => Sub (addr ((.rangeNM 0 1 b :: ns) :: up)) a ∨ Tn a) sok m
      (m.set (addr ((.rangeNM 0 1 b :: ns) :: up)) w) :=
    fun m w => link_set (Or.inl (Sub.refl _)) (Or.inr (hown _ _))
  refine lands_alt rfl hs' (hbody _ _ ⟨hloc.set hi (Sub.refl _) _, by rw [set_same], by rw [set_same]⟩) ?_ ?_
  · intro r m2 hr h
    rw [hr] at h ⊢
    exact (hlinkset m _).pre.post (h.mono fun a ha => ha.imp (fun x => x.sub) id)
  · intro hno m2 h
    have hl := (hlinkset m _).trans ((h.mono fun a ha => ha.imp (fun x => x.sub) id).link hno)
    rw [hno, Option.none_or]
    exact then_next (K := fun q => (K q).map fun _ => code none) (q := p) (c := ⟨(.rangeNM 0 1 b :: ns) :: up, true, p⟩) (f := .rangeNM3) rfl rfl (fun m3 => ⟨_, rfl, hlinkset m3 _⟩) hl (hst m m2 hi hl)
      hself fun a ha => Or.inr ha

theorem capN_lazy {env : Env} {H : Int} {root : List Node} {g : Grp} {b : List Node} (hb : CapL env H root g b) : CapN env H root g (.ngRangeNM 0 1 b) := by
  intro ns up K Tn sok Inv p hf hat hup h0 h1 hag hdis hst hloc hk m S hi
  have hown : ∀ p0 old, sok (addr ((.ngRangeNM 0 1 b :: ns) :: up)) p0 old := by
    intro p0 old
    rw [hag _ p0 old (Sub.refl _), sokN]
    exact sokL_off _ _ _ _ _ _ fun hr => hr.ne rfl
  have hends : endsN env (.ngRangeNM 0 1 b) p = p :: ends env b p := by rw [endsN, quest_ends]; rfl
  have hcaps : capsN env g (.ngRangeNM 0 1 b) p = (p, none) :: caps env g b p := by rw [capsN]; rfl
  have hf' : inFrag false b = true := by
    rw [inFragN] at hf
    simp only [Bool.and_eq_true] at hf
    exact hf.2
  rw [hends] at hk
  have e0 : ((p, none) :: caps env g b p).findSome? (coded K) = ((K p).map fun _ => code none).or ((caps env g b p).findSome? (coded K)) := by
    rw [List.findSome?_cons]
    have : coded K (p, none) = (K p).map fun _ => code none := rfl
    rw [this]
    cases K p <;> rfl
  rw [hcaps, e0]
  have hbody := capN_body (n := .ngRangeNM 0 1 b) (b := b) (ns := ns) (up := up) (lzy := true) (Tn := Tn) (K := K) rfl hb hf' rfl hat
    (fun h => hup (by rw [lacksGN]; exact h)) h0 h1
    (hag.body fun a p0 old _ => by rw [sokN]) hdis hst hloc (fun _ _ _ => rfl) fun q hq => hk q (by simp [hq])
  have hself := (hk p (by simp)).none (g := g)
  have hs' : step env ⟨⟨(.ngRangeNM 0 1 b :: ns) :: up, true, p⟩, none, m, S⟩ =
      .inl ⟨⟨ns :: up, true, p⟩, none,
        m.set (addr ((.ngRangeNM 0 1 b :: ns) :: up)) { m.vars (addr ((.ngRangeNM 0 1 b :: ns) :: up)) with p0 := 0, p1 := 0, old := -1 },
          ⟨⟨(.ngRangeNM 0 1 b :: ns) :: up, true, p⟩, .yes, .ngRangeNM2⟩ :: S⟩ := rfl
  have hlinkset : ∀ (m : Mem) (w : Vars), Link (fun a => Sub (addr ((.ngRangeNM 0 1 b :: ns) :: up)) a ∨ Tn a) sok m
      (m.set (addr ((.ngRangeNM 0 1 b :: ns) :: up)) w) :=
    fun m w => link_set (Or.inl (Sub.refl _)) (Or.inr (hown _ _))
  refine lands_alt rfl hs' (hself _ _ (hloc.set hi (Sub.refl _) _)) ?_ ?_
  · intro r m2 hr h
    rw [hr] at h ⊢
    exact (hlinkset m _).pre.post (h.mono fun a ha => Or.inr ha)
  · intro hno m2 h
    have hl := (hlinkset m _).trans ((h.mono fun a ha => Or.inr ha).link hno)
    rw [hno, Option.none_or]
    have hv2 : m2.vars (addr ((.ngRangeNM 0 1 b :: ns) :: up)) = { m.vars (addr ((.ngRangeNM 0 1 b :: ns) :: up)) with p0 := 0, p1 := 0, old := -1 } := by
      rw [h.frame _ fun x => hdis _ x (Sub.refl _), set_same]
    rw [← or_none' ((caps env g b p).findSome? (coded K))]
    refine lands_alt (c := ⟨(.ngRangeNM 0 1 b :: ns) :: up, true, p⟩) (f := .ngRangeNM3) (res2 := none) rfl rfl
      (hbody m2 _ ⟨hst m m2 hi hl, by rw [hv2], by rw [hv2]⟩) ?_ ?_
    · intro r m3 hr h3
      rw [hr] at h3 ⊢
      exact hl.pre.post (h3.mono fun a ha => ha.imp (fun x => x.sub) id)
    · intro hno2 m3 h3
      rw [hno2] at h3 ⊢
      exact lands_pop (m := m3.set _ _) rfl ((hl.trans ((h3.mono fun a ha => ha.imp (fun x => x.sub) id).link rfl)).trans (hlinkset m3 _)).post

/-! ## All nodes -/

theorem place_own {m : Mem} {j : Nat} (hj : j ≠ 0) {s q : Int} (h : s ≤ q) : (m.close j s q).place (.num j) = (s, q) := by
  have hnot : ¬ q < s := by omega
  simp [Mem.close, Mem.place, upd, hj, hnot]

theorem place_ownNamed {m : Mem} {j : Nat} {s q : Int} (h : s ≤ q) : (m.closeNamed j s q).place (.name j) = (s, q) := by
  have hnot : ¬ q < s := by omega
  simp [Mem.closeNamed, Mem.place, upd, hnot]

/-- passing the mark -/
theorem capN_mark {env : Env} {H : Int} {root : List Node} {g : Grp} (hg : g ≠ .num 0) {k : Meta} (hk : g.isMark k = true) :
    CapN env H root g (.msym k) := by
  intro ns up K Tn sok Inv p hf hat hup h0 h1 hag hdis hst hloc hkk m S hi
  obtain ⟨hns, hup, hz⟩ := hup (by rw [lacksGN, hk]; rfl)
  have he : endsN env (.msym k) p = [p] := by
    rw [endsN]
    cases g with
    | num i => exact absurd hk (by simp [Grp.isMark])
    | name i => exact absurd hk (by simp [Grp.isMark])
    | mark b => cases b <;> cases k <;> first | rfl | exact absurd hk (by simp [Grp.isMark])
  have hx : execNode env (.msym k) ns up true p m = (.goto ⟨ns :: up, true, p⟩, markMeta m p k) := by
    cases g with
    | num i => exact absurd hk (by simp [Grp.isMark])
    | name i => exact absurd hk (by simp [Grp.isMark])
    | mark b => cases b <;> cases k <;> first | rfl | exact absurd hk (by simp [Grp.isMark])
  have hpl : (markMeta m p k).place g = (p, 1) := by
    cases g with
    | num i => exact absurd hk (by simp [Grp.isMark])
    | name i => exact absurd hk (by simp [Grp.isMark])
    | mark b => cases b <;> cases k <;> first | (simp [markMeta, Mem.place, upd]; done) | exact absurd hk (by simp [Grp.isMark])
  have hv : (markMeta m p k).vars = m.vars := vars_mark m p k
  have hs1 : step env ⟨⟨(.msym k :: ns) :: up, true, p⟩, none, m, S⟩ = .inl ⟨⟨ns :: up, true, p⟩, none, markMeta m p k, S⟩ := by rw [step_node, hx]; rfl
  have hi' := hloc m (markMeta m p k) hi (fun a _ => by rw [hv])
  have hl := runs_keep hg (hkk p (by rw [he]; simp)) (show Quiet g ⟨ns :: up, true, p⟩ = true by simp [Quiet, posLacks, hns, hup]) (markMeta m p k) S
    hi' ⟨hat.tail, zero_of_quiet hns (hz _ hi')⟩
  have ec : (capsN env g (.msym k) p).findSome? (coded K) = (K p).map fun _ => code (some (p, 1)) := by
    rw [capsN, if_pos hk, he]
    simp only [List.map_cons, List.map_nil, List.findSome?_cons, List.findSome?_nil, coded]
    cases K p <;> rfl
  rw [ec, show ((K p).map fun _ => code (some (p, 1))).isSome = (K p).isSome by cases K p <;> rfl]
  refine lands_step hs1 (lands_mono hl ?_)
  rintro m2 ⟨hp, hsame⟩
  have hpre : Pre Tn sok (K p) m (markMeta m p k) := Link.pre ⟨fun a _ => by rw [hv], fun a => by rw [hv]; exact Or.inl ⟨rfl, rfl⟩⟩
  refine post_map _ ((hpre.post hp).mono fun a ha => Or.inr ha) fun _ s e hc => ?_
  have := code_inj hc
  simp only [Option.some.injEq, Prod.mk.injEq] at this
  rw [hsame, hpl, this.1, this.2]

theorem open_NM {g : Grp} {s e : Int} {b : List Node} (h : (lacksG g b || decide (s = 0) && decide (e = 1) && openG g b) = true) (hb : lacksG g b = false) :
    s = 0 ∧ e = 1 ∧ openG g b = true := by
  simpa [hb, and_assoc] using h

mutual
theorem capL_ok {env : Env} {H : Int} (he : EnvOk env H) {root : List Node} {g : Grp} (hg : g ≠ .num 0) : ∀ l : List Node, openG g l = true → CapL env H root g l
  | [], _ => capL_lacks he rfl
  | n :: ns, h => by
    rw [openG, Bool.and_eq_true, Bool.and_eq_true] at h
    have h2 := capL_ok he (root := root) hg ns h.1.2
    have h1 := capN_ok he (root := root) hg n h.1.1
    cases ho : isOr n with
    | false => exact capL_cons he ho (h1.1 ho) h2 h.2
    | true =>
      cases n with
      | or b => exact capL_or (h1.2 _ rfl) h2 (by have := h.2; rw [lacksGN] at this; exact this)
      | _ => exact absurd ho (by simp [isOr])
theorem capN_ok {env : Env} {H : Int} (he : EnvOk env H) {root : List Node} {g : Grp} (hg : g ≠ .num 0) : ∀ n : Node, openGN g n = true →
    (isOr n = false → CapN env H root g n) ∧ ∀ b, n = .or b → CapL env H root g b
  | .empty, _ => ⟨fun _ => capN_lacks he rfl (by rw [lacksGN]), by simp⟩
  | .msym k, _ => by
    refine ⟨fun _ => ?_, by simp⟩
    cases hk : g.isMark k with
    | false => exact capN_lacks he rfl (by rw [lacksGN, hk]; rfl)
    | true => exact capN_mark hg hk
  | .symb _, _ => ⟨fun _ => capN_lacks he rfl (by rw [lacksGN]), by simp⟩
  | .word _, _ => ⟨fun _ => capN_lacks he rfl (by rw [lacksGN]), by simp⟩
  | .enum _, _ => ⟨fun _ => capN_lacks he rfl (by rw [lacksGN]), by simp⟩
  | .nenum _, _ => ⟨fun _ => capN_lacks he rfl (by rw [lacksGN]), by simp⟩
  | .bkTrace _, _ => ⟨fun _ => capN_lacks he rfl (by rw [lacksGN]), by simp⟩
  | .bkTraceN _, _ => ⟨fun _ => capN_lacks he rfl (by rw [lacksGN]), by simp⟩
  | .bkTraceName _, _ => ⟨fun _ => capN_lacks he rfl (by rw [lacksGN]), by simp⟩
  | .bkTraceNName _, _ => ⟨fun _ => capN_lacks he rfl (by rw [lacksGN]), by simp⟩
  | .bkBrack _, _ => ⟨fun _ => capN_lacks he rfl (by rw [lacksGN]), by simp⟩
  | .bkBrackName _, _ => ⟨fun _ => capN_lacks he rfl (by rw [lacksGN]), by simp⟩
  | .nahead b, h => ⟨fun _ => capN_lacks he rfl (by rw [openGN] at h; rw [lacksGN]; exact h), by simp⟩
  | .nbehind _ b, h => ⟨fun _ => capN_lacks he rfl (by rw [openGN] at h; rw [lacksGN]; exact h), by simp⟩
  | .rangeN _ b, h => ⟨fun _ => capN_lacks he rfl (by rw [openGN] at h; rw [lacksGN]; exact h), by simp⟩
  | .ngRangeN _ b, h => ⟨fun _ => capN_lacks he rfl (by rw [openGN] at h; rw [lacksGN]; exact h), by simp⟩
  | .or b, h => ⟨fun h => by simp [isOr] at h, fun b' e => by cases e; rw [openGN] at h; exact capL_ok he hg b h⟩
  | .brackets i b, h => by
    refine ⟨fun _ => ?_, by simp⟩
    rw [openGN] at h
    cases hi : notNum g i with
    | true =>
      rw [hi, if_pos rfl] at h
      refine capN_wrap (b := b) rfl (capL_ok he hg b h) (fun _ _ _ _ => rfl) (fun ns up q m => ?_) (fun p => by rw [endsN]) (fun p => by rw [capsN, if_pos hi])
        (fun h => by rw [inFragN] at h; exact h) (fun pos K a p0 old => by rw [sokN]) hi (fun e => by rw [lacksGN, hi, e]; rfl)
      cases i with
      | none => exact ⟨m, rfl, rfl⟩
      | some i => exact ⟨_, rfl, rfl⟩
    | false =>
      cases i with
      | none => cases hi
      | some j =>
        rw [hi, if_neg (by simp), Bool.and_eq_true] at h
        have hj : g = .num j := by
          cases g with
          | num i => rw [show i = j by simpa [notNum, Grp.hasNum] using hi]
          | name i => exact absurd hi (by simp [notNum, Grp.hasNum])
          | mark b => exact absurd h.1 (by simp [Grp.mark?])
        subst hj
        have hj : j ≠ 0 := fun e => hg (by rw [e])
        refine capN_own (b := b) he hg (fun _ _ _ _ => rfl) (fun ns up q m hle => ⟨_, rfl, rfl, place_own hj hle⟩) (fun p => by rw [endsN])
          (fun p => by rw [capsN, if_neg (by rw [hi]; simp)]) (fun h => by rw [inFragN] at h; exact h) (fun pos K a p0 old => by rw [sokN])
          (by rw [lacksGN, hi]; rfl)
  | .named i b, h => by
    refine ⟨fun _ => ?_, by simp⟩
    rw [openGN] at h
    cases hi : notName g i with
    | true =>
      rw [hi, if_pos rfl] at h
      refine capN_wrap (b := b) rfl (capL_ok he hg b h) (fun _ _ _ _ => rfl) (fun ns up q m => ?_) (fun p => by rw [endsN]) (fun p => by rw [capsN, if_pos hi])
        (fun h => by rw [inFragN] at h; exact h) (fun pos K a p0 old => by rw [sokN]) hi (fun e => by rw [lacksGN, hi, e]; rfl)
      cases i with
      | none => exact ⟨m, rfl, rfl⟩
      | some i => exact ⟨_, rfl, rfl⟩
    | false =>
      cases i with
      | none => cases hi
      | some j =>
        have hj : g = .name j := by simpa [notName] using hi
        subst hj
        refine capN_own (b := b) he hg (fun _ _ _ _ => rfl) (fun ns up q m hle => ⟨_, rfl, rfl, place_ownNamed hle⟩) (fun p => by rw [endsN])
          (fun p => by rw [capsN, if_neg (by rw [hi]; simp)]) (fun h => by rw [inFragN] at h; exact h) (fun pos K a p0 old => by rw [sokN])
          (by rw [lacksGN, hi]; rfl)
  | .ahead b, h => by
    refine ⟨fun _ => ?_, by simp⟩
    cases hl : lacksG g b with
    | true => exact capN_lacks he rfl (by rw [lacksGN]; exact hl)
    | false =>
      rw [openGN] at h
      intro ns up K Tn sok Inv p hf hat hup h0 h1 hag hdis hst hloc hk
      obtain ⟨hns, hup, hz⟩ := hup (by rw [lacksGN]; exact hl)
      rw [inFragN] at hf
      exact capN_look (n := .ahead b) (b := b) hg rfl (capL_ok he hg b h) h0 h1 hf (fun m => rfl) (fun _ _ => rfl) (fun _ _ _ _ _ => by rw [sokN]; trivial)
        (by rw [endsN]) (by rw [capsN]) rfl hat hns hup hz hag hloc hk
  | .behind k b, h => by
    refine ⟨fun _ => ?_, by simp⟩
    cases hl : lacksG g b with
    | true => exact capN_lacks he rfl (by rw [lacksGN]; exact hl)
    | false =>
      rw [openGN] at h
      intro ns up K Tn sok Inv p hf hat hup h0 h1 hag hdis hst hloc hk
      obtain ⟨hns, hup, hz⟩ := hup (by rw [lacksGN]; exact hl)
      rw [inFragN] at hf
      by_cases hp : p - k < 0
      · have e : capsN env g (.behind k b) p = [] := by rw [capsN, if_pos hp]
        rw [e]
        intro m S hi
        refine lands_pop (m := m) ?_ (Link.refl _ _ m).post
        have : step env ⟨⟨(.behind k b :: ns) :: up, true, p⟩, none, m, S⟩ =
          after ⟨(.behind k b :: ns) :: up, true, p⟩ S (if p - k < 0 then (.fail, m) else (.call ⟨b :: (.behind k b :: ns) :: up, true, p - k⟩ .brk .no, m)) := rfl
        rw [this, if_pos hp]; rfl
      · refine capN_look (n := .behind k b) (b := b) (p' := p - k) hg rfl (capL_ok he hg b h) (by omega) (by omega) hf (fun m => ?_) (fun _ _ => rfl)
          (fun _ _ _ _ _ => by rw [sokN]; trivial)
          (by rw [endsN, if_neg hp]) (by rw [capsN, if_neg hp]) rfl hat hns hup hz hag hloc hk
        show (if p - k < 0 then (Res.fail, m) else (.call ⟨b :: (.behind k b :: ns) :: up, true, p - k⟩ .brk .no, m)) = _
        rw [if_neg hp]
  | .rangeNM s e b, h => by
    refine ⟨fun _ => ?_, by simp⟩
    cases hl : lacksG g b with
    | true => exact capN_lacks he rfl (by rw [lacksGN]; exact hl)
    | false =>
      rw [openGN] at h
      obtain ⟨rfl, rfl, h2⟩ := open_NM h hl
      exact capN_quest (capL_ok he hg b h2)
  | .ngRangeNM s e b, h => by
    refine ⟨fun _ => ?_, by simp⟩
    cases hl : lacksG g b with
    | true => exact capN_lacks he rfl (by rw [lacksGN]; exact hl)
    | false =>
      rw [openGN] at h
      obtain ⟨rfl, rfl, h2⟩ := open_NM h hl
      exact capN_lazy (capL_ok he hg b h2)
end

end Verif.RegExp
