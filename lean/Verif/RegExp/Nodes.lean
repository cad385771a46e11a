import Verif.RegExp.Det

/-!
# Each kind of node does what the specification says (for C29)

`NodeOk n`: from the node `n`, with a continuation that lands with the result `K q` at every end `q` of `n`, the run lands with the first of
these results. `LeftOk l`: the same for a chain. A loop that failed leaves in its node an `oldParse` from which its body is known to fail
(`sokN`), so a later visit of the loop by backtracking that finds `oldParse` at its own position may skip the body.
-/
namespace Verif.RegExp

/-- what follows the node -/
def afterK (env : Env) (n : Node) (ns : List Node) (K : Int → Option Int) : Int → Option Int :=
  if isOr n then K else fun q => (ends env ns q).findSome? K

/-- the counter and `oldParse` of a loop that failed -/
def LoopOk (env : Env) (f : Int → List Int) (lzy : Bool) (K : Int → Option Int) (p0 old : Int) : Prop :=
  p0 = 0 ∧ (old = -1 ∨ (f old).findSome? (loopK env f lzy K) = none)

mutual
/-- what the nodes of a chain keep after a failed run -/
def sokL (env : Env) : List Node → List (List Node) → (Int → Option Int) → Sok
  | [], _, _ => fun _ _ _ => True
  | n :: ns, up, K => fun a p0 old => sokN env n ((n :: ns) :: up) (afterK env n ns K) a p0 old ∧ sokL env ns up K a p0 old
def sokN (env : Env) : Node → List (List Node) → (Int → Option Int) → Sok
  | .brackets _ b, pos, K => sokL env b pos K
  | .named _ b, pos, K => sokL env b pos K
  | .or b, pos, K => sokL env b pos K
  | .rangeN s b, pos, K => fun a p0 old => s ≤ 1 → (a = addr pos → LoopOk env (ends env b) false K p0 old) ∧
      sokL env b pos (loopK env (ends env b) false K) a p0 old
  | .ngRangeN _ b, pos, K => fun a p0 old => (a = addr pos → LoopOk env (ends env b) true K p0 old) ∧
      sokL env b pos (loopK env (ends env b) true K) a p0 old
  | .rangeNM _ _ b, pos, K => sokL env b pos K
  | .ngRangeNM _ _ b, pos, K => sokL env b pos K
  | .empty, _, _ | .msym _, _, _ | .symb _, _, _ | .word _, _, _ | .enum _, _, _ | .nenum _, _, _ | .bkTrace _, _, _ | .bkTraceN _, _, _
  | .bkTraceName _, _, _ | .bkTraceNName _, _, _ | .bkBrack _, _, _ | .bkBrackName _, _, _ | .ahead _, _, _ | .nahead _, _, _
  | .behind _ _, _, _ | .nbehind _ _, _, _ => fun _ _ _ => True
end

mutual
theorem sokL_off {env : Env} : ∀ (l : List Node) (up : List (List Node)) (K : Int → Option Int) (a : Addr) (p0 old : Int), ¬ Reg l.length (addr up) a →
    sokL env l up K a p0 old
  | [], _, _, _, _, _, _ => by rw [sokL]; trivial
  | n :: ns, up, K, a, p0, old, h => by
    rw [sokL]
    exact ⟨sokN_off n _ _ a p0 old fun hs => h hs.reg, sokL_off ns up K a p0 old fun hs => h (hs.mono (by simp))⟩
theorem sokN_off {env : Env} : ∀ (n : Node) (pos : List (List Node)) (K : Int → Option Int) (a : Addr) (p0 old : Int), ¬ Sub (addr pos) a →
    sokN env n pos K a p0 old
  | .brackets _ b, pos, K, a, p0, old, h => by rw [sokN]; exact sokL_off b pos K a p0 old fun x => h x.sub
  | .named _ b, pos, K, a, p0, old, h => by rw [sokN]; exact sokL_off b pos K a p0 old fun x => h x.sub
  | .or b, pos, K, a, p0, old, h => by rw [sokN]; exact sokL_off b pos K a p0 old fun x => h x.sub
  | .rangeN s b, pos, K, a, p0, old, h => by
    rw [sokN]
    exact fun _ => ⟨fun x => absurd (x ▸ Sub.refl _) h, sokL_off b pos _ a p0 old fun x => h x.sub⟩
  | .ngRangeN s b, pos, K, a, p0, old, h => by
    rw [sokN]
    exact ⟨fun x => absurd (x ▸ Sub.refl _) h, sokL_off b pos _ a p0 old fun x => h x.sub⟩
  | .rangeNM _ _ b, pos, K, a, p0, old, h => by rw [sokN]; exact sokL_off b pos K a p0 old fun x => h x.sub
  | .ngRangeNM _ _ b, pos, K, a, p0, old, h => by rw [sokN]; exact sokL_off b pos K a p0 old fun x => h x.sub
  | .empty, _, _, _, _, _, _ => by rw [sokN]; trivial
  | .msym _, _, _, _, _, _, _ => by rw [sokN]; trivial
  | .symb _, _, _, _, _, _, _ => by rw [sokN]; trivial
  | .word _, _, _, _, _, _, _ => by rw [sokN]; trivial
  | .enum _, _, _, _, _, _, _ => by rw [sokN]; trivial
  | .nenum _, _, _, _, _, _, _ => by rw [sokN]; trivial
  | .bkTrace _, _, _, _, _, _, _ => by rw [sokN]; trivial
  | .bkTraceN _, _, _, _, _, _, _ => by rw [sokN]; trivial
  | .bkTraceName _, _, _, _, _, _, _ => by rw [sokN]; trivial
  | .bkTraceNName _, _, _, _, _, _, _ => by rw [sokN]; trivial
  | .bkBrack _, _, _, _, _, _, _ => by rw [sokN]; trivial
  | .bkBrackName _, _, _, _, _, _, _ => by rw [sokN]; trivial
  | .ahead _, _, _, _, _, _, _ => by rw [sokN]; trivial
  | .nahead _, _, _, _, _, _, _ => by rw [sokN]; trivial
  | .behind _ _, _, _, _, _, _, _ => by rw [sokN]; trivial
  | .nbehind _ _, _, _, _, _, _, _ => by rw [sokN]; trivial
end

mutual
theorem sokL_simple {env : Env} : ∀ (l : List Node) (up : List (List Node)) (K : Int → Option Int) (a : Addr) (p0 old : Int), simple l = true →
    sokL env l up K a p0 old
  | [], _, _, _, _, _, _ => by rw [sokL]; trivial
  | n :: ns, up, K, a, p0, old, h => by
    rw [simple, Bool.and_eq_true] at h
    rw [sokL]
    exact ⟨sokN_simple n _ _ a p0 old h.1, sokL_simple ns up K a p0 old h.2⟩
theorem sokN_simple {env : Env} : ∀ (n : Node) (pos : List (List Node)) (K : Int → Option Int) (a : Addr) (p0 old : Int), simpleN n = true →
    sokN env n pos K a p0 old
  | .brackets _ b, pos, K, a, p0, old, h => by rw [sokN]; rw [simpleN] at h; exact sokL_simple b pos K a p0 old h
  | .named _ b, pos, K, a, p0, old, h => by rw [sokN]; rw [simpleN] at h; exact sokL_simple b pos K a p0 old h
  | .empty, _, _, _, _, _, _ => by rw [sokN]; trivial
  | .msym _, _, _, _, _, _, _ => by rw [sokN]; trivial
  | .symb _, _, _, _, _, _, _ => by rw [sokN]; trivial
  | .word _, _, _, _, _, _, _ => by rw [sokN]; trivial
  | .enum _, _, _, _, _, _, _ => by rw [sokN]; trivial
  | .nenum _, _, _, _, _, _, _ => by rw [sokN]; trivial
  | .bkTrace _, _, _, _, _, _, _ => by rw [sokN]; trivial
  | .bkTraceN _, _, _, _, _, _, _ => by rw [sokN]; trivial
  | .bkTraceName _, _, _, _, _, _, _ => by rw [sokN]; trivial
  | .bkTraceNName _, _, _, _, _, _, _ => by rw [sokN]; trivial
  | .bkBrack _, _, _, _, _, _, _ => by rw [sokN]; trivial
  | .bkBrackName _, _, _, _, _, _, _ => by rw [sokN]; trivial
  | .ahead _, _, _, _, _, _, _ => by rw [sokN]; trivial
  | .nahead _, _, _, _, _, _, _ => by rw [sokN]; trivial
  | .behind _ _, _, _, _, _, _, _ => by rw [sokN]; trivial
  | .nbehind _ _, _, _, _, _, _, _ => by rw [sokN]; trivial
  | .or _, _, _, _, _, _, h => by rw [simpleN] at h; cases h
  | .rangeN _ _, _, _, _, _, _, h => by rw [simpleN] at h; cases h
  | .rangeNM _ _ _, _, _, _, _, _, h => by rw [simpleN] at h; cases h
  | .ngRangeN _ _, _, _, _, _, _, h => by rw [simpleN] at h; cases h
  | .ngRangeNM _ _ _, _, _, _, _, _, h => by rw [simpleN] at h; cases h
end

/-- `sok` says of the nodes of the chain what `sokL` says -/
def Agree (env : Env) (sok : Sok) (l : List Node) (up : List (List Node)) (K : Int → Option Int) : Prop :=
  ∀ a p0 old, Reg l.length (addr up) a → (sok a p0 old ↔ sokL env l up K a p0 old)

def AgreeAt (env : Env) (sok : Sok) (n : Node) (pos : List (List Node)) (K : Int → Option Int) : Prop :=
  ∀ a p0 old, Sub (addr pos) a → (sok a p0 old ↔ sokN env n pos K a p0 old)

theorem Agree.tail {env : Env} {sok : Sok} {n : Node} {ns : List Node} {up : List (List Node)} {K : Int → Option Int}
    (h : Agree env sok (n :: ns) up K) : Agree env sok ns up K := by
  intro a p0 old ha
  rw [h a p0 old (ha.mono (by simp)), sokL]
  exact ⟨fun x => x.2, fun x => ⟨sokN_off _ _ _ _ _ _ fun hs => sub_not_reg hs ha, x⟩⟩

theorem Agree.node {env : Env} {sok : Sok} {n : Node} {ns : List Node} {up : List (List Node)} {K : Int → Option Int}
    (h : Agree env sok (n :: ns) up K) : AgreeAt env sok n ((n :: ns) :: up) (afterK env n ns K) := by
  intro a p0 old ha
  rw [h a p0 old ha.reg, sokL]
  exact ⟨fun x => x.1, fun x => ⟨x, sokL_off _ _ _ _ _ _ (sub_not_reg ha)⟩⟩

theorem AgreeAt.body {env : Env} {sok : Sok} {n : Node} {b : List Node} {pos : List (List Node)} {K K' : Int → Option Int}
    (h : AgreeAt env sok n pos K) (hb : ∀ a p0 old, a ≠ addr pos → (sokN env n pos K a p0 old ↔ sokL env b pos K' a p0 old)) :
    Agree env sok b pos K' := by
  intro a p0 old ha
  rw [h a p0 old ha.sub, hb a p0 old ha.ne]

/-! ## Effects before the rest of a run -/

/-- the effect `m` → `m1` of the first part of a run whose result is `res` -/
structure Pre (T : Addr → Prop) (sok : Sok) (res : Option Int) (m m1 : Mem) : Prop where
  frame : ∀ a, ¬ T a → m1.vars a = m.vars a
  ok : res = none → ∀ a, ((m1.vars a).p0 = (m.vars a).p0 ∧ (m1.vars a).old = (m.vars a).old) ∨ sok a (m1.vars a).p0 (m1.vars a).old

theorem Link.pre {T : Addr → Prop} {sok : Sok} {res : Option Int} {m m1 : Mem} (h : Link T sok m m1) : Pre T sok res m m1 :=
  ⟨h.frame, fun _ => h.ok⟩

theorem Post.pre {T : Addr → Prop} {sok : Sok} {Fin : Int → Mem → Prop} {res : Option Int} {m m1 : Mem} (h : Post T sok Fin m res m1) :
    Pre T sok res m m1 := ⟨h.frame, h.ok⟩

theorem Pre.link {T : Addr → Prop} {sok : Sok} {res : Option Int} {m m1 : Mem} (h : Pre T sok res m m1) (hr : res = none) : Link T sok m m1 :=
  ⟨h.frame, h.ok hr⟩

theorem Pre.trans {T : Addr → Prop} {sok : Sok} {res : Option Int} {m m1 m2 : Mem} (h : Pre T sok res m m1) (h1 : Pre T sok res m1 m2) :
    Pre T sok res m m2 :=
  ⟨fun a ha => (h1.frame a ha).trans (h.frame a ha), fun hr => ((h.link hr).trans (h1.link hr)).ok⟩

theorem Pre.post {T : Addr → Prop} {sok : Sok} {Fin : Int → Mem → Prop} {res : Option Int} {m m1 m2 : Mem} (h : Pre T sok res m m1)
    (h1 : Post T sok Fin m1 res m2) : Post T sok Fin m res m2 :=
  ⟨(h.trans h1.pre).frame, (h.trans h1.pre).ok, h1.fin⟩

theorem pre_set {T : Addr → Prop} {sok : Sok} {res : Option Int} {m : Mem} {a : Addr} {v : Vars} (ht : T a)
    (h : res = none → (v.p0 = (m.vars a).p0 ∧ v.old = (m.vars a).old) ∨ sok a v.p0 v.old) : Pre T sok res m (m.set a v) :=
  ⟨fun b hb => set_other m v (by rintro rfl; exact hb ht), fun hr => (link_set ht (h hr)).ok⟩

theorem set_self (m : Mem) (a : Addr) : m.set a (m.vars a) = m := by
  cases m with
  | mk vars mm s e =>
    simp only [Mem.set]
    congr 1
    funext b
    by_cases h : b = a <;> simp [h]

/-- `Inv` does not speak about the nodes in `R` -/
def Loc (R : Addr → Prop) (Inv : Mem → Prop) : Prop := ∀ m m', Inv m → (∀ a, ¬ R a → m'.vars a = m.vars a) → Inv m'

theorem Loc.mono {R R' : Addr → Prop} {Inv : Mem → Prop} (h : Loc R' Inv) (hr : ∀ a, R a → R' a) : Loc R Inv :=
  fun m m' hi hf => h m m' hi (fun a ha => hf a fun x => ha (hr a x))

theorem Loc.set {R : Addr → Prop} {Inv : Mem → Prop} (h : Loc R Inv) {m : Mem} (hi : Inv m) {a : Addr} (ha : R a) (v : Vars) : Inv (m.set a v) :=
  h m _ hi (fun b hb => set_other m v (by rintro rfl; exact hb ha))

theorem Loc.eff {R : Addr → Prop} {Inv : Mem → Prop} (h : Loc R Inv) {m m' : Mem} (hi : Inv m) (he : Eff R m m') : Inv m' :=
  h m m' hi he.frame

/-! ## The two statements -/

/-- a run over the chain `l` -/
def LeftOk (env : Env) (H : Int) (l : List Node) : Prop :=
  ∀ (il : Bool) (up : List (List Node)) (K : Int → Option Int) (Tc : Addr → Prop) (sok : Sok) (Fin : Int → Mem → Prop) (Inv : Mem → Prop) (p : Int),
    inFrag il l = true → 0 ≤ p → p ≤ H → Agree env sok l up K → (il = false → ∀ a, Tc a → ¬ Reg l.length (addr up) a) →
    Stable (fun a => Reg l.length (addr up) a ∨ Tc a) sok Inv → Loc (Reg l.length (addr up)) Inv →
    (∀ q ∈ ends env l p, Runs env Tc sok Fin Inv ⟨up, false, q⟩ (K q)) →
    Runs env (fun a => Reg l.length (addr up) a ∨ Tc a) sok Fin Inv ⟨l :: up, true, p⟩ ((ends env l p).findSome? K)

/-- a run over the node `n`, not an alternative -/
def NodeOk (env : Env) (H : Int) (n : Node) : Prop :=
  ∀ (il : Bool) (ns : List Node) (up : List (List Node)) (K : Int → Option Int) (Tn : Addr → Prop) (sok : Sok) (Fin : Int → Mem → Prop)
    (Inv : Mem → Prop) (p : Int), inFragN il n = true → 0 ≤ p → p ≤ H → AgreeAt env sok n ((n :: ns) :: up) K →
    (il = false → ∀ a, Tn a → ¬ Sub (addr ((n :: ns) :: up)) a) →
    Stable (fun a => Sub (addr ((n :: ns) :: up)) a ∨ Tn a) sok Inv → Loc (Sub (addr ((n :: ns) :: up))) Inv →
    (∀ q ∈ endsN env n p, Runs env Tn sok Fin Inv ⟨ns :: up, true, q⟩ (K q)) →
    Runs env (fun a => Sub (addr ((n :: ns) :: up)) a ∨ Tn a) sok Fin Inv ⟨(n :: ns) :: up, true, p⟩ ((endsN env n p).findSome? K)

/-- one round: the step leads to `c'` with the memory `m1` -/
theorem lands_goto {env : Env} {c c' : Cfg} {m m1 : Mem} {S : List Elem} {T T' : Addr → Prop} {sok : Sok} {Fin : Int → Mem → Prop}
    {Inv : Mem → Prop} {res : Option Int} {act : Option Act} (hs : step env ⟨c, act, m, S⟩ = .inl ⟨c', none, m1, S⟩) (hp : Pre T sok res m m1)
    (hi : Inv m1) (hr : Runs env T' sok Fin Inv c' res) (ht : ∀ a, T' a → T a) : Lands env ⟨c, act, m, S⟩ res.isSome S (Post T sok Fin m res) :=
  lands_step hs (lands_mono (hr m1 S hi) fun _ h => hp.post (h.mono ht))

/-! ## Nodes without choices -/

theorem node_det {env : Env} {H : Int} {n : Node}
    (hd : ∀ (ns : List Node) (up : List (List Node)) (p : Int), 0 ≤ p → p ≤ H →
      Det env (Sub (addr ((n :: ns) :: up))) ⟨(n :: ns) :: up, true, p⟩ (fun q => ⟨ns :: up, true, q⟩) (endsN env n p)) : NodeOk env H n := by
  intro il ns up K Tn sok Fin Inv p hf h0 h1 hag hdis hst hloc hk m S hi
  rcases hd ns up p h0 h1 with ⟨e, l⟩ | ⟨q, e, l⟩
  · rw [e]
    exact lands_mono (l m S) fun m' h => (h.link fun a ha => Or.inl ha).post
  · obtain ⟨m', e1, r⟩ := l m S
    rw [e] at hk ⊢
    have := hk q (by simp) m' S (hloc.eff hi e1)
    rw [show [q].findSome? K = K q by rw [List.findSome?_cons]; cases K q <;> rfl]
    exact lands_reach r (lands_mono this fun m2 h => (e1.link fun a ha => Or.inl ha).pre.post (h.mono fun a ha => Or.inr ha))

/-! ## Brackets -/

theorem node_wrap {env : Env} {H : Int} {n : Node} {b : List Node} (hb : LeftOk env H b)
    (hin : ∀ ns up p m, execNode env n ns up true p m = (.goto ⟨b :: (n :: ns) :: up, true, p⟩,
      m.set (addr ((n :: ns) :: up)) { m.vars (addr ((n :: ns) :: up)) with start := p }))
    (hout : ∀ ns up q m, ∃ m', execNode env n ns up false q m = (.goto ⟨ns :: up, true, q⟩, m') ∧ m'.vars = m.vars)
    (hends : ∀ p, endsN env n p = ends env b p) (hfr : ∀ il, inFragN il n = true → inFrag il b = true)
    (hsok : ∀ pos K a p0 old, sokN env n pos K a p0 old ↔ sokL env b pos K a p0 old) : NodeOk env H n := by
  intro il ns up K Tn sok Fin Inv p hf h0 h1 hag hdis hst hloc hk m S hi
  rw [hends] at hk ⊢
  have hs : step env ⟨⟨(n :: ns) :: up, true, p⟩, none, m, S⟩ = .inl ⟨⟨b :: (n :: ns) :: up, true, p⟩, none,
      m.set (addr ((n :: ns) :: up)) { m.vars (addr ((n :: ns) :: up)) with start := p }, S⟩ := by
    have : step env ⟨⟨(n :: ns) :: up, true, p⟩, none, m, S⟩ = after ⟨(n :: ns) :: up, true, p⟩ S (execNode env n ns up true p m) := rfl
    rw [this, hin]; rfl
  have key := hb il ((n :: ns) :: up) K Tn sok Fin Inv p (hfr il hf) h0 h1 (hag.body fun a p0 old _ => hsok _ _ _ _ _)
    (fun h a ha hr => hdis h a ha hr.sub) (hst.mono fun a ha => ha.imp (fun x => x.sub) id) (hloc.mono fun a ha => ha.sub) (by
      intro q hq m S hi
      obtain ⟨m', e, v⟩ := hout ns up q m
      refine lands_goto (m1 := m') ?_ (Link.pre ⟨fun a _ => by rw [v], fun a => by rw [v]; exact Or.inl ⟨rfl, rfl⟩⟩)
        (hloc m m' hi (fun a _ => by rw [v])) (hk q hq) fun a ha => ha
      have : step env ⟨⟨(n :: ns) :: up, false, q⟩, none, m, S⟩ = after ⟨(n :: ns) :: up, false, q⟩ S (execNode env n ns up false q m) := rfl
      rw [this, e]; rfl)
  refine lands_goto hs (pre_set (Or.inl (Sub.refl _)) fun _ => Or.inl ⟨rfl, rfl⟩) (hloc.set hi (Sub.refl _) _) key ?_
  exact fun a ha => ha.imp (fun x => x.sub) id

/-! ## Looking around -/

/-- the run inside a look-ahead or look-behind -/
theorem look_body {env : Env} {H : Int} {n : Node} {b ns : List Node} {up : List (List Node)} (hb : LeftOk env H b)
    (hout : ∀ q m, execNode env n ns up false q m = (.succ, m)) (hf : inFrag false b = true) {p : Int} (h0 : 0 ≤ p) (h1 : p ≤ H) :
    Runs env (fun a => Reg b.length (addr ((n :: ns) :: up)) a ∨ False) (sokL env b ((n :: ns) :: up) some) (fun _ _ => True) (fun _ => True)
      ⟨b :: (n :: ns) :: up, true, p⟩ ((ends env b p).findSome? some) := by
  refine hb false ((n :: ns) :: up) some (fun _ => False) (sokL env b ((n :: ns) :: up) some) (fun _ _ => True) (fun _ => True) p hf h0 h1
    (fun a p0 old _ => Iff.rfl) (by simp) (fun _ _ _ _ => trivial) (fun _ _ _ _ => trivial) ?_
  intro q _ m S _
  refine lands_pop (m := m) ?_ ⟨fun _ _ => rfl, by simp, by simp⟩
  have : step env ⟨⟨(n :: ns) :: up, false, q⟩, none, m, S⟩ = after ⟨(n :: ns) :: up, false, q⟩ S (execNode env n ns up false q m) := rfl
  rw [this, hout]; rfl

theorem find_some_isSome (l : List Int) : (l.findSome? some).isSome = !decide (l = []) := by cases l <;> simp

/-- looking around from `p` at the position `p'`; `neg`: for the negative ones -/
theorem node_look {env : Env} {H : Int} {n : Node} {b : List Node} (hb : LeftOk env H b) (neg : Bool) {p p' : Int} (h0 : 0 ≤ p') (h1 : p' ≤ H)
    {ns : List Node} {up : List (List Node)} {K : Int → Option Int} {Tn : Addr → Prop} {sok : Sok} {Fin : Int → Mem → Prop} {Inv : Mem → Prop}
    (hf : inFrag false b = true)
    (hin : ∀ m, execNode env n ns up true p m = (.call ⟨b :: (n :: ns) :: up, true, p'⟩ (if neg then .no else .brk) (if neg then .brk else .no), m))
    (hout : ∀ q m, execNode env n ns up false q m = (.succ, m)) (hsok : ∀ pos K a p0 old, sokN env n pos K a p0 old)
    (hends : endsN env n p = if (decide (ends env b p' = [])) = neg then [p] else [])
    (hag : AgreeAt env sok n ((n :: ns) :: up) K) (hloc : Loc (Sub (addr ((n :: ns) :: up))) Inv)
    (hk : ∀ q ∈ endsN env n p, Runs env Tn sok Fin Inv ⟨ns :: up, true, q⟩ (K q)) :
    Runs env (fun a => Sub (addr ((n :: ns) :: up)) a ∨ Tn a) sok Fin Inv ⟨(n :: ns) :: up, true, p⟩ ((endsN env n p).findSome? K) := by
  intro m S hi
  have hs : step env ⟨⟨(n :: ns) :: up, true, p⟩, none, m, S⟩ = .inl ⟨⟨b :: (n :: ns) :: up, true, p'⟩, none, m,
      ⟨⟨(n :: ns) :: up, true, p⟩, if neg then .no else .brk, if neg then .brk else .no⟩ :: S⟩ := by
    have : step env ⟨⟨(n :: ns) :: up, true, p⟩, none, m, S⟩ = after ⟨(n :: ns) :: up, true, p⟩ S (execNode env n ns up true p m) := rfl
    rw [this, hin]; rfl
  refine lands_step hs (lands_bind (look_body hb hout hf h0 h1 m _ trivial) fun m1 hp => ?_)
  have hl : Link (fun a => Sub (addr ((n :: ns) :: up)) a ∨ Tn a) sok m m1 := by
    refine ⟨fun a ha => hp.frame a ?_, fun a => ?_⟩
    · rintro (x | x)
      · exact ha (Or.inl x.sub)
      · exact x
    · by_cases ha : Sub (addr ((n :: ns) :: up)) a
      · exact Or.inr ((hag a _ _ ha).mpr (hsok _ _ _ _ _))
      · left
        rw [hp.frame a]
        · exact ⟨rfl, rfl⟩
        · rintro (x | x)
          · exact ha x.sub
          · exact x
  have hi1 : Inv m1 := by
    refine hloc m m1 hi (fun a ha => hp.frame a ?_)
    rintro (x | x)
    · exact ha x.sub
    · exact x
  rw [find_some_isSome]
  have go : endsN env n p = [p] → Lands env ⟨⟨(n :: ns) :: up, true, p⟩, some .brk, m1, S⟩ ((endsN env n p).findSome? K).isSome S
      (Post (fun a => Sub (addr ((n :: ns) :: up)) a ∨ Tn a) sok Fin m ((endsN env n p).findSome? K)) := by
    intro e
    rw [e] at hk ⊢
    rw [show [p].findSome? K = K p by rw [List.findSome?_cons]; cases K p <;> rfl]
    refine lands_step rfl (lands_mono (hk p (by simp) m1 S hi1) fun _ h => hl.pre.post (h.mono fun a ha => Or.inr ha))
  have stay : endsN env n p = [] → Lands env ⟨⟨(n :: ns) :: up, true, p⟩, some .no, m1, S⟩ ((endsN env n p).findSome? K).isSome S
      (Post (fun a => Sub (addr ((n :: ns) :: up)) a ∨ Tn a) sok Fin m ((endsN env n p).findSome? K)) := by
    intro e
    rw [e]
    exact lands_no rfl hl.post
  cases neg <;> by_cases he : ends env b p' = [] <;> simp only [he, decide_true, decide_false, if_true, Bool.false_eq_true, if_false,
    Bool.true_eq_false] at hends <;> simp only [he, decide_true, decide_false, Bool.not_true, Bool.not_false, if_true, Bool.false_eq_true, if_false]
  · exact stay hends
  · exact go hends
  · exact go hends
  · exact stay hends

end Verif.RegExp
